# Formal model of KasperskyLab/knp in Lean 4 — design

## 1. What is here

* `properties.jsonl` – the English properties (C01…).
* `lean/Verif/Model/*.lean` – the executable model, function by function; every definition
  cites the file and lines of `/repo` it models and says where it simplifies.
* `lean/Verif/Spec/*.lean` – small specifications used in theorem statements that are not
  one-liners (they never call the model's helpers).
* `lean/Verif/Lemmas/*.lean` – helper lemmas.
* `lean/Verif/Props/*.lean` – the property theorems only, each followed by an `example`
  showing that its hypotheses are met by a concrete non-trivial case.
* `MANIFEST.json` – property → theorems.  `seeded/LOG.jsonl` – mutation tests of the theorems.

Conventions: C++ values are immutable Lean values; a mutating method returns the new state.
`std::vector` is `List`; a `std::map`/`unordered_map`/multi-index is an association list or a
function, and no theorem depends on the iteration order of an unordered container.
Undefined behaviour is an explicit outcome (`Except`/`Option` constructor `ub`), an exception is
an explicit outcome (`throw`), so theorems say on which inputs these happen.
Unsigned machine arithmetic is modelled with `UInt64`/`BitVec`/`mod 2^64` where wrap-around matters.
Floating point: where the property does not depend on the laws of arithmetic the model is generic in
an arbitrary carrier with uninterpreted operations (so the theorem covers IEEE floats, NaN included);
where it does (resource conservation, weight bounds, rescaling) it is stated over an ordered field and
marked as ignoring rounding.
Concurrency: small-step transition systems; theorems quantify over all schedules.
When the property is false of the code, the negation is proved with a concrete witness
(`…_refuted`/`…_counterexample`) and the strongest true part is proved as `…_partial`.

## 2. Trusted base

* Lean 4.33.0 kernel; axioms at most `propext`, `Classical.choice`, `Quot.sound` (Lean's standard ones).
* The reading of the C++ source: code is not run; the model is tied to it by the citations only.
* Behaviour of libraries taken as their documented contract: STL containers/algorithms, boost
  multi_index/uuid, flatbuffers (field-wise accessor/builder contract), HDF5/JSON libraries
  (a dataset read returns what was written under that name), iostream formatting of integers,
  `std::mt19937` (an arbitrary sequence of draws).
* libzmq (`Model/Zmq`): a pipe is first-in-first-out and holds at least `sure`, at most `hard` messages (default high-water marks:
  1000 on each end); a ROUTER reads from any non-empty pipe, identity frame first; a PUB gives a message to every attached SUB whose
  pipe takes it and drops it otherwise; attaching happens at an arbitrary time after connecting; pipes of closed DEALER sockets are
  still read. Sockets are used by one thread at a time.
* CUDA vectors are lists in `Model/Cuda`; their memory is modelled separately (`Model/CudaVector`): elements have value semantics (what an element
  owns is not modelled), a kernel over a range is one operation.
* CUDA (`Model/Cuda`): a kernel runs each of its threads once, in any order, one memory access after another; calls of the CUDA runtime do
  not fail; device memory is a list of objects per vector; pointers copied to the device stay valid.
* Not modelled: Python bindings, logging text, visualiser, device power
  measurement, `dlopen` loading, memory exhaustion, performance.

## 3. Plan per property

| id | model | proof |
|----|-------|-------|
| C01 | `Model/Projection`: contents, lookup index, "index fresh" flag, all public operations | invariant over histories; refuted in general (stale index after removing a target neuron with a fresh index) + partial |
| C02 | same; removal through rebuilt index and shifting erases | fold-erase lemma = filter |
| C03 | same | direct, list filter |
| C04 | same | induction on the iteration count |
| C05, C80 | `Model/Population` with wrapping index shift, UB outcome | sorted lists: induction; unsorted: refutation |
| C06–C09 | `Model/Bus` (endpoints, send/recv vectors, subscriptions, routing loop) | refinement to "filter by subscription"; conservation; order lemma; order across rounds refuted |
| C10–C14 | `Model/Bus` subscriptions | invariants over histories, refutations for the sender filter and `remove_receiver` |
| C15 | `Model/Messages` envelope tables | round-trip |
| C16 | token-stream model of `<<`/`>>` | round-trip; refutation for reused objects |
| C17 | impact equality | refutation + partial |
| C18 | `Model/Uid`: 64-bit atomic counter, byte encoding | injectivity of encoding + counter, any interleaving |
| C19 | lexicographic order on 16 bytes, reversed as in the code | order lemmas |
| C20 | `Model/Tag` | map laws; refutation for failed typed reads |
| C21–C23 | `Model/Network` | invariant over histories, refutation for the variant path |
| C24,C25 | `Model/ModelLoader` with explicit hash buckets | invariant; refutation under collision + partial |
| C26 | `Model/Executor` event trace | induction over steps |
| C27–C30 | `Model/Backend` run loop with throwing steps | induction; refutations for `running()` and multi-device selection |
| C31–C35 | `Model/Io` | sorted-list window lemma; parsing round-trip; folds |
| C36–C39 | `Model/Handlers`, random numbers as an arbitrary function | sub-multiset (`Subperm`) and count lemmas |
| C40,C41 | `Model/Validation` | iff characterisation; refutation for dangling references |
| C42–C48, C81 | `Model/Delta`, `Model/MultiThreaded` | history invariant (queue = pending impacts), schedule = permutation of tasks; refutations for zero delay, dropped messages, swapped UIDs |
| C47, C49–C55, C82, C83 | `Model/Neurons` generic arithmetic | induction over input histories |
| C56–C59 | `Model/Stdp` over an ordered field; wrap-around `UInt64` for the ISI clock | algebra; refutations |
| C84, C90 | `Model/Stdp` with the 64-bit step differences as written | algebra; refuted for early steps (wrap-around) |
| C85, C88, C89 | `Model/Stdp` additive part | refutations (unsigned distance, target used as source), bound by induction over steps |
| C86, C87 | `Model/Stdp` | frame lemmas for every pass; commutation of trainings + permutation induction |
| C60–C62, C91 | `Model/ThreadPool` small-step system | invariant over all interleavings |
| C63,C64 | `Model/BackendLoad` | fold lemma; refutation for removal (no-op) |
| C65–C68, C94 | `Model/Generators` | div/mod bijections, permutation of the full product; refutation for `aligned` |
| C69–C73, C95–C99 | `Model/Dataset`, `Model/Evaluation` | arithmetic, counting induction; refutation for recall |
| C74, C103 | `Model/Storage`, exact binary32/64 rounding | grouping round-trip; rounding error bound; refutations for big steps and time units |
| C75, C76 | `Model/Sonata`, tables of the members written and read | generic save/load round-trip, member coverage; refutations for lost members, order, empty parts, type tables |
| C77, C100–C102 | `Model/Monitoring` | fold conservation |
| C78,C92,C93 | `Model/BackendLoad` | fold lemmas over load / wiring; snapshot refinement |
| C79 | `Model/Normalize` over a linear ordered field | algebra |
| C104, C105 | `Model/System`: bus + endpoint + populations + projections of one backend | refinement to `Spec/System` (no bus) by a representation invariant over steps; delay history of C42/C43 composed with it |
| C106, C107 | `Model/SystemMulti`: the same with schedules | refinement to `Spec/SystemMulti`; simulation between both dataflows (queues equal up to order); refutation for two messages in a step |
| C108–C110 | `Model/Stdp` | effect of one pass on neuron and synapse; refutations with witnesses; filtering of messages by induction |
| C111–C115; C56–C58, C89 over runs | `Model/Learn`: the loop of `_step` for any machine, and the backend's machine with plain and trained populations, delta, resource and additive projections | refinement to `Spec/Learn` (no bus); per-projection trace of trainings and own steps; the history of C56 and the delay history of C42 (with changing weights) extracted from a run; refutation by a concrete network |
| C116–C122 | `Model/Program`: `ModelExecutor::start` with its pre- and post-step functions, input and output channels, handlers, observers, arbitrary program functions over shared state, on the bus and either CPU backend (`Model/Learn`, `Model/LearnMulti` with any schedule per step) | invariant over all endpoints between actions (`Lemmas/ProgramRun`), refinement of the backend's part to `Spec/Learn`; `Spec/Program` says from the visible trace which messages are waiting; C121 refuted by a concrete program |
| C123–C125 | `Model/LearnMulti`: `_step` of the multi-threaded backend with training: parts of populations and projections, order of training tasks and critical sections are inputs | refinement to `Spec/LearnMulti`; training tasks of different populations commute (C87); simulation up to the order inside messages between two schedules and between the backends, with queues compared from the current step on; refutation by a concrete network |
| C126 (also C56–C58, C112 `_threads`) | runs of `Model/LearnMulti` | each projection goes through the run as a trace of training steps and marking steps (`Lemmas/LearnMultiTrace`); the queue argument of C42 on a trace whose weights change |
| C127–C132 | `Model/Zmq` (DEALER/ROUTER/PUB/SUB pipes as lists; what ZeroMQ decides – which pipe is read, when endpoints are attached, how late a writer learns of room – is an input of each call) | tracking invariant for one sender's messages through pipe, frame, pipe, store; induction over steps of the bus inside a routing; refutations by induction on the limit of the pipe, for every limit; comparison with `Model/Bus` through C06 and C08 |
| C133, C135–C141 | `Model/Cuda`: device bus, kernels with arbitrary thread orders (`Sched`), host bus as in `Model/Bus`; `Spec/Cuda`: dataflow `DevRun` without bus and subscriptions | step invariant (`Btw`: device subscriptions = wiring, store of the endpoint empty, queues = queues of the CPU projection with the time written in), induction over the steps; end-to-end by C42/C43 of the CPU projection; refutations on small runs |
| C134, C143 | `Model/Cuda` `calculate_population` against `Model/Neurons` | equality for one impact, refutations; invariant of the loop over the impacts |
| C142 | `Model/Cuda` devices and UIDs | direct |
| C144, C145 | `Model/CudaVector`: memory of blocks and cells; `Spec/CudaVector`: vectors as lists | separation invariant (`Good`: each vector holds its list, no shared block, every block owned), preserved by each call, induction over histories; refutations by computation, device growth refuted for all states |
| C146, C147, C150 | `Model/Visualizer`: graph, adjacency lists, search with arbitrary set order, drawing as a list; `Spec/Visualizer` | invariant of the search (`Search`), reachability = connectedness, counting of drawn lines; refutations by computation |
| C148, C149 | `Model/Visualizer` layout over an ordered field, any norm | bounds of scaled coordinates; equal and opposite forces add up to nothing, induction over iterations |
| C151, C152 | `Model/Devices`: processors, moves with a UID generator, selection | induction over the processors, characterisation of the selection; refutations |
| C153 | `Model/Names` over `Model/Tag` | induction over histories of calls on the tags; refutation |
| C154–C158 | `Model/Inference` over `Model/Network`: the constructor, restoring, replacing winner-takes-all, quantisation, resource of a weight | invariant over histories of constructor calls; the three loops flattened into one over connections; ordered field with floor; refutations over ℚ |
| C159 | `Model/Wta` (add_wta_handlers over `Model/Program`, random engines as arbitrary functions of the program's state) | handler input/delay (C117), user code (C122), one message per population per step (C119_senders) and the per-group selection (C37) composed; several senders refuted by a concrete run |
| C160, C161 | the same model with `Backend.multi` (constants, schedule by step number) | traces compared item by item: the visible trace determines what the rest of the program sends (C119), C124/C125's simulation gives the next step, order-blind functions give the same answers; refuted by concrete programs |
| C162 | the models of C111, C123 and C116-C122 | invariant: every waiting or queued impact fits the populations that hear its sender, training and stepping keep neuron kinds, counts and targets; progress by constructing an order of the tasks; `Takes` characterised exactly per neuron kind |
| C163 | the weight formula with every operation rounded to p bits, ties to even (no overflow, no subnormal numbers) | rounding is monotone, idempotent and has relative error 2^-p; witnesses by evaluation |
| C164 | `Model/Resume` over `Model/System` and `Model/Learn`: copy of a running network in a new backend | the dataflow of C104 moved on by n steps, split into two runs; invariant: every queued message is due before the end if every heard spike is; refutations by computation |
| C165 | `Model/ProgramLog`: the two loggers of `Model/Monitoring` as observers of `Model/Program` | the calls an observer gets, from C118 and the step number at every iteration; window arithmetic over step numbers; refutation by a run |
| C166 | `Model/Mnist.lean`: `construct_network` (BLIFAT) as calls of the network constructor (C153) with the connectivity generators (C60...), the load into the backend, generators and endpoints of `train_network`. Spec: the picture of the network as a list of arrows. | `construct` computed in closed form by induction over subnetworks; connections from C60-C65; validity (C162) arrow by arrow; training from C162 and C119. Proved. |
| C167 | The same, on the program system. Spec: the label of a step, `PixelActive`, `Winners`. | C120 (channels), C159 (winners), C113 (end to end through delta synapses) instantiated with the picture. Proved. |
| C168 | `Model/MnistInference.lean`: `prepare_network_for_inference`, the inference program, `OutputChannel::update` called by the program, `std::sort` as any sorted permutation, on the network left by any training run of C167. Spec: the two arrows that are left (`keptArrows`, `Kept`), `ShownPixel`, `Winners`, `IsWinner`. | A run keeps UIDs, sizes, wiring and lookup (`Lemmas/Copy.lean`), so the copy is valid and C162 applies; C120, C159, C58, C113, C116, C97 instantiated with the picture. Proved. |
| C169 | `Model/MnistLog.lean`: `pop_names`, the raw spikes log of `infer_network`, the console spikes log, the weights log called as the executor calls observers. Spec: the lists of lines in the theorems, `weightLines`, `SynapsesAre`. | What a logger gets is C118 applied to the inference of C168; who sent it follows from `By` (Lemmas/ProgramWait); C122 for what is written; the weights log by induction on the actions, with the wiring kept by Lemmas/Copy and the sorted sections of C102. Proved. |
| C170 | `Model/Simple.lean`: the network, channels, generator, predicate and output of examples/simple-network, delays and input generator as parameters. Spec: `Rings` (when the neuron is due), `Counts` (laws of arithmetic). | Induction over the steps with the state of the neuron (`Ready`) as invariant; what it gets in a step is C113 for both projections, what the projections hear C119/C120/C122; `start` returns by C162 and C119; what is printed by C116. |
| C171 | `Model/Client.lean`: reading images from a byte list, `image_to_spikes` with rounded doubles, the generator with its out-of-range access, choice of input projections and output populations, observer function, predicate, of examples/mnist-client. | The loop by induction over the length of the file; thresholds by evaluation of the ten rounded numbers against all 256 brightnesses; what projections hear by C119/C120/C122 and what is reported by C118; `start` returns by C162 and C119. Refuted parts by concrete runs. |
| C172 | `Model/Loader.lean`: `make_creator`, `load`, `is_backend` over a file system that changes between calls; a library is what its `create_knp_backend` does. | Induction over the history: the cache holds exactly the creator first found at each path (`firstFound`). Refuted part by a concrete history. |
| C173 | `Spec/StdpRule.lean`: the whole training step as one formula on a neuron and its incoming synapses, over `Model/Stdp.lean`'s `train`. | Each pass over the references of a neuron is a map over its synapses and a sum (induction over the references, which do not repeat); references of different neurons are disjoint, so loops over neurons act one by one. |
| C174 | `Spec/NeuronStep.lean`: the step of a neuron as a formula, over `Model/Neurons.lean`. | Induction over the impacts of the step for the state they leave; case analysis of the last part of the step. |
| C175 | `Spec/ProjectionList.lean`: the calls on a plain list and a flag; the model is `Model/Projection.lean`. | Simulation, call by call, then induction over the history. |
| C176 | `Spec/StdpRule.lean` and the runs of C111: the trained projections a population sees in the middle of a step, compared with those before the step. | Invariant of the loop over the populations (the others keep the projections this one is trained with), then C115 and C173. |
| C177 | `Spec/AdditiveRule.lean`: one synapse, two bounded histories; the model is the additive part of `Model/Stdp.lean`. | Induction over messages and steps, one synapse at a time; C89_run for whole runs. |
| C178 | `Model/Power`: the meter, its constructor with dropped errors, histories of calls; energy and time exact (ℚ, ns), float rounding not modelled | invariant: the meter remembers the last successful sample; full statement refuted (whole seconds), bounds and exact condition proved |
| C179 | `Model/MnistAltai`: the AltAI variant of the MNIST example, construction and preparation for inference; picture in `Spec/MnistAltai` | the constructor's calls computed for symbolic sizes; connections by C66/C67 lemmas; inference composed of C154, C155, C156, C157 |
| C180 | `Model/Neurons.lean` (`altai`, `resAltai`), `stepPopulation` repeated over a history. Spec: `Carried`, `AltaiGood`. | The invariant "activity time above the least 64-bit integer" is kept by the pre and post functions and by every good impact; one step by C55, induction over the history. Refuted in full by two impacts of -2^63. |
| C181 | the models of C111, C116-C122 and C179; `Model/MnistAltai.lean` `loadPops`. Spec: `Spec/ValidState.lean` (`TakesIn`, `Steady`, `ValidNetIn`). | As C162 with one more invariant: all neurons are in safe states. A population step keeps it (C55), training changes the base part of a neuron only through its additional threshold. Validity of the AltAI network arrow by arrow (C179). Multi-threaded backend: the same invariant kept by every task of a phase (`Lemmas/ValidStateMulti.lean`), so by every order. Proved. |

Properties that cannot be expressed in a model: none of the above.
