import Verif.Model.Learn
import Verif.Model.Wta
import Verif.Model.Inference
import Verif.Model.Generators
import Verif.Model.Dataset

/-!
# The MNIST example

Models `/repo/examples/mnist-learn`, BLIFAT variant: `models/blifat/construct_network.cpp`, `models/blifat/spike_generators.cpp`, the
program of `training.h` and that of `inference.h`.  The numbers of `hyperparameters.h` and `global_config.h` are parameters; `Verif/Props/Mnist.lean`
has the ones of the repository.  Simplification: the lookup by neuron of a projection gives the synapses in their order.
-/

namespace Knp.Mnist
open Knp Knp.Neurons Knp.Stdp Knp.Infer

/-- What the example fixes in `blifat/hyperparameters.h` and `global_config.h`: `classes_amount`, `neurons_per_column`, `input_size`,
`num_subnetworks`; the neurons of the input population and of the others (construct_network.cpp:68-79); the weights of the trained synapses
and their `dopamine_plasticity_period_` (l. 109-114).  `eps` is that of `resource_from_weight`. -/
structure Params (F : Type) where
  classes : Nat
  perColumn : Nat
  inputSize : Nat
  subnetworks : Nat
  inputNeuron : Res (Blifat F) F
  otherNeuron : Res (Blifat F) F
  base : F
  wMin : F
  wMax : F
  eps : F
  period : Nat

/-- `num_input_neurons` (hyperparameters.h:104). -/
def Params.inputs {F : Type} (p : Params F) : Nat := p.perColumn * p.classes

variable {F : Type}

/-- The numbers of the entries of a list that are `n`. -/
def places (l : List Nat) (n : Nat) : List Nat := (List.range l.length).filter (fun k => l[k]? == some n)

/-- Parameters of a delta synapse (synapse-traits/delta.h:60-84). -/
structure DeltaParams (F : Type) where
  weight : F
  delay : Nat
  outType : OutputType

/-- A projection of delta synapses. -/
def deltaSyns (l : List (Synapse (DeltaParams F))) : Learn.Syns F :=
  .delta ⟨l.map (fun s => ⟨s.src, s.dst, s.params.weight, s.params.delay, s.params.outType⟩), places (l.map (fun s => s.src))⟩

/-- A projection of resource STDP synapses; no STDP populations are set. -/
def resourceSyns [Zero F] (l : List (Synapse (SynRule F))) : Learn.Syns F :=
  .resource [] (l.map (fun s => ⟨s.src, s.dst, 0, 1, .excitatory, s.params⟩)) (places (l.map (fun s => s.src))) (places (l.map (fun s => s.dst)))

/-- What the network constructor is given: neurons of a population; lock, synapses of a projection. -/
abbrev PBody (F : Type) := List (Res (Blifat F) F)
abbrev JBody (F : Type) := Bool × Learn.Syns F

variable [Field F] [LinearOrder F]

/-- A projection of `add_projection` with the creator `aligned` (network_constructor.h:184-197; projections are locked until unlocked,
projection.h:432). -/
def alignedProj (n m : Nat) (par : DeltaParams F) : Outcome (JBody F) :=
  (Gen.aligned 0 0 n m (fun _ _ => par)).bind fun c => .ok (true, deltaSyns c.synapses)

/-- The raster projection (construct_network.cpp:108-119): all to all, trained. -/
def rasterProj (p : Params F) : Outcome (JBody F) :=
  (resourceFromWeight p.eps p.base p.wMin p.wMax).bind fun r =>
  (Gen.allToAll 0 0 p.inputSize p.inputs (fun _ _ => (⟨r, p.wMin, p.wMax, 0, p.period, 0, false, false⟩ : SynRule F))).bind fun c =>
  .ok (false, resourceSyns c.synapses)

/-- `create_populations` and `create_projections` for one subnetwork (construct_network.cpp:64-199) as calls of the constructor.  Populations by
number: 0 input, 1 output, 2 gate, 3 raster, 4 target.  Population type 1 is SynapticResourceSTDPBLIFAT, projection type 0 delta, 1 resource STDP. -/
def subnetwork (p : Params F) : Outcome (List (Infer.Op (PBody F) (JBody F))) :=
  (rasterProj p).bind fun raster =>
  (alignedProj p.classes p.inputs ⟨18 / 100, 3, .dopamine⟩).bind fun reward =>
  (alignedProj p.inputs p.classes ⟨10, 1, .excitatory⟩).bind fun toOutput =>
  (alignedProj p.classes p.classes ⟨-10, 1, .blocking⟩).bind fun toGate =>
  (alignedProj p.classes p.classes ⟨10, 1, .excitatory⟩).bind fun labelToGate =>
  (alignedProj p.classes p.inputs ⟨10, 1, .excitatory⟩).bind fun gateToInput =>
  (alignedProj p.classes p.inputs ⟨-30, 4, .excitatory⟩).bind fun reset =>
  .ok [.population false true 1 (List.replicate p.inputs p.inputNeuron),
       .population true true 1 (List.replicate p.classes p.otherNeuron),
       .population false false 1 (List.replicate p.classes p.otherNeuron),
       .channeled true,
       .channeled false,
       .projection 3 0 1 raster false,
       .projection 4 0 0 reward false,
       .projection 0 1 0 toOutput true,
       .projection 1 2 0 toGate false,
       .projection 4 2 0 labelToGate false,
       .projection 2 0 0 gateToInput false,
       .projection 4 0 0 reset false]

/-- The parts of `AnnotatedNetwork` the example fills itself (annotated_network.h:36-93). -/
structure Annotated (F : Type) where
  builder : Builder (PBody F) (JBody F)
  fromRaster : List UID
  fromClasses : List UID
  wtaData : List (List UID × List UID)
  wtaBorders : List Nat

/-- One subnetwork (construct_network.cpp:212-222): a new constructor (`infos`); populations and projections get the UIDs `fresh`, `fresh + 1`, …
in the order of their creation: input, output, gate population, then the seven projections.  `wta_data_` gets the input population as
sender (l. 219) and the projection to the output population as receiver (l. 149), `projections_from_raster_` the first projection (l. 122),
`projections_from_classes_` the second, fifth and seventh (l. 136, 172, 196). -/
def addSubnetwork (ops : List (Infer.Op (PBody F) (JBody F))) (a : Annotated F) : Annotated F :=
  let f := a.builder.fresh
  { a with
    builder := { a.builder with infos := [] }.run ops
    fromRaster := a.fromRaster ++ [f + 3]
    fromClasses := a.fromClasses ++ [f + 4, f + 7, f + 9]
    wtaData := a.wtaData ++ [([f], [f + 5])] }

/-- `construct_network<BLIFATNeuron>` (construct_network.cpp:203-223); `fresh` is the first free UID. -/
def construct (p : Params F) (fresh : Nat) : Outcome (Annotated F) :=
  (subnetwork p).bind fun ops =>
  .ok ((List.range p.subnetworks).foldl (fun a _ => addSubnetwork ops a)
    ⟨Builder.new fresh, [], [], [], (List.range p.classes).map (fun i => p.perColumn * (i + 1))⟩)

/-- The populations of a network as the backend holds them after `load_all_populations`; `arith` is the arithmetic of the neurons. -/
def loadPops {N : Type} (arith : Arith F) (n : Network (PBody F) (JBody F)) : List (Learn.Pop N (Blifat F) F) :=
  n.populations.map (fun e => .trained e.uid (@resBlifat F arith) blifatOps e.body)

omit [Field F] [LinearOrder F] in
/-- The projections after `load_all_projections`: nothing waits; the impacts of projections without training are forcing
(stdp_dispatcher.h:54-58, synaptic_resource_stdp.h:58-62). -/
def loadProjs (n : Network (PBody F) (JBody F)) : List (Learn.Proj F) :=
  n.projections.map (fun e => ⟨⟨e.uid, e.pre, e.post, e.kind == 0⟩, e.body.1, e.body.2, []⟩)

/-! ## Training -/

/-- `make_training_labels_spikes_generator` (blifat/spike_generators.cpp:33-43); `get_data_for_training().first[k]` is frame `k`, undefined if there
is none. `labelStep` is 11. -/
def labelSpikes (d : Data.Dataset) (labelStep t : Nat) : Outcome (List Nat) :=
  if d.stepsPerFrame = 0 then .ub
  else if t % d.stepsPerFrame = labelStep then
    match d.frames[t / d.stepsPerFrame]? with
    | some f => .ok [f.1]
    | none => .ub
  else .ok []

/-- The UIDs the program of `training.h` makes: channels of images and labels, output channel, handlers. -/
structure Uids where
  raster : UID
  labels : UID
  out : UID
  handler : Nat → UID

omit [Field F] [LinearOrder F] in
/-- `build_channel_map_train` (training.h): which projection hears which channel. -/
def trainInputs (a : Annotated F) (u : Uids) : List (UID × UID) :=
  a.fromRaster.map (fun j => (j, u.raster)) ++ a.fromClasses.map (fun j => (j, u.labels))

omit [Field F] [LinearOrder F] in
/-- Endpoints of the training program (training.h: `build_channel_map_train`, `train_network`): two input channels, one output channel, the
winner-take-all handlers, loggers.  Simplification: the images' channel is served before the labels' one (in the code the order is that of
their random UIDs); this changes only the order of their messages. -/
def trainLayout (a : Annotated F) (u : Uids) (loggers : List Prog.Observer) : Prog.Layout :=
  (Prog.addWtaHandlers u.handler 0 ⟨[u.raster, u.labels], [(u.out, a.builder.outputs)], [], loggers⟩ a.wtaData).1

/-- What a generator gives when it is defined. -/
def given (r : Outcome (List Nat)) : List Nat :=
  match r with
  | .ok l => l
  | _ => []

/-- The functions of the training program: images and labels, winner takes all, any observer functions.  `draw`, `advance` as in `wtaCode`.
Simplification: an undefined answer of a generator is the empty one here; the theorems state that there is none. -/
def trainCode {σ : Type} (p : Params F) (a : Annotated F) (d : Data.Dataset) (labelStep winners maxSize : Nat) (observe : Nat → σ → List (Message F) → σ)
    (draw : Nat → σ → Nat → Nat → Nat) (advance : Nat → σ → σ) : Prog.Code σ F :=
  Prog.wtaCode { gen := fun k u t => (given (if k = 0 then d.trainingImages t else labelSpikes d labelStep t), u)
                 handle := fun _ u _ => ([], u)
                 observe := observe } 0 p.subnetworks maxSize a.wtaBorders winners draw advance

/-- `model_executor.start` of `train_network` (training.h): until the step is the number of training steps. -/
def trainPred {σ : Type} (d : Data.Dataset) (u : σ) (t : Nat) : Bool × σ := (decide (t ≠ d.stepsTraining), u)

end Knp.Mnist
