import Verif.Model.System
import Verif.Model.Backend

/-!
# The CUDA backend

Models `knp/backends/gpu/cuda-backend`: the message bus on the device (`impl/cuda_bus`), the computation of populations and
projections (`impl/backend_impl.cu`) and the backend (`impl/backend.cu`).  The host side of it is an endpoint of the in-process
bus, index 0 of `Bus.World`, as for the other backends.

Kernels.  A kernel runs one thread per element (`get_blocks_config` starts at least as many threads as elements; threads past
the end return).  Two kernels have threads that write to a common place: `find_subscription_by_receiver`, where at most one thread
writes (theorem `find_any_order`), and `find_messages_kernel`, where `atomicAdd` hands out places in the order in which the threads arrive.
That order is an input of the model (`Sched`).  In all other kernels a thread writes only to its own element.

Simplifications: device memory is not modelled here (`CUDAVector` is a list), memory does not run
out and CUDA calls do not fail.  UIDs are converted byte by byte (`uid.cu`) and are the same numbers on both sides.
-/

namespace Knp.Cuda
open Knp Knp.Bus Knp.Neurons

variable {F : Type}

/-- `cuda::MessageVariant` (messaging.cuh:44): the message and `is_external_` of its header (message_header.cuh:37-58). -/
structure GMsg (F : Type) where
  body : Message F
  external : Bool
deriving Repr, DecidableEq

/-- `cuda::Subscription` (subscription.cuh:52-249). -/
structure Sub where
  kind : MsgKind
  receiver : UID
  senders : List UID
deriving Repr, DecidableEq

/-- `Subscription(receiver, senders, type)` (subscription.cuh:68-74): `add_sender` one after another. -/
def Sub.create (k : MsgKind) (r : UID) (xs : List UID) : Sub := ⟨k, r, setInsertAll [] xs⟩

/-- `add_sender` (subscription.cuh:145-150) for each sender. -/
def Sub.addAll (s : Sub) (xs : List UID) : Sub := { s with senders := setInsertAll s.senders xs }

/-- `is_my_message` (subscription.cuh:202-210). -/
def Sub.mine (s : Sub) (m : GMsg F) : Bool := m.body.kind == s.kind && s.senders.contains m.body.sender

/-- `CUDAPopulation<BLIFATNeuron>` (population.cuh:41-81). -/
structure Pop (F : Type) where
  uid : UID
  neurons : List (Blifat F)
deriving Repr, DecidableEq

/-- `CUDAProjection<DeltaSynapse>` (projection.cuh:44-136); `queue` is `messages_`. -/
structure Proj (F : Type) where
  ident : Delta.Ident
  synapses : List (Delta.Syn F)
  queue : List (SynapticImpactMessage F)
deriving Repr, DecidableEq

/-- `CUDABackendImpl` (backend_impl.cuh:65-314) with its `CUDAMessageBus`: `subs` is `subscriptions_`, `msgs` is
`messages_to_route_`. -/
structure Device (F : Type) where
  pops : List (Pop F)
  projs : List (Proj F)
  subs : List Sub
  msgs : List (GMsg F)
deriving Repr, DecidableEq

/-- A new device side. -/
def Device.fresh : Device F := ⟨[], [], [], []⟩

/-! ## Subscriptions -/

/-- One thread of `find_subscription_by_receiver` (message_bus.cu:44-52). -/
def findThread (subs : List Sub) (k : MsgKind) (r : UID) (out i : Nat) : Nat :=
  match subs[i]? with
  | some s => if s.kind == k && s.receiver == r then i else out
  | none => out

/-- `find_subscription` (message_bus.cu:63-80) when the threads run in the order `order`. -/
def findKernel (subs : List Sub) (k : MsgKind) (r : UID) (order : List Nat) : Nat :=
  if subs.length = 0 then 0 else order.foldl (findThread subs k r) subs.length

/-- `find_subscription`, threads in ascending order. -/
def findSub (subs : List Sub) (k : MsgKind) (r : UID) : Nat := findKernel subs k r (List.range subs.length)

/-- `subscribe_gpu` (message_bus.cuh:193-211). -/
def subscribeGpu (subs : List Sub) (k : MsgKind) (r : UID) (xs : List UID) : List Sub :=
  let i := findSub subs k r
  if i ≠ subs.length then subs.modify i (fun s => s.addAll xs) else subs ++ [Sub.create k r xs]

/-- `unsubscribe` (message_bus.cu:83-97). -/
def unsubscribeGpu (subs : List Sub) (k : MsgKind) (r : UID) : List Sub × Bool :=
  let i := findSub subs k r
  if i ≥ subs.length then (subs, false) else (subs.eraseIdx i, true)

/-- `subscribe_both` (message_bus.cuh:213-219, message_bus.cu:207-230). -/
def subscribeBoth (k : MsgKind) (r : UID) (xs : List UID) (s : List Sub × Endpoint F) : List Sub × Endpoint F :=
  (subscribeGpu s.1 k r xs, s.2.subscribe k r xs)

/-- An order in which `n` threads run, or in which a hash table is traversed. -/
def orderOf (n : Nat) (order : List Nat) : List Nat := if order.Perm (List.range n) then order else List.range n

/-- `sync_with_host` (message_bus.cu:285-296): `order` is the order of the hash table `subscriptions_` of the endpoint. -/
def syncWithHost (order : List Nat) (subs : List Sub) (e : Endpoint F) : List Sub × Endpoint F :=
  ((orderOf e.subs.length order).filterMap (fun i => e.subs[i]?)).foldl
    (fun a s => subscribeBoth s.kind s.receiver s.senders a) (subs, e)

/-- `init` (backend_impl.cu:400-417): UID 0 is the empty one. -/
def initSubs (projs : List (Proj F)) (subs : List Sub) : List Sub :=
  projs.foldl (fun subs j =>
    let subs := if j.ident.pre = 0 then subs else subscribeGpu subs .spike j.ident.uid [j.ident.pre]
    if j.ident.post = 0 then subs else subscribeGpu subs .impact j.ident.post [j.ident.uid]) subs

/-! ## Messages -/

/-- `unload_messages` (message_bus.cu:137-185) and the copying of the messages (backend_impl.cu:207-214, 280-287): the messages
of the subscription in the order in which the threads of `find_messages_kernel` arrive. -/
def unload (subs : List Sub) (msgs : List (GMsg F)) (order : List Nat) (k : MsgKind) (r : UID) : List (GMsg F) :=
  match subs[findSub subs k r]? with
  | none => []
  | some s => ((orderOf msgs.length order).filterMap (fun i => msgs[i]?)).filter s.mine

/-- The condition of `send_messages_to_host` (message_bus.cu:242) under which a message is sent. -/
def goesToHost (step : Nat) (m : GMsg F) : Bool :=
  (decide (m.body.header.sendTime = subU64 step 1) || decide (m.body.header.sendTime = step)) && !m.external

/-- `send_messages_to_host` (message_bus.cu:233-246). -/
def sendToHost (step : Nat) (msgs : List (GMsg F)) (e : Endpoint F) : Endpoint F :=
  (msgs.filter (goesToHost step)).foldl (fun e m => e.send m.body) e

/-- `make_gpu_message` (messaging.cu:96-109, 149-170, 210-216; message_header.cuh:63-67). -/
def gpuMessage (m : Message F) : GMsg F := ⟨m, true⟩

/-- The loop over the subscriptions of `receive_messages_from_host` (message_bus.cu:304-335). -/
def fetchLoop : List Sub → Endpoint F → List (GMsg F) → Endpoint F × List (GMsg F)
  | [], e, acc => (e, acc)
  | s :: subs, e, acc =>
    let u := e.unload s.kind s.receiver
    fetchLoop subs u.1 (acc ++ u.2.map gpuMessage)

/-- `receive_messages_from_host` (message_bus.cu:300-336). -/
def receiveFromHost (d : Device F) (e : Endpoint F) : Device F × Endpoint F :=
  let r := fetchLoop d.subs e.receiveAll.1 d.msgs
  ({ d with msgs := r.2 }, r.1)

/-! ## Populations -/

section
variable [Arith F]

/-- backend_impl.cu:445-452; `blifatDecay` has multiplied the potential. -/
def burst (n : Blifat F) : Blifat F :=
  if n.burstingPhase = 0 then n
  else if n.burstingPhase - 1 = 0 then { n with burstingPhase := n.burstingPhase - 1, potential := n.potential + n.reflexive }
  else { n with burstingPhase := n.burstingPhase - 1 }

/-- The first loop of `calculate_population` (backend_impl.cu:429-456). -/
def preNeuron (n : Blifat F) : Blifat F := blifatSave (burst (blifatDecay n))

/-- 2^32. -/
def two32 : Int := 4294967296

/-- backend_impl.cu:472-489.  The blocking period is cast to `unsigned int`. -/
def impactNeuron (n : Blifat F) (i : SynapticImpact F) : Outcome (Blifat F) :=
  match i.synapseType with
  | .excitatory => .ok { n with potential := n.potential + i.impactValue }
  | .inhibitoryCurrent => .ok { n with potential := n.potential - i.impactValue }
  | .inhibitoryConductance => .ok { n with conductance := n.conductance + i.impactValue }
  | .dopamine => .ok { n with dopamine := n.dopamine + i.impactValue }
  | .blocking =>
    match Arith.toI64 i.impactValue with
    | some v => if 0 ≤ v ∧ v < two32 then .ok { n with blocking := v } else .ub
    | none => .ub

/-- backend_impl.cu:466-498; an index outside of the population is undefined behaviour. -/
def impactAt (pop : List (Blifat F)) (i : SynapticImpact F) : Outcome (List (Blifat F)) :=
  match pop[i.postsynapticNeuronIndex]? with
  | some n =>
    match impactNeuron n i with
    | .ok n' => .ok (pop.set i.postsynapticNeuronIndex n')
    | .throw w => .throw w
    | .ub => .ub
  | none => .ub

/-- The impacts of one message (backend_impl.cu:464-499). -/
def impactMessage : List (SynapticImpact F) → List (Blifat F) → Outcome (List (Blifat F))
  | [], pop => .ok pop
  | i :: is, pop =>
    match impactAt pop i with
    | .ok pop' => impactMessage is pop'
    | .throw w => .throw w
    | .ub => .ub

/-- The second loop (backend_impl.cu:459-500). -/
def impactAll : List (SynapticImpactMessage F) → List (Blifat F) → Outcome (List (Blifat F))
  | [], pop => .ok pop
  | m :: ms, pop =>
    match impactMessage m.impacts pop with
    | .ok pop' => impactAll ms pop'
    | .throw w => .throw w
    | .ub => .ub

/-- backend_impl.cu:510-525. -/
def blockNeuron (n : Blifat F) : Blifat F :=
  if n.blocking ≤ 0 then
    let b := n.blocking + (if n.blocking < 0 then 1 else 0)
    { n with potential := n.preImpact, blocking := b + (if b = 0 ∧ n.blocking < 0 then i64max else 0) }
  else { n with blocking := n.blocking - 1 }

/-- backend_impl.cu:547-548. -/
def fires (n : Blifat F) : Bool :=
  decide (n.sinceFiring > n.refractory) && Arith.le (n.activation + n.dynamic) n.potential

/-- backend_impl.cu:551-556. -/
def fired (n : Blifat F) : Blifat F :=
  { n with
    dynamic := n.dynamic + n.thresholdIncrement
    trace := n.trace + n.traceIncrement
    potential := n.resetValue
    burstingPhase := n.burstingPeriod
    sinceFiring := 0 }

/-- The body of the loop over impacts of the third loop (backend_impl.cu:535-568): neuron, `spike`, `neuron_indexes`. -/
def perImpact (index : Nat) (s : Blifat F × Bool × List Nat) : Blifat F × Bool × List Nat :=
  let n := blifatInhibit s.1
  let r := if fires n then (fired n, true) else (n, s.2.1)
  (blifatClamp r.1, r.2, if r.2 then s.2.2 ++ [index] else s.2.2)

/-- The third loop from neuron `index` on (backend_impl.cu:505-589).  With a message it returns while it is at its first neuron
(lines 573-585 are inside the loop over the messages); a neuron is written back in the loop over the impacts only. -/
def postLoop (uid : UID) (step : Nat) (msgs : List (SynapticImpactMessage F)) : Nat → List (Blifat F) →
    List (Blifat F) × Option SpikeMessage
  | _, [] => ([], none)
  | index, n :: ns =>
    match msgs with
    | [] => let r := postLoop uid step msgs (index + 1) ns; (n :: r.1, r.2)
    | m :: _ =>
      let r := m.impacts.foldl (fun s _ => perImpact index s) (blockNeuron n, false, [])
      ((if m.impacts.isEmpty then n else r.1) :: ns, if r.2.2.isEmpty then none else some ⟨⟨uid, step⟩, r.2.2⟩)

/-- `calculate_population` (backend_impl.cu:420-590). -/
def calcPop (step : Nat) (p : Pop F) (msgs : List (SynapticImpactMessage F)) : Outcome (Pop F × Option SpikeMessage) :=
  match impactAll msgs (p.neurons.map preNeuron) with
  | .ok ns => let r := postLoop p.uid step msgs 0 ns; .ok ({ p with neurons := r.1 }, r.2)
  | .throw w => .throw w
  | .ub => .ub

/-- Every thread of `calculate_populations_kernel` (backend_impl.cu:194-222) computes its own population, `index` is the number
of the first one. -/
def popKernel (step : Nat) (given : Nat → UID → List (SynapticImpactMessage F)) : Nat → List (Pop F) →
    Outcome (List (Pop F) × List (Option SpikeMessage))
  | _, [] => .ok ([], [])
  | index, p :: ps =>
    match calcPop step p (given index p.uid) with
    | .ok r =>
      match popKernel step given (index + 1) ps with
      | .ok (ps', ss) => .ok (r.1 :: ps', r.2 :: ss)
      | .throw w => .throw w
      | .ub => .ub
    | .throw w => .throw w
    | .ub => .ub

end

/-- A default constructed element of `out_messages` (backend_impl.cu:243): an empty spike message of the nil sender. -/
def nullMsg : GMsg F := ⟨.spike ⟨⟨0, 0⟩, []⟩, false⟩

/-- The element of `out_messages` of one population (backend_impl.cu:221). -/
def outMsg (s : Option SpikeMessage) : GMsg F :=
  match s with
  | some m => ⟨.spike m, false⟩
  | none => nullMsg

/-- The choices the program does not make: the order of the hash table in `sync_with_host`, and for each population and each
projection the order in which the threads of `find_messages_kernel` arrive. -/
structure Sched where
  sync : List Nat
  pops : Nat → List Nat
  projs : Nat → List Nat

/-- The impact messages population number `i` is given. -/
def givenTo (sc : Sched) (subs : List Sub) (msgs : List (GMsg F)) (i : Nat) (r : UID) : List (SynapticImpactMessage F) :=
  Sys.impactsIn ((unload subs msgs (sc.pops i) .impact r).map (·.body))

/-- The spike messages projection number `i` is given. -/
def heardBy (sc : Sched) (subs : List Sub) (msgs : List (GMsg F)) (i : Nat) (r : UID) : List SpikeMessage :=
  Sys.spikesIn ((unload subs msgs (sc.projs i) .spike r).map (·.body))

/-- `calculate_populations` (backend_impl.cu:225-252, message_bus.cu:116-125). -/
def calcPops [Arith F] (sc : Sched) (step : Nat) (d : Device F) : Outcome (Device F × List (Option SpikeMessage)) :=
  match popKernel step (givenTo sc d.subs d.msgs) 0 d.pops with
  | .ok (ps, ss) => .ok ({ d with pops := ps, msgs := d.msgs ++ ss.map outMsg }, ss)
  | .throw w => .throw w
  | .ub => .ub

/-! ## Projections -/

/-- backend_impl.cu:701-725: the impact is added to the message for `future`, or to a new one at the end. -/
def pushImpact (d : Delta.Ident) (future : Nat) (imp : SynapticImpact F) :
    List (SynapticImpactMessage F) → List (SynapticImpactMessage F)
  | [] => [⟨⟨d.uid, future⟩, d.pre, d.post, true, [imp]⟩]
  | m :: q =>
    if m.header.sendTime = future then { m with impacts := m.impacts ++ [imp] } :: q else m :: pushImpact d future imp q

/-- The loop over the synapses (backend_impl.cu:683-726) for a spike of neuron `n`. -/
def pushSpike (d : Delta.Ident) (synapses : List (Delta.Syn F)) (step : Nat) (q : List (SynapticImpactMessage F)) (n : Nat) :
    List (SynapticImpactMessage F) :=
  synapses.zipIdx.foldl (fun q s =>
    if s.1.source ≠ n then q else pushImpact d (Delta.futureStep s.1.delay step) (Delta.impactOf s.2 s.1) q) q

/-- `calculate_projection` (backend_impl.cu:665-729). -/
def calcProj (step : Nat) (j : Proj F) (msgs : List SpikeMessage) : Proj F :=
  { j with queue := msgs.foldl (fun q m => m.neuronIndexes.foldl (pushSpike j.ident j.synapses step) q) j.queue }

/-- Every thread of `calculate_projections_kernel` (backend_impl.cu:265-319) computes its own projection. -/
def calcProjs (sc : Sched) (step : Nat) (d : Device F) : Device F :=
  { d with projs := d.projs.mapIdx (fun i j => calcProj step j (heardBy sc d.subs d.msgs i j.ident.uid)) }

/-- `extract_projection_message` (backend_impl.cu:610-627): the loop goes on behind the element that moved into the place of an
erased one. -/
def extract (step : Nat) : List (SynapticImpactMessage F) → List (SynapticImpactMessage F) × List (SynapticImpactMessage F)
  | [] => ([], [])
  | [m] => if m.header.sendTime = step then ([m], []) else ([], [m])
  | m :: m' :: q =>
    if m.header.sendTime = step then
      let r := extract step q
      (m :: r.1, m' :: r.2)
    else
      let r := extract step (m' :: q)
      (r.1, m :: r.2)

/-- `route_projection_messages` (backend_impl.cu:646-662). -/
def routeProjs (step : Nat) (d : Device F) : Device F :=
  { d with
    projs := d.projs.map (fun j => { j with queue := (extract step j.queue).2 })
    msgs := d.projs.flatMap (fun j => (extract step j.queue).1.map (fun m => ⟨.impact m, false⟩)) }

/-! ## The backend -/

/-- `CUDABackend` with the bus: endpoint 0 is the backend's.  `pops` and `projs` are `populations_` and `projections_` of the
host side (backend.h:358-360). -/
structure State (F : Type) where
  world : World F
  pops : List (Pop F)
  projs : List (Proj F)
  dev : Device F
  step : Nat

/-- What a step did: the impact messages each population was given, its spike message, the spike messages each projection was
given, and what was sent to the host before (backend.cu:113) and after the computation (backend.cu:131). -/
structure Out (F : Type) where
  given : List (List (SynapticImpactMessage F))
  spikes : List (Option SpikeMessage)
  heard : List (List SpikeMessage)
  before : List (Message F)
  after : List (Message F)
deriving Repr, DecidableEq

/-- `CUDABackend::_step` (backend.cu:107-142).  The backend always has its endpoint (`none` cannot happen). -/
def step [Arith F] (sc : Sched) (s : State F) : Outcome (State F × Out F) :=
  match s.world.endpoint 0 with
  | none => .ub
  | some e0 =>
    let sy := if s.step = 0 then syncWithHost sc.sync s.dev.subs e0 else (s.dev.subs, e0)
    let d0 := { s.dev with subs := sy.1 }
    let w1 := (s.world.onEndpoint 0 (fun _ => sendToHost s.step d0.msgs sy.2)).route.1
    match w1.endpoint 0 with
    | none => .ub
    | some e1 =>
      let rc := receiveFromHost d0 e1
      match calcPops sc s.step rc.1 with
      | .throw w => .throw w
      | .ub => .ub
      | .ok (d2, spikes) =>
        let w2 := (w1.onEndpoint 0 (fun _ => rc.2)).route.1
        let d3 := calcProjs sc s.step d2
        let w3 := (w2.onEndpoint 0 (fun e => sendToHost s.step d3.msgs e)).route.1
        .ok ({ s with world := w3, dev := routeProjs s.step d3, step := s.step + 1 },
          { given := rc.1.pops.mapIdx (fun i p => givenTo sc rc.1.subs rc.1.msgs i p.uid)
            spikes := spikes
            heard := d2.projs.mapIdx (fun i j => heardBy sc d2.subs d2.msgs i j.ident.uid)
            before := (d0.msgs.filter (goesToHost s.step)).map (·.body)
            after := (d3.msgs.filter (goesToHost s.step)).map (·.body) })

/-- Consecutive steps; before each one the rest of the program makes its calls. -/
def run [Arith F] : State F → List (List (Op F) × Sched) → Outcome (State F × List (Out F))
  | s, [] => .ok (s, [])
  | s, (env, sc) :: envs =>
    match step sc { s with world := s.world.run env } with
    | .throw w => .throw w
    | .ub => .ub
    | .ok (s1, o) =>
      match run s1 envs with
      | .ok (s2, os) => .ok (s2, o :: os)
      | .throw w => .throw w
      | .ub => .ub

/-- `CUDAProjection(projection)` (projection.cuh:75-95): neuron numbers become 32 bit numbers; no messages. -/
def Proj.make (d : Delta.Ident) (synapses : List (Delta.Syn F)) : Proj F :=
  ⟨d, synapses.map (fun s => { s with source := s.source % Delta.two32, target := s.target % Delta.two32 }), []⟩

/-- `load_populations` (backend.cu:157-164, backend_impl.cu:322-341). -/
def loadPopulations (s : State F) (pops : List (Pop F)) : State F := { s with dev := { s.dev with pops := pops } }

/-- `load_projections` (backend.cu:167-175, backend_impl.cu:344-363). -/
def loadProjections (s : State F) (projs : List (Delta.Ident × List (Delta.Syn F))) : State F :=
  { s with dev := { s.dev with projs := projs.map (fun j => Proj.make j.1 j.2) } }

/-- `load_all_populations` (backend.cu:186-191) for populations of BLIFAT neurons; others: see `Verif/Model/BackendLoad.lean`. -/
def loadAllPopulations (s : State F) (pops : List (Pop F)) : State F := { s with pops := pops }

/-- `load_all_projections` (backend.cu:178-183) for projections of delta synapses. -/
def loadAllProjections (s : State F) (projs : List (Delta.Ident × List (Delta.Syn F))) : State F :=
  { s with projs := projs.map (fun j => ⟨j.1, j.2, []⟩) }

/-- `_init` (backend.cu:234-241). -/
def initBackend (s : State F) : State F := { s with dev := { s.dev with subs := initSubs s.dev.projs s.dev.subs } }

/-- A new backend: `chans` further endpoints created from its bus, the input projections subscribed to their input channels
(`backend.subscribe`; `inputs` are pairs projection, channel). -/
def create (inputs : List (UID × UID)) (chans : Nat) : State F :=
  let w0 : World F := (World.init : World F).run (List.replicate (chans + 1) .createEndpoint)
  ⟨w0.run (inputs.map (fun i => .subscribe 0 .spike i.1 [i.2])), [], [], .fresh, 0⟩

/-- A backend with a network on the device, after `_init`. -/
def boot (pops : List (Pop F)) (projs : List (Delta.Ident × List (Delta.Syn F))) (inputs : List (UID × UID)) (chans : Nat) :
    State F := initBackend (loadProjections (loadPopulations (create inputs chans) pops) projs)

/-- A backend loaded as `ModelLoader::load` does it (model_loader.cpp:131-147), after `_init`. -/
def bootAll (pops : List (Pop F)) (projs : List (Delta.Ident × List (Delta.Syn F))) (inputs : List (UID × UID)) (chans : Nat) :
    State F := initBackend (loadAllProjections (loadAllPopulations (create inputs chans) pops) projs)

/-! ## Devices -/

/-- A GPU as `get_devices` returns it: its UID and its number. -/
structure Gpu where
  uid : UID
  number : Nat
deriving Repr, DecidableEq

/-- `list_cuda_processors` and `get_devices` (gpu_cuda_device.cu:199-215, backend.cu:194-207).  The UID that the constructor takes from
the properties of the GPU is lost when the object is moved (gpu_cuda_device.cu:50-54 does not move the base class), so every call
returns objects with new UIDs; `fresh` is the generator: UIDs `fresh`, `fresh + 1`, … have not been given to anything. -/
def getDevices (count fresh : Nat) : List Gpu := (List.range count).map (fun i => ⟨fresh + i, i⟩)

/-- `select_devices` (backend.cu:210-222) when `current` are the devices selected before: the devices selected after and the
number of the GPU that is made active.  `uids` is a set. -/
def selectDevices (count fresh : Nat) (current : List Gpu) (uids : List UID) : Outcome (List Gpu × Nat) :=
  match (match (getDevices count fresh).find? (fun d => uids.contains d.uid) with
    | some d => Outcome.ok (current ++ [d])
    | none => if uids.length ≠ current.length then .throw "Not all devices were selected." else .ok current) with
  | .ok ds =>
    if ds.length > 1 then .throw "Only one GPU device can be selected"
    else match ds[0]? with
      | some d => .ok (ds, d.number)
      | none => .ub
  | .throw w => .throw w
  | .ub => .ub

/-- `select_device` (backend.cu:225-231): the pointer taken from `get_devices()` points into a vector that is destroyed at the end
of line 228. -/
def selectDevice (_count _fresh : Nat) (_current : List Gpu) (_d : Gpu) : Outcome (List Gpu × Nat) := .ub

end Knp.Cuda
