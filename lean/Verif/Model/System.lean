import Verif.Model.Bus
import Verif.Model.Delta
import Verif.Model.Neurons
import Verif.Model.BackendLoad

/-!
# A whole backend: populations, projections and the message bus together

Models `_step` of `knp/backends/cpu/cpu-single-threaded-backend/impl/backend.cpp` and of
`knp/backends/cpu/cpu-multi-threaded-backend/impl/backend.cpp`, with the endpoint and the bus of `Verif/Model/Bus.lean`, the
population step of `Verif/Model/Neurons.lean` and the projection step of `Verif/Model/Delta.lean`.

Endpoint 0 of the bus is the backend's own (`Backend::message_endpoint_` is created from the backend's bus before any
other, core-library/impl/backend.cpp:31-34); the other endpoints belong to input channels, output channels and observers.

Populations of different types live in one list: `N` is the sum of the neuron types and every population brings its own
`Kind`.  Simplifications: populations and projections of types that are trained are not part of this composition (their
training is modelled in `Verif/Model/Stdp.lean`); the synapses do not change between steps; nobody else uses the bus while a step
is being computed.
-/

namespace Knp.Sys
open Knp Knp.Bus Knp.Neurons

/-- A loaded population: an element of `populations_`. -/
structure PopSt (N F : Type) where
  uid : UID
  kind : Kind N F
  neurons : List N

/-- A loaded projection with its queue of future messages: an element of `projections_` (`ProjectionWrapper`). -/
structure ProjSt (F : Type) where
  ident : Delta.Ident
  proj : Delta.Proj F
  queue : Delta.Queue F

/-- Bus (with the backend's endpoint at index 0), loaded entities, step counter. -/
structure State (N F : Type) where
  world : World F
  pops : List (PopSt N F)
  projs : List (ProjSt F)
  step : Nat

/-- What a step does that can be seen from outside: the impact messages every population was given, the spike messages every
projection was given, the messages sent. -/
structure StepOut (F : Type) where
  given : List (UID × List (SynapticImpactMessage F))
  spikes : List SpikeMessage
  heard : List (UID × List SpikeMessage)
  impacts : List (SynapticImpactMessage F)
deriving Repr, DecidableEq

variable {N F : Type}

/-- The messages of `unload_messages<SynapticImpactMessage>`. -/
def impactsIn (ms : List (Message F)) : List (SynapticImpactMessage F) :=
  ms.filterMap (fun m => match m with | .impact x => some x | .spike _ => none)

/-- The messages of `unload_messages<SpikeMessage>`. -/
def spikesIn (ms : List (Message F)) : List SpikeMessage :=
  ms.filterMap (fun m => match m with | .spike x => some x | .impact _ => none)

/-- `get_message_bus().route_messages(); get_message_endpoint().receive_all_messages()` (single: backend.cpp:92-93, 114-115,
135-136; multi: backend.cpp:314-315, 317-318). -/
def exchange (w : World F) : World F := (w.route.1).onEndpoint 0 (fun e => e.receiveAll.1)

/-- `endpoint.send_message` if there is a message. -/
def sendOpt (e : Endpoint F) : Option (Message F) → Endpoint F
  | some m => e.send m
  | none => e

/-- `calculate_any_population` (populations_old.h:105-124): unload, compute, send. -/
def calcPop (step : Nat) (e : Endpoint F) (p : PopSt N F) :
    Outcome (Endpoint F × PopSt N F × List (SynapticImpactMessage F) × Option SpikeMessage) :=
  let u := e.unload .impact p.uid
  match stepPopulation p.kind p.uid step p.neurons (impactsIn u.2) with
  | .ok r => .ok (sendOpt u.1 (r.2.map .spike), { p with neurons := r.1 }, impactsIn u.2, r.2)
  | .throw w => .throw w
  | .ub => .ub

/-- The loop over the populations (backend.cpp:95-111). -/
def popPhase (step : Nat) : Endpoint F → List (PopSt N F) →
    Outcome (Endpoint F × List (PopSt N F) × List (UID × List (SynapticImpactMessage F)) × List SpikeMessage)
  | e, [] => .ok (e, [], [], [])
  | e, p :: ps =>
    match calcPop step e p with
    | .ok (e1, p1, g, s) =>
      match popPhase step e1 ps with
      | .ok (e2, ps2, gs, ss) => .ok (e2, p1 :: ps2, (p.uid, g) :: gs, s.toList ++ ss)
      | .throw w => .throw w
      | .ub => .ub
    | .throw w => .throw w
    | .ub => .ub

/-- `calculate_projection` (projections.h:58-84): unload, compute, send. -/
def calcProj (step : Nat) (e : Endpoint F) (j : ProjSt F) :
    Endpoint F × ProjSt F × List SpikeMessage × Option (SynapticImpactMessage F) :=
  let u := e.unload .spike j.ident.uid
  let r := Delta.stepSingle j.ident j.proj step j.queue (spikesIn u.2)
  (sendOpt u.1 (r.1.map .impact), { j with queue := r.2 }, spikesIn u.2, r.1)

/-- The loop over the projections (backend.cpp:117-133). -/
def projPhase (step : Nat) : Endpoint F → List (ProjSt F) →
    Endpoint F × List (ProjSt F) × List (UID × List SpikeMessage) × List (SynapticImpactMessage F)
  | e, [] => (e, [], [], [])
  | e, j :: js =>
    let c := calcProj step e j
    let r := projPhase step c.1 js
    (r.1, c.2.1 :: r.2.1, (j.ident.uid, c.2.2.1) :: r.2.2.1, c.2.2.2.toList ++ r.2.2.2)

/-- `SingleThreadedCPUBackend::_step` (backend.cpp:89-141).  The backend always has its endpoint (`none` cannot happen). -/
def stepSingle (s : State N F) : Outcome (State N F × StepOut F) :=
  let w1 := exchange s.world
  match w1.endpoint 0 with
  | none => .ub
  | some e1 =>
    match popPhase s.step e1 s.pops with
    | .throw w => .throw w
    | .ub => .ub
    | .ok (e2, pops, given, spikes) =>
      let w3 := exchange (w1.onEndpoint 0 (fun _ => e2))
      match w3.endpoint 0 with
      | none => .ub
      | some e3 =>
        let r := projPhase s.step e3 s.projs
        .ok (⟨exchange (w3.onEndpoint 0 (fun _ => r.1)), pops, r.2.1, s.step + 1⟩, ⟨given, spikes, r.2.2.1, r.2.2.2⟩)

/-- What the rest of the program does between two steps: calls on the bus and the other endpoints (input channels send,
output channels receive). -/
abbrev Env (F : Type) := List (Op F)

/-- Consecutive steps; before each one the rest of the program makes its calls. -/
def runSingle : State N F → List (Env F) → Outcome (State N F × List (StepOut F))
  | s, [] => .ok (s, [])
  | s, env :: envs =>
    match stepSingle { s with world := s.world.run env } with
    | .throw w => .throw w
    | .ub => .ub
    | .ok (s1, o) =>
      match runSingle s1 envs with
      | .ok (s2, os) => .ok (s2, o :: os)
      | .throw w => .throw w
      | .ub => .ub

/-- What `init` sees of a loaded projection (see `Load.Wire`): a plain delta projection has no STDP populations. -/
def wireOf (j : ProjSt F) : Load.Wire := ⟨j.ident.uid, j.ident.pre, j.ident.post, false, []⟩

/-- `_init` (single: backend.cpp:207-214): subscriptions of the loaded projections on the backend's endpoint. -/
def initBackend (s : State N F) : State N F :=
  { s with world := s.world.onEndpoint 0 (Load.wireAll (s.projs.map wireOf)) }

/-- A new backend with the given entities loaded (empty queues, C63) and its own endpoint created
(core-library/impl/backend.cpp:31-34), `chans` further endpoints created from its bus (one per channel, model_loader.cpp:71,
101), the input projections subscribed to their input channels (model_loader.cpp:82-86; `inputs` are pairs projection,
channel), and `_init` called. -/
def boot (pops : List (PopSt N F)) (projs : List (Delta.Ident × Delta.Proj F)) (inputs : List (UID × UID)) (chans : Nat) :
    State N F :=
  let w0 : World F := (World.init : World F).run (List.replicate (chans + 1) .createEndpoint)
  let w1 := w0.run (inputs.map (fun i => .subscribe 0 .spike i.1 [i.2]))
  initBackend ⟨w1, pops, projs.map (fun j => ⟨j.1, j.2, []⟩), 0⟩

end Knp.Sys
