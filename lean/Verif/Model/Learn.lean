import Verif.Model.System
import Verif.Model.Stdp

/-!
# The whole single-threaded backend, with training

Models `_step` of `knp/backends/cpu/cpu-single-threaded-backend/impl/backend.cpp` for all population and projection types the
backend supports: plain populations, populations of trained neurons (`calculate_resource_stdp_population`,
populations_old.h:190-217), plain delta, synaptic-resource and additive STDP projections.  `Verif/Model/System.lean` is the same
loop for plain types only.

The loop over populations and projections does not depend on their types, so it is written once for any `Machine`; `machine`
below is the backend's.  Simplifications: `float` is an ordered field (as in `Verif/Model/Stdp.lean`); nobody else uses the bus
while a step is being computed.
-/

namespace Knp.Learn
open Knp Knp.Bus Knp.Neurons Knp.Sys Knp.Stdp

/-- What the loop of `_step` needs of populations `P` and projections `J`: their UIDs, what `init` sees of a projection, the
computation of a population (which may train projections) and of a projection. -/
structure Machine (P J F : Type) where
  popUid : P → UID
  projUid : J → UID
  wire : J → Load.Wire
  popStep : Nat → P → List J → List (SynapticImpactMessage F) → Outcome ((P × List J) × Option SpikeMessage)
  projStep : Nat → J → List SpikeMessage → J × Option (SynapticImpactMessage F)

section Loop
variable {P J F : Type}

/-- Bus (with the backend's endpoint at index 0), loaded entities, step counter. -/
structure State (P J F : Type) where
  world : World F
  pops : List P
  projs : List J
  step : Nat

/-- The loop over the populations (backend.cpp:95-111; `calculate_any_population`, populations_old.h:105-124, and
`calculate_resource_stdp_population`, 190-217): unload, compute, train, send. -/
def popPhase (m : Machine P J F) (step : Nat) : Endpoint F → List P → List J →
    Outcome ((Endpoint F × List P × List J) × List (UID × List (SynapticImpactMessage F)) × List SpikeMessage)
  | e, [], js => .ok ((e, [], js), [], [])
  | e, p :: ps, js =>
    let u := e.unload .impact (m.popUid p)
    match m.popStep step p js (impactsIn u.2) with
    | .throw w => .throw w
    | .ub => .ub
    | .ok ((p1, js1), s) =>
      match popPhase m step (sendOpt u.1 (s.map .spike)) ps js1 with
      | .ok ((e2, ps2, js2), gs, ss) => .ok ((e2, p1 :: ps2, js2), (m.popUid p, impactsIn u.2) :: gs, s.toList ++ ss)
      | .throw w => .throw w
      | .ub => .ub

/-- The loop over the projections (backend.cpp:117-133; `calculate_projection`, projections.h:58-84): unload, compute, send. -/
def projPhase (m : Machine P J F) (step : Nat) : Endpoint F → List J →
    (Endpoint F × List J) × List (UID × List SpikeMessage) × List (SynapticImpactMessage F)
  | e, [] => ((e, []), [], [])
  | e, j :: js =>
    let u := e.unload .spike (m.projUid j)
    let c := m.projStep step j (spikesIn u.2)
    let r := projPhase m step (sendOpt u.1 (c.2.map .impact)) js
    ((r.1.1, c.1 :: r.1.2), (m.projUid j, spikesIn u.2) :: r.2.1, c.2.toList ++ r.2.2)

/-- `SingleThreadedCPUBackend::_step` (backend.cpp:89-141).  The backend always has its endpoint (`none` cannot happen). -/
def stepSingle (m : Machine P J F) (s : State P J F) : Outcome (State P J F × StepOut F) :=
  let w1 := exchange s.world
  match w1.endpoint 0 with
  | none => .ub
  | some e1 =>
    match popPhase m s.step e1 s.pops s.projs with
    | .throw w => .throw w
    | .ub => .ub
    | .ok ((e2, pops, projs), given, spikes) =>
      let w3 := exchange (w1.onEndpoint 0 (fun _ => e2))
      match w3.endpoint 0 with
      | none => .ub
      | some e3 =>
        let r := projPhase m s.step e3 projs
        .ok (⟨exchange (w3.onEndpoint 0 (fun _ => r.1.1)), pops, r.1.2, s.step + 1⟩, ⟨given, spikes, r.2.1, r.2.2⟩)

/-- Consecutive steps; before each one the rest of the program makes its calls. -/
def runSingle (m : Machine P J F) : State P J F → List (Env F) → Outcome (State P J F × List (StepOut F))
  | s, [] => .ok (s, [])
  | s, env :: envs =>
    match stepSingle m { s with world := s.world.run env } with
    | .throw w => .throw w
    | .ub => .ub
    | .ok (s1, o) =>
      match runSingle m s1 envs with
      | .ok (s2, os) => .ok (s2, o :: os)
      | .throw w => .throw w
      | .ub => .ub

/-- A new backend with the given entities loaded, its endpoint and `chans` channel endpoints created, the input projections
subscribed (model_loader.cpp:82-86) and `_init` called (backend.cpp:207-214, init.h:93-110); see `Sys.boot`. -/
def boot (m : Machine P J F) (pops : List P) (projs : List J) (inputs : List (UID × UID)) (chans : Nat) : State P J F :=
  let w0 : World F := (World.init : World F).run (List.replicate (chans + 1) .createEndpoint)
  let w1 := w0.run (inputs.map (fun i => .subscribe 0 .spike i.1 [i.2]))
  ⟨w1.onEndpoint 0 (Load.wireAll (projs.map m.wire)), pops, projs, 0⟩

end Loop

/-! ## The entities of the backend -/

/-- A loaded population: one of the plain types (BLIFAT, AltAI, LIF; `N` is their sum) or one whose neurons are trained
(`B` is the sum of the base neurons, each population brings its `Kind` and how training accesses the base neuron). -/
inductive Pop (N B F : Type) where
  | plain (uid : UID) (kind : Kind N F) (neurons : List N)
  | trained (uid : UID) (kind : Kind (Res B F) F) (base : BaseOps B F) (neurons : List (Res B F))

/-- The synapses of a projection, by type, `stdp_populations_` of the STDP types (projection.h:134-164; the calculation of a
resource projection never looks at it, `init` does) and the answers of `find_synapses` (functions of the end points, which
never change while a network runs; C01). -/
inductive Syns (F : Type) where
  | delta (p : Delta.Proj F)
  | resource (stdpPops : List (UID × Processing)) (syns : List (RSyn F)) (findPre findPost : Nat → List Nat)
  | additive (stdpPops : List (UID × Processing)) (syns : List (ASyn F)) (findPre findPost : Nat → List Nat)

/-- A loaded projection with its lock and its queue of future messages (`ProjectionWrapper`, backend.h:107-112). -/
structure Proj (F : Type) where
  ident : Delta.Ident
  locked : Bool
  syns : Syns F
  queue : Delta.Queue F

variable {N B F : Type}

/-- What the impact calculation reads of a resource synapse (delta_impl.h:74-83). -/
def ofR (s : RSyn F) : Delta.Syn F := ⟨s.source, s.target, s.weight, s.delay, s.outType⟩

/-- What the impact calculation reads of an additive synapse. -/
def ofA (s : ASyn F) : Delta.Syn F := ⟨s.source, s.target, s.weight, s.delay, s.outType⟩

/-- The projection as the impact calculation sees it. -/
def Syns.view : Syns F → Delta.Proj F
  | .delta p => p
  | .resource _ syns pre _ => ⟨syns.map ofR, pre⟩
  | .additive _ syns pre _ => ⟨syns.map ofA, pre⟩

/-- `init_synapse` of a resource synapse (synaptic_resource_stdp.h:37-41). -/
def touch (step : Nat) (s : RSyn F) : RSyn F := { s with rule := { s.rule with lastSpikeStep := step } }

/-- `init_synapse` for every synapse found for every spike (delta_impl.h:65-75).  In the code this happens in the same
loop as the impacts, which do not read `last_spike_step_`. -/
def touchAll (step : Nat) (findPre : Nat → List Nat) (msgs : List SpikeMessage) (syns : List (RSyn F)) : List (RSyn F) :=
  msgs.foldl (fun ss m => m.neuronIndexes.foldl (fun ss n => (findPre n).foldl (fun ss k => ss.modify k (touch step)) ss) ss) syns

/-- A resource projection as training sees it.  Projections of other types cannot be in a working set (populations_old.h:70,
`std::get_if`); the model represents them by a locked projection without synapses. -/
def Proj.toR (j : Proj F) : RProj F :=
  match j.syns with
  | .resource _ syns _ post => ⟨j.ident.uid, j.ident.post, j.locked, syns, post⟩
  | _ => ⟨j.ident.uid, j.ident.post, true, [], fun _ => []⟩

/-- The projection with the synapses training left. -/
def Proj.putR (j : Proj F) (r : RProj F) : Proj F :=
  match j.syns with
  | .resource pops _ pre post => { j with syns := .resource pops r.syns pre post }
  | _ => j

/-- Write the trained synapses back. -/
def putAll (js : List (Proj F)) (rs : List (RProj F)) : List (Proj F) := List.zipWith Proj.putR js rs

variable [Field F] [LinearOrder F]

/-- `Population::get_uid`. -/
def Pop.uid : Pop N B F → UID
  | .plain u _ _ => u
  | .trained u _ _ _ => u

/-- The neurons that spiked (`message_out.neuron_indexes_`). -/
def spikedIn : Option SpikeMessage → List Nat
  | some m => m.neuronIndexes
  | none => []

/-- `calculate_population` without the message transport (backend.cpp:220-330; populations_old.h:105-124 and 190-217): the
population step; then, for trained neurons, `train_population` with the unlocked resource projections that end here. -/
def popStep (o : Ops F) (step : Nat) (p : Pop N B F) (js : List (Proj F)) (msgs : List (SynapticImpactMessage F)) :
    Outcome ((Pop N B F × List (Proj F)) × Option SpikeMessage) :=
  match p with
  | .plain u k ns =>
    match stepPopulation k u step ns msgs with
    | .ok r => .ok ((.plain u k r.1, js), r.2)
    | .throw w => .throw w
    | .ub => .ub
  | .trained u k b ns =>
    match stepPopulation k u step ns msgs with
    | .throw w => .throw w
    | .ub => .ub
    | .ok r =>
      match train o b u (spikedIn r.2) step ⟨r.1, js.map Proj.toR⟩ with
      | .ok st => .ok ((.trained u k b st.neurons, putAll js st.projs), r.2)
      | .throw w => .throw w
      | .ub => .ub

/-- `calculate_projection` without the message transport (delta_impl.h:53-114, projections.h:58-84): `init_projection`, impacts
and `init_synapse`, `modify_weights`, the message of this step. -/
def projStep (o : Ops F) (step : Nat) (j : Proj F) (msgs : List SpikeMessage) : Proj F × Option (SynapticImpactMessage F) :=
  match j.syns with
  | .delta p =>
    let r := Delta.stepSingle j.ident p step j.queue msgs
    ({ j with queue := r.2 }, r.1)
  | .resource pops syns pre post =>
    let r := Delta.stepSingle j.ident (Syns.resource pops syns pre post).view step j.queue msgs
    ({ j with syns := .resource pops (touchAll step pre msgs syns) pre post, queue := r.2 }, r.1)
  | .additive pops syns pre post =>
    let i := initProjection ⟨j.locked, pops, syns, post⟩ msgs
    let r := Delta.stepSingle j.ident (Syns.additive pops i.1.syns pre post).view step j.queue i.2
    ({ j with syns := .additive pops (i.1.syns.map (modifyWeight o)) pre post, queue := r.2 }, r.1)

/-- What `init` sees of a projection (init.h:46-110). -/
def wireOf (j : Proj F) : Load.Wire :=
  match j.syns with
  | .delta _ => ⟨j.ident.uid, j.ident.pre, j.ident.post, false, []⟩
  | .resource pops _ _ _ | .additive pops _ _ _ => ⟨j.ident.uid, j.ident.pre, j.ident.post, true, pops.map (·.1)⟩

/-- The single-threaded CPU backend. -/
def machine (o : Ops F) : Machine (Pop N B F) (Proj F) F where
  popUid := Pop.uid
  projUid := fun j => j.ident.uid
  wire := wireOf
  popStep := popStep o
  projStep := projStep o

end Knp.Learn
