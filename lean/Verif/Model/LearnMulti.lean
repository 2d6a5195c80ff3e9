import Verif.Model.Learn
import Verif.Model.SystemMulti

/-!
# The whole multi-threaded backend, with training

Models `MultiThreadedCPUBackend::_step` of `knp/backends/cpu/cpu-multi-threaded-backend/impl/backend.cpp` for all population and
projection types this backend supports (SupportedNeurons, SupportedSynapses in its backend.h: BLIFAT, synaptic-resource BLIFAT,
LIF; delta, synaptic-resource delta).  `Verif/Model/SystemMulti.lean` is the same loop for plain types only; entities, state,
environment and loading are those of `Verif/Model/Learn.lean`.

As there, the loop is written for any names and wiring (`Machine`, of which only the UIDs are used here) and any `Threads`;
`threads` below is the backend's.

What the threads do is an input: a schedule gives, for every population, the moves of its tasks in the two parallel phases,
the order in which the training tasks of the populations run, and for every projection the order of the critical sections.
A training task is one step of the schedule: it works on its own population and on the projections that end there, and no
other task of that phase touches these.
-/

namespace Knp.Learn
open Knp Knp.Bus Knp.Neurons Knp.Sys Knp.Stdp

/-- What the threads compute: a population without training (by parts, in the given moves; `none` if these do not complete
it), the training of a population, a projection (by parts, in the given order of critical sections). -/
structure Threads (P J F : Type) where
  compute : Nat → P → List (SynapticImpactMessage F) → List Nat × List Nat → Option (Outcome (P × Option SpikeMessage))
  train : Nat → P → List J → Option SpikeMessage → Outcome (P × List J)
  projStep : Nat → J → List SpikeMessage → List Nat → Option (J × Option (SynapticImpactMessage F))

/-- The schedule of one step. -/
structure Sched where
  pops : List (List Nat × List Nat)
  train : List Nat
  projs : List (List Nat)
deriving Repr, DecidableEq

section Loop
variable {P J F : Type}

/-- `calculate_populations_pre_impact`, `_impact` and the first half of `_post_impact` (backend.cpp:77-162): for each population
unload and compute; the messages stay in `spike_container` (`none` for an empty one). -/
def computePhase (m : Machine P J F) (th : Threads P J F) (step : Nat) : Endpoint F → List P → List (List Nat × List Nat) →
    Option (Outcome (Endpoint F × List P × List (UID × List (SynapticImpactMessage F)) × List (Option SpikeMessage)))
  | e, [], [] => some (.ok (e, [], [], []))
  | e, p :: ps, sc :: scs =>
    let u := e.unload .impact (m.popUid p)
    match th.compute step p (impactsIn u.2) sc with
    | none => none
    | some (.throw w) => some (.throw w)
    | some .ub => some .ub
    | some (.ok r) =>
      match computePhase m th step u.1 ps scs with
      | none => none
      | some (.throw w) => some (.throw w)
      | some .ub => some .ub
      | some (.ok (e2, ps2, gs, ss)) => some (.ok (e2, r.1 :: ps2, (m.popUid p, impactsIn u.2) :: gs, r.2 :: ss))
  | _, _, _ => none

/-- The training task of population number `k` (backend.cpp:163-197). -/
def trainTask (th : Threads P J F) (step : Nat) (ss : List (Option SpikeMessage)) (st : List P × List J) (k : Nat) :
    Outcome (List P × List J) :=
  match st.1[k]?, ss[k]? with
  | some p, some s =>
    match th.train step p st.2 s with
    | .ok r => .ok (st.1.set k r.1, r.2)
    | .throw w => .throw w
    | .ub => .ub
  | _, _ => .ok st

/-- The training tasks in the order in which they run; `none` if the order does not name every population once (then `join()`,
backend.cpp:198, would not have returned). -/
def trainPhase (th : Threads P J F) (step : Nat) (ss : List (Option SpikeMessage)) (ps : List P) (js : List J)
    (order : List Nat) : Option (Outcome (List P × List J)) :=
  if order.Perm (List.range ps.length) then some (order.foldlM (trainTask th step ss) (ps, js)) else none

/-- `calculate_projections` up to the `join()` and the lookup of the message of this step (backend.cpp:250-295). -/
def projPhaseM (m : Machine P J F) (th : Threads P J F) (step : Nat) : Endpoint F → List J → List (List Nat) →
    Option (Endpoint F × List J × List (UID × List SpikeMessage) × List (SynapticImpactMessage F))
  | e, [], [] => some (e, [], [], [])
  | e, j :: js, o :: os =>
    let u := e.unload .spike (m.projUid j)
    match th.projStep step j (spikesIn u.2) o with
    | none => none
    | some r =>
      match projPhaseM m th step u.1 js os with
      | none => none
      | some (e2, js2, hs, ms) => some (e2, r.1 :: js2, (m.projUid j, spikesIn u.2) :: hs, r.2.toList ++ ms)
  | _, _, _ => none

/-- `MultiThreadedCPUBackend::_step` (backend.cpp:310-323): no exchange before the populations are computed; the non-empty
spike messages are sent after the training of all populations (backend.cpp:212-220), the impact messages after all
projections (backend.cpp:285-294). -/
def stepMulti (m : Machine P J F) (th : Threads P J F) (s : State P J F) (sc : Sched) :
    Option (Outcome (State P J F × StepOut F)) :=
  match s.world.endpoint 0 with
  | none => some .ub
  | some e1 =>
    match computePhase m th s.step e1 s.pops sc.pops with
    | none => none
    | some (.throw w) => some (.throw w)
    | some .ub => some .ub
    | some (.ok (e2, ps, given, ss)) =>
      match trainPhase th s.step ss ps s.projs sc.train with
      | none => none
      | some (.throw w) => some (.throw w)
      | some .ub => some .ub
      | some (.ok (pops, projs)) =>
        let spikes := ss.flatMap Option.toList
        let w3 := exchange (s.world.onEndpoint 0 (fun _ => sendAll e2 (spikes.map .spike)))
        match w3.endpoint 0 with
        | none => some .ub
        | some e3 =>
          match projPhaseM m th s.step e3 projs sc.projs with
          | none => none
          | some (e4, projs', heard, impacts) =>
            some (.ok (⟨exchange (w3.onEndpoint 0 (fun _ => sendAll e4 (impacts.map .impact))), pops, projs', s.step + 1⟩,
              ⟨given, spikes, heard, impacts⟩))

/-- Consecutive steps, each with the calls of the rest of the program before it and the schedule of its threads. -/
def runMulti (m : Machine P J F) (th : Threads P J F) : State P J F → List (Env F × Sched) →
    Option (Outcome (State P J F × List (StepOut F)))
  | s, [] => some (.ok (s, []))
  | s, env :: envs =>
    match stepMulti m th { s with world := s.world.run env.1 } env.2 with
    | none => none
    | some (.throw w) => some (.throw w)
    | some .ub => some .ub
    | some (.ok (s1, o)) =>
      match runMulti m th s1 envs with
      | none => none
      | some (.throw w) => some (.throw w)
      | some .ub => some .ub
      | some (.ok (s2, os)) => some (.ok (s2, o :: os))

end Loop

/-! ## The entities of the backend -/

variable {N B F : Type}

/-- The population with the neurons a computation left; the message it made. -/
def computed {A : Type} (f : List A → Pop N B F) : Outcome (List A × Option SpikeMessage) → Outcome (Pop N B F × Option SpikeMessage)
  | .ok r => .ok (f r.1, r.2)
  | .throw w => .throw w
  | .ub => .ub

/-- The three parallel phases for one population (backend.cpp:77-162; `multiPopulation`). -/
def computeM (c : Config F) (step : Nat) (p : Pop N B F) (msgs : List (SynapticImpactMessage F)) (sc : List Nat × List Nat) :
    Option (Outcome (Pop N B F × Option SpikeMessage)) :=
  match p with
  | .plain u k ns => (multiPopulation k u step c.popPart ns msgs sc.1 sc.2).map (computed (.plain u k))
  | .trained u k b ns => (multiPopulation k u step c.popPart ns msgs sc.1 sc.2).map (computed (.trained u k b))

/-- One task of `calculate_projection_multithreaded` on resource synapses (delta_impl.h:124-141): the synapses of the part whose
source is in the message get the step. -/
def markPart (step : Nat) (spikes : List Nat) (lo hi : Nat) (syns : List (RSyn F)) : List (RSyn F) :=
  (List.range' lo (hi - lo)).foldl (fun ss k =>
    ss.modify k (fun s => if (Delta.countOf (Delta.convertSpikes spikes) s.source).isSome then touch step s else s)) syns

/-- All tasks of one projection (backend.cpp:256-282; only the first message is used).  The tasks write to different
synapses, so their order is left out here. -/
def markAll (step part : Nat) (msgs : List SpikeMessage) (syns : List (RSyn F)) : List (RSyn F) :=
  match msgs with
  | [] => syns
  | m :: _ =>
    match Delta.partStarts syns.length part (syns.length + 1) 0 with
    | none => syns
    | some starts => starts.foldl (fun ss lo => markPart step m.neuronIndexes lo (Delta.partEnd syns.length part lo) ss) syns

/-- `calculate_projection_multithreaded` for all parts and the message of this step (backend.cpp:250-295, delta_impl.h:117-175).
A projection of additive STDP synapses cannot be loaded into this backend (SupportedSynapses, backend.h). -/
def projStepM (c : Config F) (step : Nat) (j : Proj F) (msgs : List SpikeMessage) (order : List Nat) :
    Option (Proj F × Option (SynapticImpactMessage F)) :=
  match j.syns with
  | .delta p =>
    match reorder order (Delta.tasks c.scale p step c.projPart msgs) with
    | none => none
    | some ts =>
      let r := Delta.stepMulti j.ident step j.queue ts
      some ({ j with queue := r.2 }, r.1)
  | .resource pops syns pre post =>
    match reorder order (Delta.tasks c.scale (Syns.resource pops syns pre post).view step c.projPart msgs) with
    | none => none
    | some ts =>
      let r := Delta.stepMulti j.ident step j.queue ts
      some ({ j with syns := .resource pops (markAll step c.projPart msgs syns) pre post, queue := r.2 }, r.1)
  | .additive _ _ _ _ => none

variable [Field F] [LinearOrder F]

/-- `call_finalize` (backend.cpp:170-190): `train_population` with the unlocked resource projections that end here; nothing
happens to plain neurons (populations.h, `train_population_dispatch`). -/
def trainM (o : Ops F) (step : Nat) (p : Pop N B F) (js : List (Proj F)) (s : Option SpikeMessage) :
    Outcome (Pop N B F × List (Proj F)) :=
  match p with
  | .plain u k ns => .ok (.plain u k ns, js)
  | .trained u k b ns =>
    match train o b u (spikedIn s) step ⟨ns, js.map Proj.toR⟩ with
    | .ok st => .ok (.trained u k b st.neurons, putAll js st.projs)
    | .throw w => .throw w
    | .ub => .ub

/-- The multi-threaded CPU backend. -/
def threads (o : Ops F) (c : Config F) : Threads (Pop N B F) (Proj F) F where
  compute := computeM c
  train := trainM o
  projStep := projStepM c

end Knp.Learn
