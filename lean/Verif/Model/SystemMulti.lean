import Verif.Model.System

/-!
# A whole multi-threaded backend

Models `MultiThreadedCPUBackend::_step` of `knp/backends/cpu/cpu-multi-threaded-backend/impl/backend.cpp` with the endpoint and
the bus of `Verif/Model/Bus.lean`, the multi-threaded population step of `Verif/Model/Neurons.lean` and the multi-threaded
projection step of `Verif/Model/Delta.lean`.  State, environment and loading are those of `Verif/Model/System.lean`.

What the threads do is an input: a schedule gives, for every population, the order of the moves of its tasks in both
parallel phases, and, for every projection, the order in which its tasks enter their critical section.  Tasks of different
populations and of different projections work on different objects, so their interleaving is left out.  As in
`Verif/Model/System.lean` there are no trained projections here (`train_population` does nothing without them, backend.cpp:170-196).
-/

namespace Knp.Sys
open Knp Knp.Bus Knp.Neurons

variable {N F : Type}

/-- Schedules of one step: for each population the moves of the pre-impact and of the post-impact tasks, for each projection
the order of the critical sections (task numbers). -/
structure Sched where
  pops : List (List Nat × List Nat)
  projs : List (List Nat)
deriving Repr, DecidableEq

/-- Part sizes (`population_part_size_`, `projection_part_size_`, backend.h of the multi-threaded backend) and `weight_ * count` (delta_impl.h:141). -/
structure Config (F : Type) where
  popPart : Nat
  projPart : Nat
  scale : F → Nat → F

/-- The tasks in the given order; `none` if the order does not name every task once (then `join()` would not have returned). -/
def reorder {α : Type} (order : List Nat) (tasks : List α) : Option (List α) :=
  if order.Perm (List.range tasks.length) then some (order.filterMap (fun i => tasks[i]?)) else none

/-- `endpoint.send_message` for each message. -/
def sendAll (e : Endpoint F) (ms : List (Message F)) : Endpoint F := ms.foldl Endpoint.send e

/-- `calculate_populations_pre_impact`, `_impact`, `_post_impact` (backend.cpp:77-200): for each population unload and compute;
`none` if a schedule does not complete.  The messages are collected (`spike_container`). -/
def popPhaseM (c : Config F) (step : Nat) : Endpoint F → List (PopSt N F) → List (List Nat × List Nat) →
    Option (Outcome (Endpoint F × List (PopSt N F) × List (UID × List (SynapticImpactMessage F)) × List SpikeMessage))
  | e, [], [] => some (.ok (e, [], [], []))
  | e, p :: ps, sc :: scs =>
    let u := e.unload .impact p.uid
    match multiPopulation p.kind p.uid step c.popPart p.neurons (impactsIn u.2) sc.1 sc.2 with
    | none => none
    | some (.throw w) => some (.throw w)
    | some .ub => some .ub
    | some (.ok r) =>
      match popPhaseM c step u.1 ps scs with
      | none => none
      | some (.throw w) => some (.throw w)
      | some .ub => some .ub
      | some (.ok (e2, ps2, gs, ss)) =>
        some (.ok (e2, { p with neurons := r.1 } :: ps2, (p.uid, impactsIn u.2) :: gs, r.2.toList ++ ss))
  | _, _, _ => none

/-- `calculate_projections` up to the `join()` and the lookup of the message of this step (backend.cpp:250-295). -/
def projPhaseM (c : Config F) (step : Nat) : Endpoint F → List (ProjSt F) → List (List Nat) →
    Option (Endpoint F × List (ProjSt F) × List (UID × List SpikeMessage) × List (SynapticImpactMessage F))
  | e, [], [] => some (e, [], [], [])
  | e, j :: js, o :: os =>
    let u := e.unload .spike j.ident.uid
    match reorder o (Delta.tasks c.scale j.proj step c.projPart (spikesIn u.2)) with
    | none => none
    | some ts =>
      let r := Delta.stepMulti j.ident step j.queue ts
      match projPhaseM c step u.1 js os with
      | none => none
      | some (e2, js2, hs, ms) => some (e2, { j with queue := r.2 } :: js2, (j.ident.uid, spikesIn u.2) :: hs, r.1.toList ++ ms)
  | _, _, _ => none

/-- `MultiThreadedCPUBackend::_step` (backend.cpp:310-323): there is no exchange before the populations are computed; the spike
messages are sent after all populations (backend.cpp:206-222), the impact messages after all projections (backend.cpp:285-294). -/
def stepMulti (c : Config F) (s : State N F) (sc : Sched) : Option (Outcome (State N F × StepOut F)) :=
  match s.world.endpoint 0 with
  | none => some .ub
  | some e1 =>
    match popPhaseM c s.step e1 s.pops sc.pops with
    | none => none
    | some (.throw w) => some (.throw w)
    | some .ub => some .ub
    | some (.ok (e2, pops, given, spikes)) =>
      let w3 := exchange (s.world.onEndpoint 0 (fun _ => sendAll e2 (spikes.map .spike)))
      match w3.endpoint 0 with
      | none => some .ub
      | some e3 =>
        match projPhaseM c s.step e3 s.projs sc.projs with
        | none => none
        | some (e4, projs, heard, impacts) =>
          some (.ok (⟨exchange (w3.onEndpoint 0 (fun _ => sendAll e4 (impacts.map .impact))), pops, projs, s.step + 1⟩,
            ⟨given, spikes, heard, impacts⟩))

/-- Consecutive steps, each with the calls of the rest of the program before it and the schedules of its threads. -/
def runMulti (c : Config F) : State N F → List (Env F × Sched) → Option (Outcome (State N F × List (StepOut F)))
  | s, [] => some (.ok (s, []))
  | s, env :: envs =>
    match stepMulti c { s with world := s.world.run env.1 } env.2 with
    | none => none
    | some (.throw w) => some (.throw w)
    | some .ub => some .ub
    | some (.ok (s1, o)) =>
      match runMulti c s1 envs with
      | none => none
      | some (.throw w) => some (.throw w)
      | some .ub => some .ub
      | some (.ok (s2, os)) => some (.ok (s2, o :: os))

end Knp.Sys
