import Verif.Model.LearnMulti
import Verif.Spec.Learn

/-!
# The multi-threaded learning backend without a bus

As `Verif/Spec/Learn.lean`.  The differences: all populations compute before any of them is trained; messages of the rest of the
program are routed only after that, so impacts that come from outside arrive one step later; and in what a projection
hears, the spikes of populations come before those of its input channels.
-/

namespace Knp.Spec
open Knp Knp.Sys Knp.Learn

variable {P J F : Type}

/-- Every population computes with the messages addressed to it; the message each of them made, if any. -/
def computeAll (m : Machine P J F) (th : Threads P J F) (t : Nat) (given : UID → List (SynapticImpactMessage F)) :
    List P → List (List Nat × List Nat) → Option (Outcome (List P × List (Option SpikeMessage)))
  | [], [] => some (.ok ([], []))
  | p :: ps, sc :: scs =>
    match th.compute t p (given (m.popUid p)) sc with
    | none => none
    | some (.throw w) => some (.throw w)
    | some .ub => some .ub
    | some (.ok r) =>
      match computeAll m th t given ps scs with
      | none => none
      | some (.throw w) => some (.throw w)
      | some .ub => some .ub
      | some (.ok (ps', ss)) => some (.ok (r.1 :: ps', r.2 :: ss))
  | _, _ => none

/-- Every projection computes with the messages it hears: the projections after, the messages sent. -/
def projectAll (m : Machine P J F) (th : Threads P J F) (t : Nat) (heard : UID → List SpikeMessage) :
    List J → List (List Nat) → Option (List J × List (SynapticImpactMessage F))
  | [], [] => some ([], [])
  | j :: js, o :: os =>
    match th.projStep t j (heard (m.projUid j)) o with
    | none => none
    | some r =>
      match projectAll m th t heard js os with
      | none => none
      | some (js', ms) => some (r.1 :: js', r.2.toList ++ ms)
  | _, _ => none

/-- One step. -/
def learnStepM (m : Machine P J F) (th : Threads P J F) (H : Hearing) (t : Nat) (pops : List P) (projs : List J)
    (pending : List (SynapticImpactMessage F)) (ext : List (Message F)) (sc : Learn.Sched) :
    Option (Outcome ((List P × List J) × StepOut F)) :=
  let given := fun r => pending.filter (fun x => H.impact r x.header.senderUid)
  match computeAll m th t given pops sc.pops with
  | none => none
  | some (.throw w) => some (.throw w)
  | some .ub => some .ub
  | some (.ok (ps, ss)) =>
    match trainPhase th t ss ps projs sc.train with
    | none => none
    | some (.throw w) => some (.throw w)
    | some .ub => some .ub
    | some (.ok (pops', projs')) =>
      let heard := fun r => (ss.flatMap Option.toList ++ spikesIn ext).filter (fun x => H.spike r x.header.senderUid)
      match projectAll m th t heard projs' sc.projs with
      | none => none
      | some (projs'', impacts) =>
        some (.ok ((pops', projs''),
          { given := pops.map (fun p => (m.popUid p, given (m.popUid p))), spikes := ss.flatMap Option.toList
            heard := projs'.map (fun j => (m.projUid j, heard (m.projUid j))), impacts := impacts }))

/-- Consecutive steps from step `t` on. -/
def learnRunM (m : Machine P J F) (th : Threads P J F) (H : Hearing) : Nat → List P → List J →
    List (SynapticImpactMessage F) → List (List (Message F) × Learn.Sched) →
    Option (Outcome ((List P × List J) × List (StepOut F)))
  | _, pops, projs, _, [] => some (.ok ((pops, projs), []))
  | t, pops, projs, pending, ext :: exts =>
    match learnStepM m th H t pops projs pending ext.1 ext.2 with
    | none => none
    | some (.throw w) => some (.throw w)
    | some .ub => some .ub
    | some (.ok (st, o)) =>
      match learnRunM m th H (t + 1) st.1 st.2 (impactsIn ext.1 ++ o.impacts) exts with
      | none => none
      | some (.throw w) => some (.throw w)
      | some .ub => some .ub
      | some (.ok (st', os)) => some (.ok (st', o :: os))

end Knp.Spec
