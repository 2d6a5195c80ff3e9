import Verif.Model.SystemMulti
import Verif.Spec.System

/-!
# The multi-threaded backend without a bus

As `Verif/Spec/System.lean`, for the multi-threaded backend.  The differences: messages of the rest of the program are routed only
after the populations made their step, so impacts that come from outside arrive one step later; and in what a projection
hears, the spikes of its source population come before those of its input channels.
-/

namespace Knp.Spec
open Knp Knp.Sys Knp.Neurons

variable {N F : Type}

/-- Every population makes its multi-threaded step with the messages addressed to it. -/
def flowPopsM (c : Config F) (t : Nat) (to : UID → List (SynapticImpactMessage F)) :
    List (PopSt N F) → List (List Nat × List Nat) → Option (Outcome (List (PopSt N F) × List SpikeMessage))
  | [], [] => some (.ok ([], []))
  | p :: ps, sc :: scs =>
    match multiPopulation p.kind p.uid t c.popPart p.neurons (to p.uid) sc.1 sc.2 with
    | none => none
    | some (.throw w) => some (.throw w)
    | some .ub => some .ub
    | some (.ok r) =>
      match flowPopsM c t to ps scs with
      | none => none
      | some (.throw w) => some (.throw w)
      | some .ub => some .ub
      | some (.ok (ps', ss)) => some (.ok ({ p with neurons := r.1 } :: ps', r.2.toList ++ ss))
  | _, _ => none

/-- Every projection makes its multi-threaded step with the messages it hears: new queues and the messages sent. -/
def flowProjsM (c : Config F) (t : Nat) (heard : UID → List SpikeMessage) :
    List (ProjSt F) → List (List Nat) → Option (List (ProjSt F) × List (SynapticImpactMessage F))
  | [], [] => some ([], [])
  | j :: js, o :: os =>
    match reorder o (Delta.tasks c.scale j.proj t c.projPart (heard j.ident.uid)) with
    | none => none
    | some ts =>
      match flowProjsM c t heard js os with
      | none => none
      | some (js', ms) =>
        some ({ j with queue := (Delta.stepMulti j.ident t j.queue ts).2 } :: js', (Delta.stepMulti j.ident t j.queue ts).1.toList ++ ms)
  | _, _ => none

/-- One step. -/
def flowStepM (c : Config F) (H : Hearing) (t : Nat) (pops : List (PopSt N F)) (projs : List (ProjSt F))
    (pending : List (SynapticImpactMessage F)) (ext : List (Message F)) (sc : Sched) :
    Option (Outcome ((List (PopSt N F) × List (ProjSt F)) × StepOut F)) :=
  let given := fun r => pending.filter (fun m => H.impact r m.header.senderUid)
  match flowPopsM c t given pops sc.pops with
  | none => none
  | some (.throw w) => some (.throw w)
  | some .ub => some .ub
  | some (.ok (pops', spikes)) =>
    let heard := fun r => (spikes ++ spikesIn ext).filter (fun m => H.spike r m.header.senderUid)
    match flowProjsM c t heard projs sc.projs with
    | none => none
    | some (projs', impacts) =>
      some (.ok ((pops', projs'),
        { given := pops.map (fun p => (p.uid, given p.uid)), spikes := spikes
          heard := projs.map (fun j => (j.ident.uid, heard j.ident.uid)), impacts := impacts }))

/-- Consecutive steps from step `t` on. -/
def flowRunM (c : Config F) (H : Hearing) : Nat → List (PopSt N F) → List (ProjSt F) → List (SynapticImpactMessage F) →
    List (List (Message F) × Sched) → Option (Outcome ((List (PopSt N F) × List (ProjSt F)) × List (StepOut F)))
  | _, pops, projs, _, [] => some (.ok ((pops, projs), []))
  | t, pops, projs, pending, ext :: exts =>
    match flowStepM c H t pops projs pending ext.1 ext.2 with
    | none => none
    | some (.throw w) => some (.throw w)
    | some .ub => some .ub
    | some (.ok (st, o)) =>
      match flowRunM c H (t + 1) st.1 st.2 (impactsIn ext.1 ++ o.impacts) exts with
      | none => none
      | some (.throw w) => some (.throw w)
      | some .ub => some .ub
      | some (.ok (st', os)) => some (.ok (st', o :: os))

end Knp.Spec
