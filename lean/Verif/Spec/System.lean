import Verif.Model.System

/-!
# A backend without a bus

The dataflow the messages of a backend implement: populations get what the projections into them sent in the step before,
projections get what their source population and their input channels send in the same step.  There are no queues of
messages, subscriptions, endpoints or routing here; only the computation of a single population (C47, C49–C55) and of a single
projection (C42–C48) is that of the model.
-/

namespace Knp.Spec
open Knp Knp.Sys Knp.Neurons

variable {N F : Type}

/-- Which sender an entity hears: populations impacts, projections spikes. -/
structure Hearing where
  impact : UID → UID → Bool
  spike : UID → UID → Bool

/-- The hearing of a network: a population hears the projections that end in it, a projection hears the population it starts
from and the input channels connected to it.  UID 0 (nil) stands for a missing end. -/
def hearingOf (projs : List (Delta.Ident × Delta.Proj F)) (inputs : List (UID × UID)) : Hearing where
  impact r s := decide (r ≠ 0) && projs.any (fun j => j.1.post == r && j.1.uid == s)
  spike r s := (decide (s ≠ 0) && projs.any (fun j => j.1.uid == r && j.1.pre == s)) || inputs.contains (r, s)

/-- Every population makes its step with the messages addressed to it. -/
def flowPops (t : Nat) (to : UID → List (SynapticImpactMessage F)) :
    List (PopSt N F) → Outcome (List (PopSt N F) × List SpikeMessage)
  | [] => .ok ([], [])
  | p :: ps =>
    match stepPopulation p.kind p.uid t p.neurons (to p.uid) with
    | .ok r =>
      match flowPops t to ps with
      | .ok (ps', ss) => .ok ({ p with neurons := r.1 } :: ps', r.2.toList ++ ss)
      | .throw w => .throw w
      | .ub => .ub
    | .throw w => .throw w
    | .ub => .ub

/-- The message a projection sends when it hears `ms` in step `t`, and its queue afterwards. -/
def flowProj (t : Nat) (j : ProjSt F) (ms : List SpikeMessage) : Option (SynapticImpactMessage F) × ProjSt F :=
  ((Delta.stepSingle j.ident j.proj t j.queue ms).1, { j with queue := (Delta.stepSingle j.ident j.proj t j.queue ms).2 })

/-- One step: `pending` are the impact messages sent in the step before, `ext` is what the rest of the program sent since. -/
def flowStep (H : Hearing) (t : Nat) (pops : List (PopSt N F)) (projs : List (ProjSt F))
    (pending : List (SynapticImpactMessage F)) (ext : List (Message F)) :
    Outcome ((List (PopSt N F) × List (ProjSt F)) × StepOut F) :=
  let given := fun r => (pending ++ impactsIn ext).filter (fun m => H.impact r m.header.senderUid)
  match flowPops t given pops with
  | .ok (pops', spikes) =>
    let heard := fun r => (spikesIn ext ++ spikes).filter (fun m => H.spike r m.header.senderUid)
    .ok ((pops', projs.map (fun j => (flowProj t j (heard j.ident.uid)).2)),
      { given := pops.map (fun p => (p.uid, given p.uid)), spikes := spikes
        heard := projs.map (fun j => (j.ident.uid, heard j.ident.uid))
        impacts := projs.flatMap (fun j => (flowProj t j (heard j.ident.uid)).1.toList) })
  | .throw w => .throw w
  | .ub => .ub

/-- Consecutive steps from step `t` on. -/
def flowRun (H : Hearing) : Nat → List (PopSt N F) → List (ProjSt F) → List (SynapticImpactMessage F) →
    List (List (Message F)) → Outcome ((List (PopSt N F) × List (ProjSt F)) × List (StepOut F))
  | _, pops, projs, _, [] => .ok ((pops, projs), [])
  | t, pops, projs, pending, ext :: exts =>
    match flowStep H t pops projs pending ext with
    | .ok (st, o) =>
      match flowRun H (t + 1) st.1 st.2 o.impacts exts with
      | .ok (st', os) => .ok (st', o :: os)
      | .throw w => .throw w
      | .ub => .ub
    | .throw w => .throw w
    | .ub => .ub

/-- A call of the rest of the program: anything on one of the other `chans` endpoints, but not the backend's, no routing, no
new or destroyed endpoints. -/
def Foreign (chans : Nat) : Bus.Op F → Prop
  | .createEndpoint | .destroyEndpoint _ | .busStep | .route => False
  | .subscribe e _ _ _ | .unsubscribe e _ _ | .subAddSender e _ _ _ | .subRemoveSender e _ _ _
  | .send e _ | .receiveMessage e | .receiveAll e | .unload e _ _ => 1 ≤ e ∧ e ≤ chans

/-- The messages sent through endpoint `e`. -/
def sentVia (e : Nat) (env : List (Bus.Op F)) : List (Message F) :=
  env.filterMap (fun op => match op with
    | .send e' m => if e' = e then some m else none
    | _ => none)

/-- Everything sent through the other endpoints, endpoint by endpoint in the order of their creation. -/
def extOf (chans : Nat) (env : List (Bus.Op F)) : List (Message F) :=
  (List.range chans).flatMap (fun e => sentVia (e + 1) env)

end Knp.Spec
