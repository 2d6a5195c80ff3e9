import Verif.Model.Learn
import Verif.Spec.System

/-!
# A learning backend without a bus

As `Verif/Spec/System.lean`, for any `Machine`: populations get what the projections into them sent in the step before,
projections get what their source populations, their STDP populations and their input channels send in the same step; the
populations work one after another on the same projections.
-/

namespace Knp.Spec
open Knp Knp.Sys Knp.Learn

variable {P J F : Type}

/-- Which sender an entity hears: a population the projections that end in it, a projection the population it starts from, its
STDP populations and the input channels connected to it.  UID 0 (nil) stands for a missing end. -/
def hearingOfWires (ws : List Load.Wire) (inputs : List (UID × UID)) : Hearing where
  impact r s := decide (r ≠ 0) && ws.any (fun w => w.post == r && w.uid == s)
  spike r s := (decide (s ≠ 0) && ws.any (fun w => w.uid == r && (w.pre == s || (w.isStdp && w.stdpPops.contains s)))) ||
    inputs.contains (r, s)

/-- The populations a projection is trained with. -/
def trainersOf : Syns F → List UID
  | .delta _ => []
  | .resource pops _ _ _ => pops.map (·.1)
  | .additive pops _ _ _ => pops.map (·.1)

/-- Which sender an entity of the backend hears. -/
def learnHearing (projs : List (Learn.Proj F)) (inputs : List (UID × UID)) : Hearing where
  impact r s := decide (r ≠ 0 ∧ ∃ j ∈ projs, j.ident.post = r ∧ j.ident.uid = s)
  spike r s := decide ((s ≠ 0 ∧ ∃ j ∈ projs, j.ident.uid = r ∧ (j.ident.pre = s ∨ s ∈ trainersOf j.syns)) ∨ (r, s) ∈ inputs)

/-- What a synapse of any type conducts with: ends, weight, delay, type; and the lookup by source. -/
def wired : Syns F → Delta.Proj F
  | .delta p => p
  | .resource _ ss pre _ => ⟨ss.map (fun y => ⟨y.source, y.target, y.weight, y.delay, y.outType⟩), pre⟩
  | .additive _ ss pre _ => ⟨ss.map (fun y => ⟨y.source, y.target, y.weight, y.delay, y.outType⟩), pre⟩

/-- What training may see of a projection: resource synapses with their lookup by target; nothing of the other types. -/
def trainable (j : Learn.Proj F) : Stdp.RProj F :=
  match j.syns with
  | .resource _ ss _ post => { uid := j.ident.uid, post := j.ident.post, locked := j.locked, syns := ss, find := post }
  | .delta _ => { uid := j.ident.uid, post := j.ident.post, locked := true, syns := [], find := fun _ => [] }
  | .additive _ _ _ _ => { uid := j.ident.uid, post := j.ident.post, locked := true, syns := [], find := fun _ => [] }

/-- Every population makes its step with the messages addressed to it; it may change the projections. -/
def learnPops (m : Machine P J F) (t : Nat) (given : UID → List (SynapticImpactMessage F)) : List P → List J →
    Outcome ((List P × List J) × List SpikeMessage)
  | [], js => .ok (([], js), [])
  | p :: ps, js =>
    match m.popStep t p js (given (m.popUid p)) with
    | .throw w => .throw w
    | .ub => .ub
    | .ok ((p1, js1), s) =>
      match learnPops m t given ps js1 with
      | .ok ((ps2, js2), ss) => .ok ((p1 :: ps2, js2), s.toList ++ ss)
      | .throw w => .throw w
      | .ub => .ub

/-- One step: `pending` are the impact messages sent in the step before, `ext` is what the rest of the program sent since. -/
def learnStep (m : Machine P J F) (H : Hearing) (t : Nat) (pops : List P) (projs : List J)
    (pending : List (SynapticImpactMessage F)) (ext : List (Message F)) : Outcome ((List P × List J) × StepOut F) :=
  let given := fun r => (pending ++ impactsIn ext).filter (fun x => H.impact r x.header.senderUid)
  match learnPops m t given pops projs with
  | .ok ((pops', projs'), spikes) =>
    let heard := fun r => (spikesIn ext ++ spikes).filter (fun x => H.spike r x.header.senderUid)
    .ok ((pops', projs'.map (fun j => (m.projStep t j (heard (m.projUid j))).1)),
      { given := pops.map (fun p => (m.popUid p, given (m.popUid p))), spikes := spikes
        heard := projs'.map (fun j => (m.projUid j, heard (m.projUid j)))
        impacts := projs'.flatMap (fun j => (m.projStep t j (heard (m.projUid j))).2.toList) })
  | .throw w => .throw w
  | .ub => .ub

/-- Consecutive steps from step `t` on. -/
def learnRun (m : Machine P J F) (H : Hearing) : Nat → List P → List J → List (SynapticImpactMessage F) →
    List (List (Message F)) → Outcome ((List P × List J) × List (StepOut F))
  | _, pops, projs, _, [] => .ok ((pops, projs), [])
  | t, pops, projs, pending, ext :: exts =>
    match learnStep m H t pops projs pending ext with
    | .ok (st, o) =>
      match learnRun m H (t + 1) st.1 st.2 o.impacts exts with
      | .ok (st', os) => .ok (st', o :: os)
      | .throw w => .throw w
      | .ub => .ub
    | .throw w => .throw w
    | .ub => .ub

end Knp.Spec
