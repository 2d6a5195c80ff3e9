import Verif.Spec.NeuronStep
import Verif.Props.Neurons
import Mathlib.Tactic.SplitIfs

/-!
# C174: a neuron's step as a formula
-/

namespace Knp.Props
open Knp Knp.Neurons Knp.Spec.NeuronStep

variable {F : Type} [Arith F]

/-! ## What the impacts come to -/

omit [Arith F] in
private theorem values_cons (t : OutputType) (i : SynapticImpact F × Bool) (l : List (SynapticImpact F × Bool)) :
    values t (i :: l) = if i.1.synapseType = t then i.1.impactValue :: values t l else values t l := by
  unfold values
  by_cases h : i.1.synapseType = t
  · rw [if_pos h, List.filter_cons_of_pos (by simpa using h), List.map_cons]
  · rw [if_neg h, List.filter_cons_of_neg (by simpa using h)]

private theorem last_cons (old v : Int) (i : SynapticImpact F × Bool) (l : List (SynapticImpact F × Bool)) (h : i.1.synapseType = .blocking)
    (hv : Arith.toI64 i.1.impactValue = some v) (hl : ¬ badBlocking l) : lastBlocking old (i :: l) = lastBlocking v l := by
  unfold lastBlocking
  rw [values_cons, if_pos h]
  cases hvl : values .blocking l with
  | nil => simp [hv]
  | cons a as =>
    rw [List.getLast?_cons_cons]
    have hsome : ∃ x, (a :: as).getLast? = some x := ⟨_, List.getLast?_eq_some_getLast (by simp)⟩
    obtain ⟨x, hx⟩ := hsome
    rw [hx]
    have hmem : x ∈ values .blocking l := by rw [hvl]; exact List.mem_of_getLast? hx
    cases ht : Arith.toI64 x with
    | none => exact absurd ⟨x, hmem, ht⟩ hl
    | some w => simp [ht]

private theorem bad_cons (i : SynapticImpact F × Bool) (l : List (SynapticImpact F × Bool)) :
    badBlocking (i :: l) ↔ (i.1.synapseType = .blocking ∧ Arith.toI64 i.1.impactValue = none) ∨ badBlocking l := by
  unfold badBlocking
  rw [values_cons]
  by_cases h : i.1.synapseType = .blocking
  · rw [if_pos h]; simp [h]
  · rw [if_neg h]; simp [h]

/-- The state after the impacts. -/
private def summed (n : Blifat F) (imps : List (SynapticImpact F × Bool)) : Blifat F :=
  { n with
    potential := currents n.potential imps
    conductance := plus n.conductance (values .inhibitoryConductance imps)
    dopamine := plus n.dopamine (values .dopamine imps)
    blocking := lastBlocking n.blocking imps }

private theorem blifat_sum : ∀ (imps : List (SynapticImpact F × Bool)) (n : Blifat F),
    (badBlocking imps → imps.foldlM (fun m (i : SynapticImpact F × Bool) => blifatImpact m i.1 i.2) n = Outcome.ub) ∧
    (¬ badBlocking imps → imps.foldlM (fun m (i : SynapticImpact F × Bool) => blifatImpact m i.1 i.2) n = Outcome.ok (summed n imps)) := by
  intro imps
  induction imps with
  | nil =>
    intro n
    refine ⟨fun h => ?_, fun _ => rfl⟩
    obtain ⟨v, hv, _⟩ := h
    simp [values] at hv
  | cons i l ih =>
    intro n
    rw [List.foldlM_cons, bad_cons]
    have hstep : ∀ m : Blifat F, blifatImpact n i.1 i.2 = .ok m → ((i.1.synapseType = .blocking ∧ Arith.toI64 i.1.impactValue = none) → False) →
        (¬ badBlocking l → summed m l = summed n (i :: l)) →
        ((i.1.synapseType = .blocking ∧ Arith.toI64 i.1.impactValue = none) ∨ badBlocking l →
          (blifatImpact n i.1 i.2 >>= fun m => l.foldlM (fun m (i : SynapticImpact F × Bool) => blifatImpact m i.1 i.2) m) = Outcome.ub) ∧
        (¬ ((i.1.synapseType = .blocking ∧ Arith.toI64 i.1.impactValue = none) ∨ badBlocking l) →
          (blifatImpact n i.1 i.2 >>= fun m => l.foldlM (fun m (i : SynapticImpact F × Bool) => blifatImpact m i.1 i.2) m) =
            Outcome.ok (summed n (i :: l))) := by
      intro m hm hno hsum
      rw [hm, Outcome.bind_ok]
      refine ⟨fun h => (ih m).1 (h.resolve_left hno), fun h => ?_⟩
      have hl : ¬ badBlocking l := fun hb => h (.inr hb)
      rw [(ih m).2 hl, hsum hl]
    cases ht : i.1.synapseType with
    | excitatory =>
      rw [← ht]
      refine hstep { n with potential := n.potential + i.1.impactValue } (by unfold blifatImpact; rw [ht]) (by simp [ht]) (fun _ => ?_)
      simp only [summed, lastBlocking, values_cons, currents, ht, List.foldl_cons, reduceCtorEq, if_false]
    | inhibitoryCurrent =>
      rw [← ht]
      refine hstep { n with potential := n.potential - i.1.impactValue } (by unfold blifatImpact; rw [ht]) (by simp [ht]) (fun _ => ?_)
      simp only [summed, lastBlocking, values_cons, currents, ht, List.foldl_cons, reduceCtorEq, if_false]
    | inhibitoryConductance =>
      rw [← ht]
      refine hstep { n with conductance := n.conductance + i.1.impactValue } (by unfold blifatImpact; rw [ht]) (by simp [ht]) (fun _ => ?_)
      simp only [summed, lastBlocking, values_cons, currents, ht, List.foldl_cons, reduceCtorEq, if_false, if_true, plus]
    | dopamine =>
      rw [← ht]
      refine hstep { n with dopamine := n.dopamine + i.1.impactValue } (by unfold blifatImpact; rw [ht]) (by simp [ht]) (fun _ => ?_)
      simp only [summed, lastBlocking, values_cons, currents, ht, List.foldl_cons, reduceCtorEq, if_false, if_true, plus]
    | blocking =>
      cases hv : Arith.toI64 i.1.impactValue with
      | none =>
        refine ⟨fun _ => ?_, fun h => absurd (.inl ⟨rfl, rfl⟩) h⟩
        have : blifatImpact n i.1 i.2 = .ub := by unfold blifatImpact; rw [ht]; simp only [hv]
        rw [this]; rfl
      | some v =>
        have key := hstep { n with blocking := v } (by unfold blifatImpact; rw [ht]; simp only [hv]) (by simp [hv]) (fun hl => by
          simp only [summed, last_cons n.blocking v i l ht hv hl, values_cons, currents, ht, List.foldl_cons, reduceCtorEq, if_false])
        rw [ht, hv] at key
        exact key

/-! ## BLIFAT -/

omit [Arith F] in
private theorem tick_eq (n : Blifat F) : blifatTick n = { n with blocking := blockingAfter n.blocking } := by
  rcases n with ⟨_, _, _, _, _, _, _, _, _, _, _, _, _, _, _, _, _, _, _, _, _, b, _⟩
  unfold blifatTick
  dsimp only
  have e : blockingAfter b = if b < 0 then (if b + 1 = 0 then i64max else b + 1) else if 0 < b then b - 1 else b := by
    unfold blockingAfter
    split_ifs <;> omega
  rw [e]
  split_ifs <;> rfl

/-- The last part of the step, from a state that is decayed and has its impacts. -/
private theorem post_eq (n m : Blifat F) (imps : List (SynapticImpact F × Bool)) (phase : Nat) (d : F)
    (hm : m = summed { n with
      sinceFiring := addU64 n.sinceFiring 1
      dynamic := n.dynamic * n.thresholdDecay
      trace := n.trace * n.traceDecay
      conductance := n.conductance * n.conductanceDecay
      potential := blifatRest n
      preImpact := blifatRest n
      burstingPhase := phase
      dopamine := d } imps) :
    blifatPost m = (blifatAfter phase d n imps, blifatSpike n imps) := by
  have hu : blifatInhibit (blifatTick (blifatRestore m)) = { m with
      potential := blifatInput n imps, blocking := blockingAfter (lastBlocking n.blocking imps) } := by
    rw [tick_eq]
    subst hm
    unfold blifatRestore blifatInhibit blifatInput summed
    dsimp only
    by_cases hb : lastBlocking n.blocking imps ≤ 0
    · simp only [if_pos hb]
      split <;> rfl
    · simp only [if_neg hb]
      split <;> rfl
  have hs : blifatSpikes (blifatInhibit (blifatTick (blifatRestore m))) = blifatSpike n imps := by
    rw [hu]
    subst hm
    rfl
  unfold blifatPost
  dsimp only
  unfold blifatFire
  rw [hs, hu]
  unfold blifatAfter
  subst hm
  cases blifatSpike n imps with
  | true =>
    simp only [if_true]
    unfold blifatClamp summed
    dsimp only
    split <;> rfl
  | false =>
    simp only [Bool.false_eq_true, if_false]
    unfold blifatClamp summed
    dsimp only
    split <;> rfl

/-- C174, BLIFAT. A step with any impacts is undefined exactly if a blocking impact has a value that is no 64-bit integer, and otherwise gives the state
and the spike of the formula.  The reflexive weight is added, and the phase counted down, in phase 1 only (C83). -/
theorem C174_blifat (n : Blifat F) (imps : List (SynapticImpact F × Bool)) :
    (badBlocking imps → neuronStep blifat n imps = .ub) ∧
    (¬ badBlocking imps → neuronStep blifat n imps =
      .ok (blifatAfter (if n.burstingPhase = 1 then 0 else n.burstingPhase) n.dopamine n imps, blifatSpike n imps)) := by
  obtain ⟨h1, h2⟩ := blifat_sum imps (blifatPre n)
  unfold neuronStep
  constructor
  · intro h
    show (imps.foldlM (fun m (i : SynapticImpact F × Bool) => blifatImpact m i.1 i.2) (blifatPre n) >>= _) = _
    rw [h1 h]; rfl
  · intro h
    show (imps.foldlM (fun m (i : SynapticImpact F × Bool) => blifatImpact m i.1 i.2) (blifatPre n) >>= _) = _
    rw [h2 h, Outcome.bind_ok]
    show Outcome.ok (blifatPost (summed (blifatPre n) imps)) = _
    congr 1
    apply post_eq
    unfold blifatPre blifatSave blifatBurst blifatDecay blifatRest
    dsimp only
    split
    · rename_i hp; simp only [hp]
    · rfl

/-! ## The resource variant -/

omit [Arith F] in
private theorem res_fold {B : Type} (ri : Res B F → SynapticImpact F → Bool → Outcome (Res B F)) (bi : B → SynapticImpact F → Bool → Outcome B)
    (hri : ∀ m i f, ri m i f = (bi m.base i f).bind (fun b => .ok ⟨b, if i.synapseType = .excitatory then
      { m.rule with forced := m.rule.forced || f } else m.rule⟩)) :
    ∀ (l : List (SynapticImpact F × Bool)) (m : Res B F),
      l.foldlM (fun m (i : SynapticImpact F × Bool) => ri m i.1 i.2) m =
        (l.foldlM (fun m (i : SynapticImpact F × Bool) => bi m i.1 i.2) m.base).bind
          (fun b => Outcome.ok ⟨b, { m.rule with forced := m.rule.forced || forcedBy l }⟩) := by
  intro l
  induction l with
  | nil =>
    intro m
    show Outcome.ok m = Outcome.ok _
    simp [forcedBy]
  | cons i l ih =>
    intro m
    rw [List.foldlM_cons, List.foldlM_cons, hri]
    cases hb : bi m.base i.1 i.2 with
    | ok b =>
      rw [Outcome.bind_ok]
      show List.foldlM _ _ l = _
      rw [ih]
      dsimp only
      congr 1
      funext b'
      congr 2
      unfold forcedBy
      rw [List.any_cons]
      by_cases ht : i.1.synapseType = .excitatory
      · rw [if_pos ht]; simp [ht, Bool.or_assoc]
      · rw [if_neg ht]; simp [ht]
    | throw w => rfl
    | ub => rfl

/-- C174, BLIFAT with synaptic resource.  Three differences: the dopamine value starts from nothing in every step, the bursting phase is not counted
down, and the neuron counts as forced exactly in the steps in which an excitatory impact of a forcing message arrives. -/
theorem C174_resource_blifat (n : Res (Blifat F) F) (imps : List (SynapticImpact F × Bool)) :
    (badBlocking imps → neuronStep resBlifat n imps = .ub) ∧
    (¬ badBlocking imps → neuronStep resBlifat n imps =
      .ok (⟨blifatAfter n.base.burstingPhase 0 n.base imps, { n.rule with forced := forcedBy imps }⟩, blifatSpike n.base imps)) := by
  have key := res_fold (F := F) resBlifatImpact blifatImpact (fun _ _ _ => rfl)
  obtain ⟨h1, h2⟩ := blifat_sum imps (resBlifatPre n).base
  unfold neuronStep
  show (badBlocking imps → ((imps.foldlM (fun m (i : SynapticImpact F × Bool) => resBlifatImpact m i.1 i.2) (resBlifatPre n)).bind _) = _) ∧
    (¬ badBlocking imps → ((imps.foldlM (fun m (i : SynapticImpact F × Bool) => resBlifatImpact m i.1 i.2) (resBlifatPre n)).bind _) = _)
  rw [key]
  constructor
  · intro h
    rw [h1 h]; rfl
  · intro h
    rw [h2 h]
    have hp := post_eq n.base (summed (resBlifatPre n).base imps) imps n.base.burstingPhase 0 (by
      unfold resBlifatPre blifatSave resBlifatBurst blifatDecay blifatRest
      dsimp only
      split <;> rfl)
    show Outcome.ok (_, _) = _
    rw [Outcome.ok.injEq, Prod.mk.injEq]
    refine ⟨?_, congrArg Prod.snd hp⟩
    show (⟨(blifatPost (summed (resBlifatPre n).base imps)).1, _⟩ : Res (Blifat F) F) = _
    rw [hp]
    simp [resBlifatPre]

/-! ## AltAI -/

/-- The state after the impacts. -/
private def asummed (a : Int) (n : AltAi F) (imps : List (SynapticImpact F × Bool)) : AltAi F :=
  { n with potential := currents n.potential imps, dopamine := plus n.dopamine (values .dopamine imps), activity := a }

private theorem altai_sum : ∀ (imps : List (SynapticImpact F × Bool)) (n r : AltAi F),
    imps.foldlM (fun m (i : SynapticImpact F × Bool) => altaiImpact m i.1 i.2) n = Outcome.ok r ↔
      values .inhibitoryConductance imps = [] ∧ ∃ a, activityOf n.activity (values .blocking imps) = some a ∧ r = asummed a n imps := by
  intro imps
  induction imps with
  | nil =>
    intro n r
    rw [List.foldlM_nil, Outcome.pure_eq, Outcome.ok.injEq]
    constructor
    · rintro rfl
      exact ⟨rfl, _, rfl, rfl⟩
    · rintro ⟨_, a, ha, rfl⟩
      cases ha
      rfl
  | cons i l ih =>
    intro n r
    rw [List.foldlM_cons]
    generalize hX : altaiImpact n i.1 i.2 = X
    unfold altaiImpact at hX
    cases ht : i.1.synapseType with
    | excitatory =>
      rw [ht] at hX
      dsimp only at hX
      subst hX
      simp only [Outcome.bind_ok]
      rw [ih]
      simp only [values_cons, ht, reduceCtorEq, if_false, asummed, currents, List.foldl_cons]
    | inhibitoryCurrent =>
      rw [ht] at hX
      dsimp only at hX
      subst hX
      simp only [Outcome.bind_ok]
      rw [ih]
      simp only [values_cons, ht, reduceCtorEq, if_false, asummed, currents, List.foldl_cons]
    | inhibitoryConductance =>
      rw [ht] at hX
      dsimp only at hX
      subst hX
      simp only [values_cons, ht, if_true]
      constructor
      · intro h; cases h
      · rintro ⟨h, _⟩; cases h
    | dopamine =>
      rw [ht] at hX
      dsimp only at hX
      subst hX
      simp only [Outcome.bind_ok]
      rw [ih]
      simp only [values_cons, ht, reduceCtorEq, if_false, if_true, asummed, currents, List.foldl_cons, plus]
    | blocking =>
      rw [ht] at hX
      dsimp only at hX
      subst hX
      simp only [values_cons, ht, reduceCtorEq, if_false, if_true, activityOf]
      by_cases h1 : decide (n.activity < 0) = Arith.signbit i.1.impactValue
      · rw [if_neg (by simp [h1])]
        by_cases h2 : n.activity = -(i64max + 1)
        · rw [if_pos h2, if_pos ⟨h1, h2⟩]
          constructor
          · intro h; cases h
          · rintro ⟨_, a, h, _⟩; cases h
        · rw [if_neg h2, if_neg (show ¬ (decide (n.activity < 0) = Arith.signbit i.1.impactValue ∧ n.activity = -(i64max + 1)) from fun h => h2 h.2)]
          by_cases h3 : Arith.le (Arith.ofInt n.activity.natAbs) (Arith.abs i.1.impactValue) = true
          · rw [if_pos h3, if_pos (.inr h3)]
            cases hv : Arith.toI64 i.1.impactValue with
            | none =>
              simp only [Option.bind_none]
              constructor
              · intro h; cases h
              · rintro ⟨_, a, h, _⟩; cases h
            | some v =>
              simp only [Outcome.bind_ok, Option.bind_some]
              rw [ih]
              simp only [asummed, currents, List.foldl_cons, ht, values_cons, reduceCtorEq, if_false]
          · rw [if_neg h3, if_neg (fun h => h.elim (fun h => h h1) h3)]
            simp only [Outcome.bind_ok]
            rw [ih]
            simp only [asummed, currents, List.foldl_cons, ht, values_cons, reduceCtorEq, if_false]
      · rw [if_pos (by simpa using h1), if_neg (show ¬ (decide (n.activity < 0) = Arith.signbit i.1.impactValue ∧ n.activity = -(i64max + 1)) from fun h => h1 h.1), if_pos (.inl h1)]
        cases hv : Arith.toI64 i.1.impactValue with
        | none =>
          simp only [Option.bind_none]
          constructor
          · intro h; cases h
          · rintro ⟨_, a, h, _⟩; cases h
        | some v =>
          simp only [Outcome.bind_ok, Option.bind_some]
          rw [ih]
          simp only [asummed, currents, List.foldl_cons, ht, values_cons, reduceCtorEq, if_false]

private theorem apost_eq (n : AltAi F) (imps : List (SynapticImpact F × Bool)) (a : Int) (d : F) :
    altaiPost (asummed a { altaiPre n with dopamine := d } imps) = (altaiAfter a d n imps, altaiSpike a n imps) := by
  have hact : (if (if 0 < a then a - 1 else if a < 0 then a + 1 else a) = 0 then i64max else
      (if 0 < a then a - 1 else if a < 0 then a + 1 else a)) = activityAfter a := by
    unfold activityAfter
    split_ifs <;> omega
  have hleak : ∀ x : F, (n.leak * if n.leakRev && Arith.lt x 0 then -1 else 1) = if n.leakRev && Arith.lt x 0 then -n.leak else n.leak := by
    intro x
    split <;> omega
  have htick : altaiTick (altaiLeak (asummed a { altaiPre n with dopamine := d } imps)) =
      { n with potential := altaiInput n imps, preImpact := altaiRest n, dopamine := plus d (values .dopamine imps), activity := activityAfter a } := by
    unfold altaiTick altaiLeak asummed
    dsimp only
    rw [hact]
    unfold altaiInput
    dsimp only
    rw [← hleak]
    rfl
  unfold altaiPost
  dsimp only
  rw [htick]
  unfold altaiFire altaiNegative altaiAfter altaiSpike altaiPotential altaiThreshold altaiFloor
  dsimp only
  rcases n with ⟨isDiff, isReset, leakRev, saturate, doNotSave, _, _, _, _, _, _, _, _, _⟩
  dsimp only
  generalize altaiInput (F := F) _ imps = u
  generalize altaiRest (F := F) _ = u0
  generalize activityAfter a = c
  rename_i pot pre act neg leak reset dop add activity
  generalize ht : (Arith.ofInt (act : Int) + add : F) = t
  by_cases hf : Arith.le t u = true
  · rw [if_pos hf]
    cases isDiff <;> cases isReset <;> simp only [hf, Bool.and_true, Bool.and_false, if_true, Bool.false_eq_true, if_false, Bool.not_true, Bool.not_false] <;>
      split_ifs <;> rfl
  · rw [if_neg hf]
    have hf' := Bool.eq_false_iff.2 hf
    simp only [hf', Bool.false_and, Bool.and_false, Bool.false_eq_true, if_false, Bool.not_false, Bool.and_true]
    split_ifs <;> rfl

/-- C174, AltAI. A step succeeds exactly if no conductance impact arrives and the activity counter is defined, and then gives the state and the spike of
the formula. -/
theorem C174_altai (n : AltAi F) (imps : List (SynapticImpact F × Bool)) (r : AltAi F × Bool) :
    neuronStep altai n imps = .ok r ↔ values .inhibitoryConductance imps = [] ∧
      ∃ a, activityOf n.activity (values .blocking imps) = some a ∧ r = (altaiAfter a n.dopamine n imps, altaiSpike a n imps) := by
  have h := altai_sum imps (altaiPre n)
  unfold neuronStep
  show ((imps.foldlM (fun m (i : SynapticImpact F × Bool) => altaiImpact m i.1 i.2) (altaiPre n)).bind (fun m => Outcome.ok (altaiPost m))) = _ ↔ _
  constructor
  · intro hr
    cases hm : imps.foldlM (fun m (i : SynapticImpact F × Bool) => altaiImpact m i.1 i.2) (altaiPre n) with
    | ok m =>
      rw [hm] at hr
      obtain ⟨h1, a, h2, rfl⟩ := (h m).1 hm
      refine ⟨h1, a, h2, ?_⟩
      rw [← apost_eq]
      cases hr
      rfl
    | throw w => rw [hm] at hr; cases hr
    | ub => rw [hm] at hr; cases hr
  · rintro ⟨h1, a, h2, rfl⟩
    rw [(h _).2 ⟨h1, a, h2, rfl⟩, ← apost_eq]
    rfl

/-- C174, AltAI with synaptic resource: the dopamine value starts from nothing in every step, and the neuron counts as forced exactly in the steps in
which an excitatory impact of a forcing message arrives. -/
theorem C174_resource_altai (n : Res (AltAi F) F) (imps : List (SynapticImpact F × Bool)) (r : Res (AltAi F) F × Bool) :
    neuronStep resAltai n imps = .ok r ↔ values .inhibitoryConductance imps = [] ∧
      ∃ a, activityOf n.base.activity (values .blocking imps) = some a ∧
        r = (⟨altaiAfter a 0 n.base imps, { n.rule with forced := forcedBy imps }⟩, altaiSpike a n.base imps) := by
  have h := altai_sum imps (resAltaiPre n).base
  have key := res_fold (F := F) resAltaiImpact altaiImpact (fun _ _ _ => rfl) imps (resAltaiPre n)
  unfold neuronStep
  show ((imps.foldlM (fun m (i : SynapticImpact F × Bool) => resAltaiImpact m i.1 i.2) (resAltaiPre n)).bind
    (fun m => Outcome.ok (({ m with base := (altaiPost m.base).1 } : Res (AltAi F) F), (altaiPost m.base).2))) = _ ↔ _
  rw [key]
  constructor
  · intro hr
    cases hm : imps.foldlM (fun m (i : SynapticImpact F × Bool) => altaiImpact m i.1 i.2) (resAltaiPre n).base with
    | ok m =>
      rw [hm] at hr
      obtain ⟨h1, a, h2, rfl⟩ := (h m).1 hm
      refine ⟨h1, a, h2, ?_⟩
      have e := apost_eq n.base imps a 0
      have hr : Outcome.ok _ = Outcome.ok r := hr
      rw [Outcome.ok.injEq] at hr
      rw [← hr]
      show ((⟨(altaiPost (asummed a { altaiPre n.base with dopamine := 0 } imps)).1, _⟩ : Res (AltAi F) F), (altaiPost (asummed a { altaiPre n.base with dopamine := 0 } imps)).2) = _
      rw [e]
      simp [resAltaiPre]
    | throw w => rw [hm] at hr; cases hr
    | ub => rw [hm] at hr; cases hr
  · rintro ⟨h1, a, h2, rfl⟩
    rw [(h _).2 ⟨h1, a, h2, rfl⟩]
    have e := apost_eq n.base imps a 0
    show Outcome.ok ((⟨(altaiPost (asummed a { altaiPre n.base with dopamine := 0 } imps)).1, _⟩ : Res (AltAi F) F), (altaiPost (asummed a { altaiPre n.base with dopamine := 0 } imps)).2) = _
    rw [e]
    simp [resAltaiPre]

/-! ## The order of impacts -/

omit [Arith F] in
private theorem values_perm (t : OutputType) {l l' : List (SynapticImpact F × Bool)} (h : l.Perm l') : (values t l).Perm (values t l') :=
  (h.filter _).map _

private theorem plus_perm (hs : Sums F) {l l' : List F} (h : l.Perm l') (x : F) : plus x l = plus x l' := by
  unfold plus
  exact h.foldl_eq' (fun a _ b _ z => hs.swap z a b) x

private theorem currents_perm (hs : Sums F) {l l' : List (SynapticImpact F × Bool)} (h : l.Perm l') (x : F) : currents x l = currents x l' := by
  unfold currents
  refine h.foldl_eq' (fun a _ b _ z => ?_) x
  cases a.1.synapseType <;> cases b.1.synapseType <;> dsimp only
  · exact hs.swap ..
  · exact hs.swapSub ..
  · exact (hs.swapSub ..).symm
  · exact hs.subSub ..

omit [Arith F] in
private theorem blocking_perm {l l' : List (SynapticImpact F × Bool)} (h : l.Perm l') (h1 : (values .blocking l).length ≤ 1) :
    values .blocking l = values .blocking l' := by
  have hp := values_perm .blocking h
  match hv : values .blocking l with
  | [] => rw [hv] at hp; exact (List.nil_perm.1 hp).symm
  | [v] => rw [hv] at hp; exact List.singleton_perm.1 hp
  | _ :: _ :: _ => rw [hv] at h1; simp at h1

/-- C174. Where sums do not depend on the order of their terms, neither do neurons, as long as not more than one of the impacts of a step is a
blocking impact: what happens in a step is the same for every order of the impacts. -/
theorem C174_order (hs : Sums F) {l l' : List (SynapticImpact F × Bool)} (h : l.Perm l') (h1 : (values .blocking l).length ≤ 1) :
    (∀ n : Blifat F, neuronStep blifat n l = neuronStep blifat n l') ∧
    (∀ n : Res (Blifat F) F, neuronStep resBlifat n l = neuronStep resBlifat n l') ∧
    (∀ (n : AltAi F) r, neuronStep altai n l = .ok r ↔ neuronStep altai n l' = .ok r) ∧
    (∀ (n : Res (AltAi F) F) r, neuronStep resAltai n l = .ok r ↔ neuronStep resAltai n l' = .ok r) := by
  have hb := blocking_perm h h1
  have hbad : badBlocking l ↔ badBlocking l' := by unfold badBlocking; rw [hb]
  have hlast : ∀ b, lastBlocking b l = lastBlocking b l' := by intro b; unfold lastBlocking; rw [hb]
  have hf : forcedBy l = forcedBy l' := by unfold forcedBy; exact h.any_eq
  have hc : ∀ x : F, currents x l = currents x l' := currents_perm hs h
  have hp : ∀ t (x : F), plus x (values t l) = plus x (values t l') := fun t => plus_perm hs (values_perm t h)
  have hin : ∀ n : Blifat F, blifatInput n l = blifatInput n l' := by intro n; unfold blifatInput; rw [hlast, hc, hp]
  have hsp : ∀ n : Blifat F, blifatSpike n l = blifatSpike n l' := by intro n; unfold blifatSpike; rw [hin]
  have haf : ∀ k d (n : Blifat F), blifatAfter k d n l = blifatAfter k d n l' := by
    intro k d n; unfold blifatAfter; rw [hsp, hin, hp, hp, hlast]
  have hain : ∀ n : AltAi F, altaiInput n l = altaiInput n l' := by intro n; unfold altaiInput; rw [hc]
  have hasp : ∀ a (n : AltAi F), altaiSpike a n l = altaiSpike a n l' := by intro a n; unfold altaiSpike; rw [hain]
  have hapo : ∀ n : AltAi F, altaiPotential n l = altaiPotential n l' := by intro n; unfold altaiPotential; rw [hain]
  have haaf : ∀ a d (n : AltAi F), altaiAfter a d n l = altaiAfter a d n l' := by intro a d n; unfold altaiAfter; rw [hapo, hp]
  have hcond : values .inhibitoryConductance l = [] ↔ values .inhibitoryConductance l' = [] := by
    have := (values_perm .inhibitoryConductance h).length_eq
    rw [← List.length_eq_zero_iff, ← List.length_eq_zero_iff, this]
  refine ⟨fun n => ?_, fun n => ?_, fun n r => ?_, fun n r => ?_⟩
  · by_cases hx : badBlocking l
    · rw [(C174_blifat n l).1 hx, (C174_blifat n l').1 (hbad.1 hx)]
    · rw [(C174_blifat n l).2 hx, (C174_blifat n l').2 (fun h => hx (hbad.2 h)), haf, hsp]
  · by_cases hx : badBlocking l
    · rw [(C174_resource_blifat n l).1 hx, (C174_resource_blifat n l').1 (hbad.1 hx)]
    · rw [(C174_resource_blifat n l).2 hx, (C174_resource_blifat n l').2 (fun h => hx (hbad.2 h)), haf, hsp, hf]
  · rw [C174_altai, C174_altai, hcond, hb]
    simp only [haaf, hasp]
  · rw [C174_resource_altai, C174_resource_altai, hcond, hb]
    simp only [haaf, hasp, hf]

/-- C174, the statement without the condition on blocking impacts. -/
def C174_order_statement : Prop :=
  ∀ (l l' : List (SynapticImpact Int × Bool)), l.Perm l' → ∀ n : Blifat Int, neuronStep blifat n l = neuronStep blifat n l'

/-- C174. With two blocking impacts in a step their order counts: the last one holds. -/
theorem C174_order_refuted : ¬ C174_order_statement := by
  intro h
  have := h [(⟨0, -2, .blocking, 0, 0⟩, false), (⟨0, 3, .blocking, 0, 0⟩, false)] [(⟨0, 3, .blocking, 0, 0⟩, false), (⟨0, -2, .blocking, 0, 0⟩, false)]
    (List.Perm.swap ..) (blifatSample 5)
  revert this
  decide +kernel

/-- Exact arithmetic has the laws. -/
theorem C174_exact : Sums Int := ⟨fun x a b => by omega, fun x a b => by omega, fun x a b => by omega⟩

/-- A step with impacts of all five types, two of them in a forcing message. -/
def NeuronStepEx.imps : List (SynapticImpact Int × Bool) :=
  [(⟨0, 9, .excitatory, 0, 0⟩, true), (⟨0, 2, .inhibitoryCurrent, 0, 0⟩, false), (⟨0, 3, .dopamine, 0, 0⟩, false),
   (⟨0, 4, .blocking, 0, 0⟩, false), (⟨0, 0, .inhibitoryConductance, 0, 0⟩, true)]

example : ¬ badBlocking NeuronStepEx.imps ∧ (values .blocking NeuronStepEx.imps).length ≤ 1 ∧
    blifatInput (blifatSample (-3)) NeuronStepEx.imps = 7 ∧ blifatSpike (blifatSample (-3)) NeuronStepEx.imps = true ∧
    blifatSpike (blifatSample (-3)) (NeuronStepEx.imps.take 3) = false ∧ forcedBy NeuronStepEx.imps = true := by
  refine ⟨?_, by decide, by decide +kernel, by decide +kernel, by decide +kernel, by decide⟩
  rintro ⟨v, hv, h⟩
  have : v = 4 := by simpa [NeuronStepEx.imps, values] using hv
  subst this
  revert h
  decide

example : values .inhibitoryConductance (NeuronStepEx.imps.take 4) = [] ∧
    activityOf altaiSample.activity (values .blocking (NeuronStepEx.imps.take 4)) = some 4 ∧
    altaiSpike 4 altaiSample (NeuronStepEx.imps.take 4) = true := by decide

end Knp.Props
