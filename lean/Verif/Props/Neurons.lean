import Verif.Model.Neurons

/-!
# Neuron and population properties: C49–C54, C82, C83
-/

namespace Knp.Props
open Knp Knp.Neurons

variable {N F : Type}

/-! ## Vocabulary of the statements -/

/-- One step of one neuron that receives the given impacts (with their forcing flags) in this order. -/
def neuronStep (k : Kind N F) (n : N) (imps : List (SynapticImpact F × Bool)) : Outcome (N × Bool) := do
  let m ← imps.foldlM (fun m i => k.impact m i.1 i.2) (k.pre n)
  pure (k.post m)

/-- Consecutive steps: the last state and the spike flag of each step. -/
def neuronRun (k : Kind N F) (n : N) : List (List (SynapticImpact F × Bool)) → Outcome (N × List Bool)
  | [] => .ok (n, [])
  | imps :: rest => do
    let r ← neuronStep k n imps
    let s ← neuronRun k r.1 rest
    pure (s.1, r.2 :: s.2)

/-- Excitatory and inhibitory currents added to a potential one after the other. -/
def withCurrents [Arith F] (p : F) (imps : List (SynapticImpact F × Bool)) : F :=
  imps.foldl (fun p i => match i.1.synapseType with
    | .excitatory => p + i.1.impactValue
    | .inhibitoryCurrent => p - i.1.impactValue
    | _ => p) p

/-! ### Helpers -/

private theorem run_cons {k : Kind N F} {n : N} {imps rest} {r : N × List Bool}
    (h : neuronRun k n (imps :: rest) = .ok r) :
    ∃ m b s, neuronStep k n imps = .ok (m, b) ∧ neuronRun k m rest = .ok s ∧ r = (s.1, b :: s.2) := by
  unfold neuronRun at h
  cases h1 : neuronStep k n imps with
  | ok q =>
    rw [h1] at h
    simp only [Outcome.bind_ok] at h
    cases h2 : neuronRun k q.1 rest with
    | ok s =>
      rw [h2] at h
      simp only [Outcome.bind_ok, Outcome.pure_eq, Outcome.ok.injEq] at h
      exact ⟨q.1, q.2, s, rfl, h2, h.symm⟩
    | throw w => rw [h2] at h; simp at h
    | ub => rw [h2] at h; simp at h
  | throw w => rw [h1] at h; simp at h
  | ub => rw [h1] at h; simp at h

private theorem step_ok {k : Kind N F} {n : N} {imps} {r : N × Bool} (h : neuronStep k n imps = .ok r) :
    ∃ m, imps.foldlM (fun m (i : SynapticImpact F × Bool) => k.impact m i.1 i.2) (k.pre n) = Outcome.ok m
      ∧ k.post m = r := by
  unfold neuronStep at h
  cases h1 : imps.foldlM (fun m (i : SynapticImpact F × Bool) => k.impact m i.1 i.2) (k.pre n) with
  | ok m => rw [h1] at h; exact ⟨m, rfl, by simpa using h⟩
  | throw w => rw [h1] at h; simp at h
  | ub => rw [h1] at h; simp at h

private theorem run_length {k : Kind N F} : ∀ {ins} {n : N} {r : N × List Bool},
    neuronRun k n ins = .ok r → r.2.length = ins.length := by
  intro ins
  induction ins with
  | nil => intro n r h; simp [neuronRun] at h; subst h; rfl
  | cons i rest ih =>
    intro n r h
    obtain ⟨m, b, s, _, h2, rfl⟩ := run_cons h
    simp [ih h2]

/-! ## LIF: C49, C50 -/

section
variable [Arith F]

private theorem lif_impacts : ∀ (imps : List (SynapticImpact F × Bool)) (n m : Lif F),
    imps.foldlM (fun m (i : SynapticImpact F × Bool) => lifImpact m i.1 i.2) n = Outcome.ok m →
    m = if n.counter = 0 then { n with potential := withCurrents n.potential imps } else n := by
  intro imps
  induction imps with
  | nil => intro n m h; simp at h; subst h; simp [withCurrents]
  | cons i rest ih =>
    intro n m h
    rw [List.foldlM_cons] at h
    cases h1 : lifImpact n i.1 i.2 with
    | ok n1 =>
      rw [h1] at h
      have := ih n1 m (by simpa using h)
      unfold lifImpact at h1
      by_cases hc : n.counter = 0
      · cases ht : i.1.synapseType <;> rw [ht] at h1 <;> simp [hc] at h1 <;>
          (subst h1; rw [this]; simp [hc, withCurrents, ht])
      · cases ht : i.1.synapseType <;> rw [ht] at h1 <;> simp [hc] at h1 <;>
          (subst h1; rw [this]; simp [hc])
    | throw w => rw [h1] at h; simp at h
    | ub => rw [h1] at h; simp at h

/-- C50: outside the refractory period a LIF neuron spikes exactly if its potential after leakage and input is above
the threshold; then the potential is the reset value, otherwise the potential after leakage and input. -/
theorem C50_threshold (n n' : Lif F) (imps : List (SynapticImpact F × Bool)) (b : Bool) (hc : n.counter = 0)
    (h : neuronStep lif n imps = .ok (n', b)) :
    b = Arith.lt n.threshold (withCurrents (n.potential * n.leak) imps) ∧
    n' = { n with potential := if b then n.resetValue else withCurrents (n.potential * n.leak) imps
                  counter := if b then n.period else 0 } := by
  obtain ⟨m, h1, h2⟩ := step_ok h
  have h3 := lif_impacts imps _ _ h1
  have hp : (lif : Kind (Lif F) F).pre n = { n with potential := n.potential * n.leak } := by
    show lifPre n = _
    simp [lifPre, hc]
  rw [hp, if_pos hc] at h3
  subst h3
  change lifPost _ = _ at h2
  unfold lifPost at h2
  simp only [hc, if_true] at h2
  by_cases hb : Arith.lt n.threshold (withCurrents (n.potential * n.leak) imps) = true
  · rw [if_pos hb] at h2
    have := Prod.ext_iff.1 h2
    simp only at this
    rw [← this.2, ← this.1]
    exact ⟨hb.symm, by simp⟩
  · rw [if_neg hb] at h2
    have := Prod.ext_iff.1 h2
    simp only at this
    rw [← this.2, ← this.1]
    exact ⟨by simpa using hb, by simp [← hc]⟩

/-- C50: the step ends normally exactly if every impact is excitatory or an inhibitory current. -/
theorem C50_accepts (n : Lif F) (imps : List (SynapticImpact F × Bool)) :
    (neuronStep lif n imps).isOk = true ↔
      ∀ i ∈ imps, i.1.synapseType = .excitatory ∨ i.1.synapseType = .inhibitoryCurrent := by
  have key : ∀ (l : List (SynapticImpact F × Bool)) (m : Lif F),
      (l.foldlM (fun m (i : SynapticImpact F × Bool) => lifImpact m i.1 i.2) m : Outcome (Lif F)).isOk = true ↔
        ∀ i ∈ l, i.1.synapseType = .excitatory ∨ i.1.synapseType = .inhibitoryCurrent := by
    intro l
    induction l with
    | nil => intro m; simp [Outcome.isOk]
    | cons i rest ih =>
      intro m
      rw [List.foldlM_cons, List.forall_mem_cons]
      unfold lifImpact
      cases ht : i.1.synapseType
      · simp only [Outcome.bind_ok]
        exact (ih _).trans (by simp)
      · simp only [Outcome.bind_ok]
        exact (ih _).trans (by simp)
      all_goals simp [Outcome.isOk]
  unfold neuronStep
  rw [← key imps (lifPre n)]
  show (Outcome.bind (imps.foldlM (fun m (i : SynapticImpact F × Bool) => lifImpact m i.1 i.2) (lifPre n)) _).isOk
    = true ↔ _
  cases imps.foldlM (fun m (i : SynapticImpact F × Bool) => lifImpact m i.1 i.2) (lifPre n) <;>
    simp [Outcome.bind, Outcome.isOk]

private theorem lif_refractory {n n' : Lif F} {imps : List (SynapticImpact F × Bool)} {b : Bool}
    (hc : n.counter ≠ 0) (h : neuronStep lif n imps = .ok (n', b)) :
    b = false ∧ n' = { n with counter := n.counter - 1 } := by
  obtain ⟨m, h1, h2⟩ := step_ok h
  have h3 := lif_impacts imps _ _ h1
  have hp : (lif : Kind (Lif F) F).pre n = n := by
    show lifPre n = _
    simp [lifPre, hc]
  rw [hp, if_neg hc] at h3
  subst h3
  change lifPost _ = _ at h2
  unfold lifPost at h2
  rw [if_neg hc] at h2
  have := Prod.ext_iff.1 h2
  exact ⟨this.2.symm, this.1.symm⟩

private theorem lif_period {n n' : Lif F} {imps : List (SynapticImpact F × Bool)} {b : Bool}
    (h : neuronStep lif n imps = .ok (n', b)) : n'.period = n.period := by
  by_cases hc : n.counter = 0
  · rw [(C50_threshold n n' imps b hc h).2]
  · rw [(lif_refractory hc h).2]

/-- While the counter runs nothing happens; the first spike needs more steps than the counter. -/
private theorem lif_quiet : ∀ (ins : List (List (SynapticImpact F × Bool))) (n : Lif F) (r : Lif F × List Bool)
    (j : Nat), neuronRun lif n ins = .ok r → r.2[j]? = some true → n.counter ≤ j := by
  intro ins
  induction ins with
  | nil => intro n r j h hj; simp [neuronRun] at h; subst h; simp at hj
  | cons i rest ih =>
    intro n r j h hj
    obtain ⟨m, b, s, h1, h2, rfl⟩ := run_cons h
    by_cases hc : n.counter = 0
    · omega
    · obtain ⟨hb, hm⟩ := lif_refractory hc h1
      cases j with
      | zero => simp [hb] at hj
      | succ j =>
        have := ih m s j h2 (by simpa using hj)
        rw [hm] at this
        simp only at this
        omega

/-- C49: in every history two spikes of a LIF neuron are more than `refract_period` steps apart. -/
theorem C49_refractory (n : Lif F) (ins : List (List (SynapticImpact F × Bool))) (r : Lif F × List Bool)
    (h : neuronRun lif n ins = .ok r) (i j : Nat) (hi : r.2[i]? = some true) (hj : r.2[j]? = some true)
    (hij : i < j) : n.period < j - i := by
  induction ins generalizing n r i j with
  | nil => simp [neuronRun] at h; subst h; simp at hi
  | cons a rest ih =>
    obtain ⟨m, b, s, h1, h2, rfl⟩ := run_cons h
    cases i with
    | zero =>
      simp at hi
      subst hi
      obtain ⟨j, rfl⟩ : ∃ j', j = j' + 1 := ⟨j - 1, by omega⟩
      have hq := lif_quiet rest m s j h2 (by simpa using hj)
      by_cases hc : n.counter = 0
      · rw [(C50_threshold n m a true hc h1).2] at hq
        simp only [if_true] at hq
        omega
      · exact absurd (lif_refractory hc h1).1 (by simp)
    | succ i =>
      obtain ⟨j, rfl⟩ : ∃ j', j = j' + 1 := ⟨j - 1, by omega⟩
      have := ih m s h2 i j (by simpa using hi) (by simpa using hj) (by omega)
      rw [lif_period h1] at this
      omega

/-- C49: after a spike, whatever input arrives in the next `refract_period` steps, the neuron is silent, keeps the
reset potential, and in the step after them it spikes exactly if that step's leakage and input lift it above the
threshold. -/
theorem C49_fires_again (n n1 n2 n3 : Lif F) (imps last : List (SynapticImpact F × Bool))
    (mid : List (List (SynapticImpact F × Bool))) (bs : List Bool) (b : Bool)
    (hspike : neuronStep lif n imps = .ok (n1, true)) (hmid : neuronRun lif n1 mid = .ok (n2, bs))
    (hlen : mid.length = n.period) (hlast : neuronStep lif n2 last = .ok (n3, b)) :
    bs = List.replicate n.period false ∧ n2.potential = n.resetValue ∧
    (b = Arith.lt n.threshold (withCurrents (n.resetValue * n.leak) last)) := by
  have hc : n.counter = 0 := by
    refine Decidable.byContradiction fun hc => ?_
    exact absurd (lif_refractory hc hspike).1 (by simp)
  have hn1 := (C50_threshold n n1 imps true hc hspike).2
  simp only [if_true] at hn1
  have key : ∀ (mid : List (List (SynapticImpact F × Bool))) (a c : Lif F) (bs : List Bool),
      mid.length = a.counter → neuronRun lif a mid = .ok (c, bs) →
      bs = List.replicate a.counter false ∧ c = { a with counter := 0 } := by
    intro mid
    induction mid with
    | nil =>
      intro a c bs hl h
      simp [neuronRun] at h
      simp at hl
      obtain ⟨hac, hbs⟩ := h
      subst hac
      refine ⟨by rw [← hl, hbs]; rfl, ?_⟩
      cases a
      simp only at hl
      rw [← hl]
    | cons i rest ih =>
      intro a c bs hl h
      obtain ⟨m, b, s, h1, h2, h3⟩ := run_cons h
      have hca : a.counter ≠ 0 := by simp at hl; omega
      obtain ⟨hb, hm⟩ := lif_refractory hca h1
      have h4 := ih m s.1 s.2 (by rw [hm]; simp at hl ⊢; omega) (by rw [h2])
      have h5 := Prod.ext_iff.1 h3
      simp only at h5
      rw [h5.1, h5.2, h4.1, h4.2, hb, hm]
      refine ⟨?_, rfl⟩
      simp only
      rw [← List.replicate_succ]
      congr 1
      omega
  have hcn1 : n1.counter = n.period := by rw [hn1]
  obtain ⟨hbs, hn2⟩ := key mid n1 n2 bs (by rw [hcn1, hlen]) hmid
  rw [hcn1] at hbs
  have hc2 : n2.counter = 0 := by rw [hn2]
  have := (C50_threshold n2 n3 last b hc2 hlast).1
  rw [hn2, hn1] at this
  exact ⟨hbs, by rw [hn2, hn1], this⟩

end

/-- An excitatory impact. -/
def exc (v : Int) : SynapticImpact Int × Bool := (⟨0, v, .excitatory, 0, 0⟩, false)

/-- Threshold 5, reset 1, no leak, refractory period 2. -/
def lifSample : Lif Int := ⟨0, 1, 5, 1, 0, 2⟩

example : neuronRun lif lifSample [[exc 3], [exc 3], [exc 9], [exc 9], [exc 4], [exc 1]] =
    .ok (⟨1, 1, 5, 1, 2, 2⟩, [false, true, false, false, false, true]) := by decide

example : neuronStep lif lifSample [exc 3, exc 3] = .ok (⟨1, 1, 5, 1, 2, 2⟩, true) ∧
    neuronRun lif ⟨1, 1, 5, 1, 2, 2⟩ [[exc 9], [exc 9]] = .ok (⟨1, 1, 5, 1, 0, 2⟩, [false, false]) ∧
    neuronStep lif ⟨1, 1, 5, 1, 0, 2⟩ [exc 5] = .ok (⟨1, 1, 5, 1, 2, 2⟩, true) := by decide

/-! ## BLIFAT: C51, C52, C53, C82, C83 -/

section
variable [Arith F]

/-- Impacts change nothing but potential, conductance, dopamine and the blocking period. -/
private theorem blifat_impacts : ∀ (imps : List (SynapticImpact F × Bool)) (n m : Blifat F),
    imps.foldlM (fun m (i : SynapticImpact F × Bool) => blifatImpact m i.1 i.2) n = Outcome.ok m →
    ∃ p c d b, m = { n with potential := p, conductance := c, dopamine := d, blocking := b } := by
  intro imps
  induction imps with
  | nil => intro n m h; simp at h; subst h; exact ⟨_, _, _, _, rfl⟩
  | cons i rest ih =>
    intro n m h
    rw [List.foldlM_cons] at h
    cases h1 : blifatImpact n i.1 i.2 with
    | ok n1 =>
      rw [h1] at h
      obtain ⟨p, c, d, b, hm⟩ := ih n1 m (by simpa using h)
      unfold blifatImpact at h1
      refine ⟨p, c, d, b, ?_⟩
      cases ht : i.1.synapseType <;> rw [ht] at h1
      case blocking =>
        simp only at h1
        cases hv : Arith.toI64 i.1.impactValue with
        | some v => rw [hv] at h1; simp at h1; rw [hm, ← h1]
        | none => rw [hv] at h1; simp at h1
      all_goals (simp only [Outcome.ok.injEq] at h1; rw [hm, ← h1])
    | throw w => rw [h1] at h; simp at h
    | ub => rw [h1] at h; simp at h

private theorem res_impacts : ∀ (imps : List (SynapticImpact F × Bool)) (n m : Res (Blifat F) F),
    imps.foldlM (fun m (i : SynapticImpact F × Bool) => resBlifatImpact m i.1 i.2) n = Outcome.ok m →
    imps.foldlM (fun m (i : SynapticImpact F × Bool) => blifatImpact m i.1 i.2) n.base = Outcome.ok m.base := by
  intro imps
  induction imps with
  | nil => intro n m h; simp at h; subst h; rfl
  | cons i rest ih =>
    intro n m h
    rw [List.foldlM_cons] at h ⊢
    cases h1 : resBlifatImpact n i.1 i.2 with
    | ok n1 =>
      rw [h1] at h
      have h2 := ih n1 m (by simpa using h)
      unfold resBlifatImpact at h1
      cases hb : blifatImpact n.base i.1 i.2 with
      | ok b =>
        rw [hb] at h1
        simp only [Outcome.bind_ok, Outcome.pure_eq, Outcome.ok.injEq] at h1
        rw [Outcome.bind_ok]
        rw [← h1] at h2
        exact h2
      | throw w => rw [hb] at h1; simp at h1
      | ub => rw [hb] at h1; simp at h1
    | throw w => rw [h1] at h; simp at h
    | ub => rw [h1] at h; simp at h

/-- The last part of a BLIFAT step as seen from outside. -/
private theorem blifatPost_facts (n : Blifat F) :
    (blifatPost n).1.refractory = n.refractory ∧ (blifatPost n).1.minPotential = n.minPotential ∧
    (blifatPost n).1.burstingPeriod = n.burstingPeriod ∧
    (blifatPost n).1.sinceFiring = (if (blifatPost n).2 then 0 else n.sinceFiring) ∧
    ((blifatPost n).2 = true → n.refractory < n.sinceFiring) ∧
    (blifatPost n).1.burstingPhase = (if (blifatPost n).2 then n.burstingPeriod else n.burstingPhase) := by
  have h1 : ∀ m : Blifat F, (blifatClamp m).refractory = m.refractory ∧ (blifatClamp m).minPotential = m.minPotential
      ∧ (blifatClamp m).sinceFiring = m.sinceFiring ∧ (blifatClamp m).burstingPhase = m.burstingPhase
      ∧ (blifatClamp m).burstingPeriod = m.burstingPeriod := by
    intro m; unfold blifatClamp; split <;> simp
  have h2 : ∀ m : Blifat F, (blifatInhibit (blifatTick (blifatRestore m))).refractory = m.refractory ∧
      (blifatInhibit (blifatTick (blifatRestore m))).minPotential = m.minPotential ∧
      (blifatInhibit (blifatTick (blifatRestore m))).sinceFiring = m.sinceFiring ∧
      (blifatInhibit (blifatTick (blifatRestore m))).burstingPhase = m.burstingPhase ∧
      (blifatInhibit (blifatTick (blifatRestore m))).burstingPeriod = m.burstingPeriod := by
    intro m
    unfold blifatInhibit blifatTick blifatRestore
    split <;> split <;> (try split) <;> (try split) <;> simp
  obtain ⟨a1, a2, a3, a4, a5⟩ := h2 n
  unfold blifatPost
  simp only
  generalize hm : blifatInhibit (blifatTick (blifatRestore n)) = m at a1 a2 a3 a4 a5 ⊢
  obtain ⟨b1, b2, b3, b4, b5⟩ := h1 (blifatFire m).1
  rw [b1, b2, b3, b4, b5]
  unfold blifatFire
  by_cases hs : blifatSpikes m = true
  · rw [if_pos hs]
    refine ⟨a1, a2, a5, by simp, ?_, by simp [a5]⟩
    intro _
    unfold blifatSpikes at hs
    rw [Bool.and_eq_true, decide_eq_true_eq] at hs
    omega
  · rw [if_neg hs]
    exact ⟨a1, a2, a5, by simpa using a3, by simp, by simp [a4]⟩

private theorem blifatPre_facts (n : Blifat F) : (blifatPre n).sinceFiring = addU64 n.sinceFiring 1 ∧
    (blifatPre n).refractory = n.refractory ∧ (blifatPre n).minPotential = n.minPotential ∧
    (blifatPre n).burstingPeriod = n.burstingPeriod := by
  unfold blifatPre blifatSave blifatBurst blifatDecay
  split <;> simp

private theorem resPre_facts (n : Res (Blifat F) F) :
    (resBlifatPre n).base.sinceFiring = addU64 n.base.sinceFiring 1 ∧
    (resBlifatPre n).base.refractory = n.base.refractory ∧
    (resBlifatPre n).base.minPotential = n.base.minPotential ∧
    (resBlifatPre n).base.burstingPeriod = n.base.burstingPeriod ∧
    (resBlifatPre n).base.burstingPhase = n.base.burstingPhase := by
  unfold resBlifatPre blifatSave resBlifatBurst blifatDecay
  simp only
  split <;> simp

/-- The clock of the last spike in one step, of both variants. -/
private theorem blifat_clock {n n' : Blifat F} {imps : List (SynapticImpact F × Bool)} {b : Bool}
    (h : neuronStep blifat n imps = .ok (n', b)) :
    n'.refractory = n.refractory ∧ n'.sinceFiring = (if b then 0 else addU64 n.sinceFiring 1) ∧
    (b = true → n.refractory < addU64 n.sinceFiring 1) := by
  obtain ⟨m, h1, h2⟩ := step_ok h
  obtain ⟨p, c, d, bl, hm⟩ := blifat_impacts imps _ _ h1
  obtain ⟨q1, q2, q3, q4⟩ := blifatPre_facts n
  obtain ⟨p1, p2, p3, p4, p5, p6⟩ := blifatPost_facts m
  change blifatPost m = _ at h2
  change m = { blifatPre n with potential := p, conductance := c, dopamine := d, blocking := bl } at hm
  rw [h2] at p1 p2 p3 p4 p5 p6
  have e1 : m.sinceFiring = addU64 n.sinceFiring 1 := by rw [hm]; exact q1
  have e2 : m.refractory = n.refractory := by rw [hm]; exact q2
  rw [e1] at p4 p5
  rw [e2] at p1 p5
  exact ⟨p1, p4, p5⟩

private theorem res_clock {n n' : Res (Blifat F) F} {imps : List (SynapticImpact F × Bool)} {b : Bool}
    (h : neuronStep resBlifat n imps = .ok (n', b)) :
    n'.base.refractory = n.base.refractory ∧ n'.base.sinceFiring = (if b then 0 else addU64 n.base.sinceFiring 1) ∧
    (b = true → n.base.refractory < addU64 n.base.sinceFiring 1) := by
  obtain ⟨m, h1, h2⟩ := step_ok h
  obtain ⟨p, c, d, bl, hm⟩ := blifat_impacts imps _ _ (res_impacts imps _ _ h1)
  obtain ⟨q1, q2, q3, q4, q5⟩ := resPre_facts n
  obtain ⟨p1, p2, p3, p4, p5, p6⟩ := blifatPost_facts m.base
  change ({ m with base := (blifatPost m.base).1 }, (blifatPost m.base).2) = (n', b) at h2
  have h2a := Prod.ext_iff.1 h2
  simp only at h2a
  change m.base = { (resBlifatPre n).base with potential := p, conductance := c, dopamine := d, blocking := bl } at hm
  have e1 : m.base.sinceFiring = addU64 n.base.sinceFiring 1 := by rw [hm]; exact q1
  have e2 : m.base.refractory = n.base.refractory := by rw [hm]; exact q2
  rw [h2a.2] at p4 p5
  rw [e1] at p4 p5
  rw [e2] at p1 p5
  rw [← h2a.1]
  exact ⟨p1, p4, p5⟩

/-- The counting argument of C51 for any neuron type with such a clock. -/
private theorem refractory_of_clock (k : Kind N F) (since per : N → Nat)
    (hclock : ∀ n n' imps b, neuronStep k n imps = .ok (n', b) → per n' = per n ∧
      since n' = (if b then 0 else addU64 (since n) 1) ∧ (b = true → per n < addU64 (since n) 1)) :
    ∀ (ins : List (List (SynapticImpact F × Bool))) (n : N) (r : N × List Bool),
      neuronRun k n ins = .ok r →
      (∀ j : Nat, r.2[j]? = some true → per n < since n + j + 1) ∧
      (∀ i j : Nat, r.2[i]? = some true → r.2[j]? = some true → i < j → per n < j - i) := by
  intro ins
  induction ins with
  | nil =>
    intro n r h
    simp [neuronRun] at h
    subst h
    simp
  | cons a rest ih =>
    intro n r h
    obtain ⟨m, b, s, h1, h2, rfl⟩ := run_cons h
    obtain ⟨c1, c2, c3⟩ := hclock n m a b h1
    obtain ⟨i1, i2⟩ := ih m s h2
    have hle : addU64 (since n) 1 ≤ since n + 1 := Nat.mod_le _ _
    rw [c1] at i1 i2
    refine ⟨?_, ?_⟩
    · intro j hj
      cases j with
      | zero =>
        simp at hj
        have := c3 hj
        omega
      | succ j =>
        have h3 := i1 j (by simpa using hj)
        rw [c2] at h3
        split at h3 <;> omega
    · intro i j hi hj hij
      obtain ⟨j, rfl⟩ : ∃ j', j = j' + 1 := ⟨j - 1, by omega⟩
      cases i with
      | zero =>
        simp at hi
        have h3 := i1 j (by simpa using hj)
        rw [c2, if_pos hi] at h3
        omega
      | succ i =>
        have := i2 i j (by simpa using hi) (by simpa using hj) (by omega)
        omega

/-- C51: in every history of a BLIFAT neuron two spikes are more than `absolute_refractory_period` steps apart. -/
theorem C51_refractory (n : Blifat F) (ins : List (List (SynapticImpact F × Bool))) (r : Blifat F × List Bool)
    (h : neuronRun blifat n ins = .ok r) (i j : Nat) (hi : r.2[i]? = some true) (hj : r.2[j]? = some true)
    (hij : i < j) : n.refractory < j - i :=
  (refractory_of_clock blifat (·.sinceFiring) (·.refractory) (fun _ _ _ _ h => blifat_clock h) ins n r h).2
    i j hi hj hij

/-- C51 for the synaptic-resource variant. -/
theorem C51_refractory_resource (n : Res (Blifat F) F) (ins : List (List (SynapticImpact F × Bool)))
    (r : Res (Blifat F) F × List Bool) (h : neuronRun resBlifat n ins = .ok r) (i j : Nat)
    (hi : r.2[i]? = some true) (hj : r.2[j]? = some true) (hij : i < j) : n.base.refractory < j - i :=
  (refractory_of_clock resBlifat (·.base.sinceFiring) (·.base.refractory) (fun _ _ _ _ h => res_clock h) ins n r h).2
    i j hi hj hij

/-- C52: after every step the potential is not below the minimum – in any arithmetic where nothing is less than
itself (IEEE included, also when the potential is NaN). -/
theorem C52_minimum (hirr : ∀ a : F, Arith.lt a a = false) (n n' : Blifat F)
    (imps : List (SynapticImpact F × Bool)) (b : Bool) (h : neuronStep blifat n imps = .ok (n', b)) :
    n'.minPotential = n.minPotential ∧ Arith.lt n'.potential n.minPotential = false := by
  obtain ⟨m, h1, h2⟩ := step_ok h
  obtain ⟨p, c, d, bl, hm⟩ := blifat_impacts imps _ _ h1
  change blifatPost m = _ at h2
  change m = { blifatPre n with potential := p, conductance := c, dopamine := d, blocking := bl } at hm
  have e : m.minPotential = n.minPotential := by rw [hm]; exact (blifatPre_facts n).2.2.1
  have hp := (blifatPost_facts m).2.1
  rw [h2, e] at hp
  refine ⟨hp, ?_⟩
  rw [← hp]
  have : n' = blifatClamp (blifatFire (blifatInhibit (blifatTick (blifatRestore m)))).1 := by
    have := congrArg Prod.fst h2
    exact this.symm
  rw [this]
  unfold blifatClamp
  split
  · exact hirr _
  · rename_i hlt
    simpa using hlt

/-- C52 for the synaptic-resource variant. -/
theorem C52_minimum_resource (hirr : ∀ a : F, Arith.lt a a = false) (n n' : Res (Blifat F) F)
    (imps : List (SynapticImpact F × Bool)) (b : Bool) (h : neuronStep resBlifat n imps = .ok (n', b)) :
    n'.base.minPotential = n.base.minPotential ∧ Arith.lt n'.base.potential n.base.minPotential = false := by
  obtain ⟨m, h1, h2⟩ := step_ok h
  obtain ⟨p, c, d, bl, hm⟩ := blifat_impacts imps _ _ (res_impacts imps _ _ h1)
  change ({ m with base := (blifatPost m.base).1 }, (blifatPost m.base).2) = (n', b) at h2
  change m.base = { (resBlifatPre n).base with potential := p, conductance := c, dopamine := d, blocking := bl } at hm
  have e : m.base.minPotential = n.base.minPotential := by rw [hm]; exact (resPre_facts n).2.2.1
  have hb : n'.base = (blifatPost m.base).1 := by
    have := congrArg (fun x => x.1.base) h2
    exact this.symm
  have hp := (blifatPost_facts m.base).2.1
  rw [← hb, e] at hp
  refine ⟨hp, ?_⟩
  rw [← hp, hb]
  unfold blifatPost blifatClamp
  simp only
  split
  · exact hirr _
  · rename_i hlt
    simpa using hlt

end

/-- A BLIFAT neuron with threshold 5, reset 1, minimum -4, no decay, refractory period 2, reversal potential -50,
which has been silent for 7 steps; `blocking` is the given value. -/
def blifatSample (blocking : Int) : Blifat Int :=
  .mk 7 5 0 0 1 0 0 1 0 0 0 0 0 1 0 0 3 (-50) 2 1 (-4) blocking 0

example : neuronRun blifat (blifatSample 100) [[exc 6], [exc 9], [exc 9], [exc 9], [exc (-90)]] =
    .ok (.mk 1 5 0 0 1 0 0 1 0 0 0 (-4) 1 1 0 0 3 (-50) 2 1 (-4) 95 0,
      [true, false, false, true, false]) := by decide +kernel

/-! ### C53 -/

/-- The impacts of a step contain no blocking impact. -/
def NoBlocking (imps : List (SynapticImpact F × Bool)) : Prop := ∀ i ∈ imps, i.1.synapseType ≠ .blocking

/-- A step with these impacts without the excitatory and inhibitory currents. -/
def withoutCurrents (imps : List (SynapticImpact F × Bool)) : List (SynapticImpact F × Bool) :=
  imps.filter (fun i => !(i.1.synapseType == .excitatory || i.1.synapseType == .inhibitoryCurrent))

section
variable [Arith F]

/-- Whatever currents arrive, the step is the one without them. -/
def IgnoresCurrents (n : Blifat F) : Prop :=
  ∀ imps, NoBlocking imps → neuronStep blifat n imps = neuronStep blifat n (withoutCurrents imps)

/-- The result of a step apart from the stored blocking period. -/
def apartFromBlocking (r : Outcome (Blifat F × Bool)) : Outcome (Blifat F × Bool) :=
  match r with
  | .ok (n, b) => .ok ({ n with blocking := 0 }, b)
  | .throw w => .throw w
  | .ub => .ub

/-- Every step is that of a neuron with the default blocking period (never blocked). -/
def WorksNormally (n : Blifat F) : Prop :=
  ∀ imps, NoBlocking imps →
    apartFromBlocking (neuronStep blifat n imps) =
      apartFromBlocking (neuronStep blifat { n with blocking := i64max } imps)

private def condStep (c : F) (i : SynapticImpact F × Bool) : F :=
  match i.1.synapseType with | .inhibitoryConductance => c + i.1.impactValue | _ => c

private def dopStep (c : F) (i : SynapticImpact F × Bool) : F :=
  match i.1.synapseType with | .dopamine => c + i.1.impactValue | _ => c

/-- Conductance and dopamine impacts added up. -/
private def condSum (c : F) (imps : List (SynapticImpact F × Bool)) : F := imps.foldl condStep c

private def dopSum (c : F) (imps : List (SynapticImpact F × Bool)) : F := imps.foldl dopStep c

private theorem blifat_fold : ∀ (imps : List (SynapticImpact F × Bool)) (n : Blifat F), NoBlocking imps →
    imps.foldlM (fun m (i : SynapticImpact F × Bool) => blifatImpact m i.1 i.2) n =
      Outcome.ok { n with potential := withCurrents n.potential imps, conductance := condSum n.conductance imps,
                          dopamine := dopSum n.dopamine imps } := by
  intro imps
  induction imps with
  | nil => intro n _; rfl
  | cons i rest ih =>
    intro n h
    have h' : NoBlocking rest := fun j hj => h j (List.mem_cons_of_mem _ hj)
    have hi := h i (by simp)
    have e : blifatImpact n i.1 i.2 = Outcome.ok { n with
        potential := withCurrents n.potential [i], conductance := condSum n.conductance [i]
        dopamine := dopSum n.dopamine [i] } := by
      unfold blifatImpact
      cases ht : i.1.synapseType
      case blocking => exact absurd ht hi
      all_goals simp [withCurrents, condSum, dopSum, condStep, dopStep, ht]
    rw [List.foldlM_cons, e, Outcome.bind_ok, ih _ h']
    rfl

private theorem noBlocking_filter {imps : List (SynapticImpact F × Bool)} (h : NoBlocking imps) :
    NoBlocking (withoutCurrents imps) := fun i hi => h i (List.mem_filter.1 hi).1

private theorem condSum_filter : ∀ (imps : List (SynapticImpact F × Bool)) (c : F),
    condSum c (withoutCurrents imps) = condSum c imps ∧ dopSum c (withoutCurrents imps) = dopSum c imps := by
  intro imps
  induction imps with
  | nil => intro c; exact ⟨rfl, rfl⟩
  | cons i rest ih =>
    intro c
    unfold withoutCurrents
    rw [List.filter_cons]
    split
    · exact ⟨(ih _).1, (ih _).2⟩
    · rename_i hf
      have hc : condStep c i = c ∧ dopStep c i = c := by
        unfold condStep dopStep
        cases ht : i.1.synapseType <;> simp [ht] at hf ⊢
      constructor
      · show condSum c (withoutCurrents rest) = condSum (condStep c i) rest
        rw [hc.1]; exact (ih c).1
      · show dopSum c (withoutCurrents rest) = dopSum (dopStep c i) rest
        rw [hc.2]; exact (ih c).2

private theorem pre_blocking (n : Blifat F) : (blifatPre n).blocking = n.blocking := by
  unfold blifatPre blifatSave blifatBurst blifatDecay
  split <;> rfl

private theorem pre_with_blocking (n : Blifat F) (v : Int) :
    blifatPre { n with blocking := v } = { blifatPre n with blocking := v } := by
  unfold blifatPre blifatSave blifatBurst blifatDecay
  simp only
  split <;> rfl

private theorem blifat_step (n : Blifat F) (imps : List (SynapticImpact F × Bool)) (h : NoBlocking imps) :
    neuronStep blifat n imps = .ok (blifatPost
      { blifatPre n with potential := withCurrents (blifatPre n).potential imps
                         conductance := condSum (blifatPre n).conductance imps
                         dopamine := dopSum (blifatPre n).dopamine imps }) := by
  unfold neuronStep
  have := blifat_fold imps (blifatPre n) h
  show ((imps.foldlM (fun m (i : SynapticImpact F × Bool) => blifatImpact m i.1 i.2) (blifatPre n) :
    Outcome (Blifat F)) >>= fun m => pure (blifatPost m)) = _
  rw [this]
  rfl

private theorem ignores_of_nonpos (n : Blifat F) (h : n.blocking ≤ 0) : IgnoresCurrents n := by
  intro imps hn
  rw [blifat_step n imps hn, blifat_step n _ (noBlocking_filter hn), (condSum_filter imps _).1,
    (condSum_filter imps _).2]
  have key : ∀ (m : Blifat F) (p : F), m.blocking ≤ 0 →
      blifatPost { m with potential := p } = blifatPost m := by
    intro m p hm
    unfold blifatPost blifatRestore
    simp only [hm, if_true]
  have hb : (blifatPre n).blocking ≤ 0 := by rw [pre_blocking]; exact h
  congr 1
  generalize blifatPre n = q at hb
  generalize withCurrents q.potential imps = p1
  generalize withCurrents q.potential (withoutCurrents imps) = p2
  generalize condSum q.conductance imps = c
  generalize dopSum q.dopamine imps = d
  have e1 := key { q with conductance := c, dopamine := d } p1 hb
  have e2 := key { q with conductance := c, dopamine := d } p2 hb
  simp only at e1 e2
  rw [e1, e2]

private def setB (n : Blifat F) (v : Int) : Blifat F := { n with blocking := v }

private theorem post_setB (m : Blifat F) (u : Int) (hu : 0 < u) : blifatPost (setB m u) =
    (setB (blifatClamp (blifatFire (blifatInhibit m)).1) (u - 1), (blifatFire (blifatInhibit m)).2) := by
  have e1 : blifatTick (blifatRestore (setB m u)) = setB m (u - 1) := by
    unfold blifatTick blifatRestore setB
    have h1 : ¬ (u ≤ 0) := by omega
    have h2 : ¬ (u < 0) := by omega
    simp only [h1, if_false, h2, hu, if_true]
  have hi : ∀ (m : Blifat F) (u : Int), blifatInhibit (setB m u) = setB (blifatInhibit m) u := by
    intro m u
    unfold blifatInhibit setB
    simp only
    split <;> rfl
  have hf : ∀ (q : Blifat F) (u : Int), blifatFire (setB q u) = (setB (blifatFire q).1 u, (blifatFire q).2) := by
    intro q u
    unfold blifatFire
    have : blifatSpikes (setB q u) = blifatSpikes q := rfl
    rw [this]
    split <;> rfl
  have hc : ∀ (x : Blifat F) (u : Int), blifatClamp (setB x u) = setB (blifatClamp x) u := by
    intro x u
    unfold blifatClamp setB
    simp only
    split <;> rfl
  unfold blifatPost
  simp only
  rw [e1, hi, hf, hc]

private theorem works_of_pos (n : Blifat F) (h : 0 < n.blocking) : WorksNormally n := by
  intro imps hn
  rw [blifat_step n imps hn, blifat_step _ imps hn, pre_with_blocking n i64max]
  have hbl := pre_blocking n
  generalize blifatPre n = z at hbl ⊢
  have key : ∀ q : Blifat F, 0 < q.blocking →
      apartFromBlocking (.ok (blifatPost q)) = apartFromBlocking (.ok (blifatPost (setB q i64max))) := by
    intro q hq
    have e : q = setB q q.blocking := rfl
    rw [post_setB q i64max (by decide)]
    conv => lhs; rw [e]
    rw [post_setB q q.blocking hq]
    rfl
  exact key { z with
      potential := withCurrents z.potential imps
      conductance := condSum z.conductance imps
      dopamine := dopSum z.dopamine imps } (by show 0 < z.blocking; rw [hbl]; exact h)

private theorem step_blocking {n n' : Blifat F} {imps : List (SynapticImpact F × Bool)} {b : Bool}
    (hn : NoBlocking imps) (h : neuronStep blifat n imps = .ok (n', b)) :
    n'.blocking = if n.blocking < 0 then (if n.blocking + 1 = 0 then i64max else n.blocking + 1)
      else if 0 < n.blocking then n.blocking - 1 else n.blocking := by
  rw [blifat_step n imps hn] at h
  have h1 := congrArg Prod.fst (Outcome.ok.inj h)
  simp only at h1
  rw [← h1]
  have hr : ∀ m : Blifat F, (blifatRestore m).blocking = m.blocking := by
    intro m; unfold blifatRestore; split <;> rfl
  have ht : ∀ m : Blifat F, (blifatTick m).blocking =
      if m.blocking < 0 then (if m.blocking + 1 = 0 then i64max else m.blocking + 1)
      else if 0 < m.blocking then m.blocking - 1 else m.blocking := by
    intro m
    unfold blifatTick
    split
    · rfl
    · split <;> rfl
  have hi : ∀ m : Blifat F, (blifatInhibit m).blocking = m.blocking := by
    intro m; unfold blifatInhibit; split <;> rfl
  have hf : ∀ m : Blifat F, (blifatFire m).1.blocking = m.blocking := by
    intro m; unfold blifatFire; split <;> rfl
  have hc : ∀ m : Blifat F, (blifatClamp m).blocking = m.blocking := by
    intro m; unfold blifatClamp; split <;> rfl
  unfold blifatPost
  simp only
  rw [hc, hf, hi, ht, hr]
  simp only [pre_blocking]

private theorem run_blocking : ∀ (ins : List (List (SynapticImpact F × Bool))) (n n' : Blifat F) (bs : List Bool),
    (∀ imps ∈ ins, NoBlocking imps) → neuronRun blifat n ins = .ok (n', bs) →
    (n.blocking = 0 → n'.blocking = 0) ∧
    (∀ m : Nat, n.blocking = m → n'.blocking = if ins.length ≤ m then (m : Int) - ins.length else 0) ∧
    (∀ m : Nat, n.blocking = -m → ins.length < m → n'.blocking = ins.length - (m : Int)) := by
  intro ins
  induction ins with
  | nil =>
    intro n n' bs _ h
    simp [neuronRun] at h
    rw [← h.1]
    refine ⟨id, fun m hm => by simp [hm], fun m hm _ => by simp [hm]⟩
  | cons a rest ih =>
    intro n n' bs hn h
    obtain ⟨m1, b, s, h1, h2, h3⟩ := run_cons h
    have hs := step_blocking (hn a (by simp)) h1
    have hs1 : n' = s.1 := congrArg Prod.fst h3
    obtain ⟨i1, i2, i3⟩ := ih m1 s.1 s.2 (fun x hx => hn x (List.mem_cons_of_mem _ hx)) h2
    rw [hs1]
    refine ⟨?_, ?_, ?_⟩
    · intro h0
      apply i1
      rw [hs, h0]
      rfl
    · intro m hm
      cases m with
      | zero =>
        have : m1.blocking = 0 := by rw [hs, hm]; rfl
        rw [i1 this]
        simp
      | succ m =>
        have : m1.blocking = (m : Int) := by
          rw [hs, hm]
          have e1 : ¬ ((m + 1 : Nat) : Int) < 0 := by omega
          have e2 : (0 : Int) < ((m + 1 : Nat) : Int) := by omega
          rw [if_neg e1, if_pos e2]
          omega
        rw [i2 m this]
        simp only [List.length_cons]
        split <;> split <;> omega
    · intro m hm hlt
      simp only [List.length_cons] at hlt
      obtain ⟨m', rfl⟩ : ∃ m', m = m' + 1 := ⟨m - 1, by omega⟩
      have : m1.blocking = -(m' : Int) := by
        rw [hs, hm]
        have e1 : -((m' + 1 : Nat) : Int) < 0 := by omega
        have e2 : ¬ (-((m' + 1 : Nat) : Int) + 1 = 0) := by omega
        rw [if_pos e1, if_neg e2]
        omega
      rw [i3 m' this (by omega)]
      simp only [List.length_cons]
      omega

/-- C53: a blocking impact of value `v` acts in the step in which it arrives, as if the neuron had stored it
before. -/
theorem C53_received (n : Blifat F) (a b : List (SynapticImpact F × Bool)) (i : SynapticImpact F × Bool) (v : Int)
    (ht : i.1.synapseType = .blocking) (hv : Arith.toI64 i.1.impactValue = some v) (hb : NoBlocking b)
    (ha : NoBlocking a) :
    neuronStep blifat n (a ++ i :: b) = neuronStep blifat { n with blocking := v } (a ++ b) := by
  have hab : NoBlocking (a ++ b) := by
    intro x hx
    rcases List.mem_append.1 hx with h | h
    · exact ha x h
    · exact hb x h
  have hstep : ∀ m : Blifat F, blifatImpact m i.1 i.2 = Outcome.ok (setB m v) := by
    intro m
    unfold blifatImpact
    rw [ht]
    simp only [hv]
    rfl
  have e1 : (a ++ i :: b).foldlM (fun m (i : SynapticImpact F × Bool) => blifatImpact m i.1 i.2) (blifatPre n) =
      (a ++ b).foldlM (fun m (i : SynapticImpact F × Bool) => blifatImpact m i.1 i.2) (setB (blifatPre n) v) := by
    rw [List.foldlM_append, blifat_fold a _ ha, Outcome.bind_ok, List.foldlM_cons, hstep, Outcome.bind_ok,
      List.foldlM_append, blifat_fold a _ ha, Outcome.bind_ok]
    rfl
  show ((a ++ i :: b).foldlM (fun m (i : SynapticImpact F × Bool) => blifatImpact m i.1 i.2) (blifatPre n) >>= _) =
    ((a ++ b).foldlM (fun m (i : SynapticImpact F × Bool) => blifatImpact m i.1 i.2)
      (blifatPre { n with blocking := v }) >>= _)
  rw [e1, pre_with_blocking n v]
  rfl

/-- C53, blocking: a neuron that stores `-m` ignores all currents in the next `m` steps and works normally in the
steps after (until the default period of 2^63-1 steps is over), as long as no other blocking impact arrives. -/
theorem C53_blocked_partial (n n' : Blifat F) (m : Nat) (hm : 0 < m) (hn : n.blocking = -m)
    (ins : List (List (SynapticImpact F × Bool))) (bs : List Bool) (hins : ∀ imps ∈ ins, NoBlocking imps)
    (h : neuronRun blifat n ins = .ok (n', bs)) :
    (ins.length < m → IgnoresCurrents n') ∧
    (m ≤ ins.length → ins.length < m + 9223372036854775807 → WorksNormally n') := by
  constructor
  · intro hlt
    apply ignores_of_nonpos
    rw [(run_blocking ins n n' bs hins h).2.2 m hn hlt]
    omega
  · intro hle hlt
    apply works_of_pos
    -- split the history after the first m steps
    have split : ∀ (l1 l2 : List (List (SynapticImpact F × Bool))) (x y : Blifat F) (cs : List Bool),
        neuronRun blifat x (l1 ++ l2) = .ok (y, cs) →
        ∃ z c1 c2, neuronRun blifat x l1 = .ok (z, c1) ∧ neuronRun blifat z l2 = .ok (y, c2) := by
      intro l1
      induction l1 with
      | nil => intro l2 x y cs h; exact ⟨x, [], cs, rfl, h⟩
      | cons a rest ih =>
        intro l2 x y cs h
        obtain ⟨q, b, s, h1, h2, h3⟩ := run_cons h
        obtain ⟨z, c1, c2, h4, h5⟩ := ih l2 q s.1 s.2 h2
        refine ⟨z, b :: c1, c2, ?_, ?_⟩
        · rw [neuronRun, h1, Outcome.bind_ok, h4, Outcome.bind_ok]; rfl
        · have h6 := congrArg Prod.fst h3
          simp only at h6
          rw [h5, h6]
    have e1 : ins = ins.take (m - 1) ++ ins.drop (m - 1) := (List.take_append_drop _ _).symm
    rw [e1] at h
    obtain ⟨z, c1, c2, h1, h2⟩ := split _ _ _ _ _ h
    have hl1 : (ins.take (m - 1)).length = m - 1 := by rw [List.length_take]; omega
    have hz := (run_blocking _ n z c1 (fun x hx => hins x (List.mem_of_mem_take hx)) h1).2.2 m hn (by omega)
    rw [hl1] at hz
    have hz1 : z.blocking = -1 := by rw [hz]; omega
    cases hd : ins.drop (m - 1) with
    | nil =>
      have := congrArg List.length hd
      rw [List.length_drop] at this
      simp at this
      omega
    | cons a rest =>
      rw [hd] at h2
      obtain ⟨q, b, s, h3, h4, h5⟩ := run_cons h2
      have ha : a ∈ ins := by
        apply List.mem_of_mem_drop (i := m - 1)
        rw [hd]; simp
      have hrest : ∀ x ∈ rest, NoBlocking x := by
        intro x hx
        apply hins
        apply List.mem_of_mem_drop (i := m - 1)
        rw [hd]; simp [hx]
      have hq : q.blocking = i64max := by
        rw [step_blocking (hins a ha) h3, hz1]; decide
      have hlen : rest.length + 1 = ins.length - (m - 1) := by
        have := congrArg List.length hd
        rw [List.length_drop, List.length_cons] at this
        omega
      have := (run_blocking rest q s.1 s.2 hrest h4).2.1 9223372036854775807 (by rw [hq]; rfl)
      rw [if_pos (by omega)] at this
      have e : n' = s.1 := (Prod.ext_iff.1 h5).1
      rw [e, this]
      omega

/-- C53, activity: a neuron that stores a positive `m` works normally for exactly `m` steps and ignores all currents
in every step after, for ever. -/
theorem C53_active (n n' : Blifat F) (m : Nat) (hn : n.blocking = m)
    (ins : List (List (SynapticImpact F × Bool))) (bs : List Bool) (hins : ∀ imps ∈ ins, NoBlocking imps)
    (h : neuronRun blifat n ins = .ok (n', bs)) :
    (ins.length < m → WorksNormally n') ∧ (m ≤ ins.length → IgnoresCurrents n') := by
  have hb := (run_blocking ins n n' bs hins h).2.1 m hn
  constructor
  · intro hlt
    apply works_of_pos
    rw [hb, if_pos (by omega)]
    omega
  · intro hle
    apply ignores_of_nonpos
    rw [hb]
    split <;> omega

/-- C53: a blocking impact of 0 steps (any value that truncates to 0) blocks the neuron for ever. -/
theorem C53_zero_blocks_forever (n n' : Blifat F) (hn : n.blocking = 0)
    (ins : List (List (SynapticImpact F × Bool))) (bs : List Bool) (hins : ∀ imps ∈ ins, NoBlocking imps)
    (h : neuronRun blifat n ins = .ok (n', bs)) : IgnoresCurrents n' :=
  ignores_of_nonpos n' (by rw [(run_blocking ins n n' bs hins h).1 hn]; exact Int.le_refl 0)

end

/-- C53, full statement: a blocked neuron ignores all its input except further blocking impacts. -/
def C53_statement : Prop :=
  ∀ (n : Blifat Int) (imps : List (SynapticImpact Int × Bool)), n.blocking < 0 → NoBlocking imps →
    (do let r ← neuronStep blifat n imps; pure (r.1.potential, r.2)) =
    (do let r ← neuronStep blifat n []; pure (r.1.potential, r.2))

/-- C53 is false as stated: an inhibitory conductance still changes the potential of a blocked neuron. -/
theorem C53_conductance_refuted : ¬ C53_statement := by
  intro h
  have := h (blifatSample (-3)) [(⟨0, 1, .inhibitoryConductance, 0, 0⟩, false)] (by decide)
    (by intro i hi; simp at hi; subst hi; simp)
  revert this
  decide

/-- A blocking impact of -2, then two steps: blocked, blocked, open. -/
example : neuronRun blifat (blifatSample 100)
    [[exc 9, (⟨0, -2, .blocking, 0, 0⟩, false)], [exc 9], [exc 9]] =
    .ok (.mk 0 5 0 0 1 0 0 1 0 0 0 1 0 1 0 0 3 (-50) 2 1 (-4) 9223372036854775806 0, [false, false, true]) := by
  decide

/-- An activity period of 1: open, then blocked. -/
example : neuronRun blifat (blifatSample 1) [[exc 4], [exc 9], [exc 9]] =
    .ok (.mk 10 5 0 0 1 0 0 1 0 0 0 4 4 1 0 0 3 (-50) 2 1 (-4) 0 0, [false, false, false]) := by
  decide

/-! ### C82 -/

section
variable [Arith F]

/-- `default_values<BLIFATNeuron>::n_time_steps_since_last_firing_` (blifat.h:53): the neuron has never fired. -/
def neverFired : Nat := 18446744073709551615

/-- C82: a BLIFAT neuron that has never fired (the default) behaves as if it had fired in the step before: in every
history it is silent in its first `absolute_refractory_period + 1` steps. -/
theorem C82_fresh_refractory (n : Blifat F) (hn : n.sinceFiring = neverFired)
    (ins : List (List (SynapticImpact F × Bool))) (r : Blifat F × List Bool)
    (h : neuronRun blifat n ins = .ok r) (j : Nat) (hj : r.2[j]? = some true) : n.refractory < j := by
  cases ins with
  | nil => simp [neuronRun] at h; subst h; simp at hj
  | cons a rest =>
    obtain ⟨m, b, s, h1, h2, rfl⟩ := run_cons h
    obtain ⟨c1, c2, c3⟩ := blifat_clock h1
    have h0 : addU64 n.sinceFiring 1 = 0 := by rw [hn]; decide
    rw [h0] at c2 c3
    have hb : b = false := by
      cases b with
      | false => rfl
      | true => exact absurd (c3 rfl) (by omega)
    cases j with
    | zero => simp [hb] at hj
    | succ j =>
      have := (refractory_of_clock blifat (·.sinceFiring) (·.refractory) (fun _ _ _ _ h => blifat_clock h)
        rest m s h2).1 j (by simpa using hj)
      rw [c1, c2, hb] at this
      simp at this
      omega

end

/-- C82, full statement: a neuron that has never fired and has no refractory period spikes in its first step if its
input reaches the threshold. -/
def C82_statement : Prop :=
  ∀ (n : Blifat Int) (v : Int), n.sinceFiring = neverFired → n.refractory = 0 → 0 < n.blocking → n.conductance = 0 →
    n.burstingPhase = 0 → n.activation + n.dynamic * n.thresholdDecay + n.additional ≤ n.potential * n.potentialDecay + v →
    ∃ n', neuronStep blifat n [exc v] = .ok (n', true)

/-- C82 is false: the counter is incremented before the comparison and wraps to 0. -/
theorem C82_fresh_refuted : ¬ C82_statement := by
  intro h
  have := h { blifatSample 100 with sinceFiring := neverFired, refractory := 0 } 9 rfl rfl (by decide) rfl rfl
    (by decide)
  obtain ⟨n', hn⟩ := this
  have h2 := C82_fresh_refractory { blifatSample 100 with sinceFiring := neverFired, refractory := 0 } rfl [[exc 9]]
    (n', [true]) (by rw [neuronRun, hn]; rfl) 0 rfl
  exact absurd h2 (by decide)

/-- The first spike comes one step after the refractory period. -/
example : neuronRun blifat { blifatSample 100 with sinceFiring := neverFired } [[exc 9], [exc 9], [exc 9], [exc 9]] =
    .ok (.mk 0 5 0 0 1 0 0 1 0 0 0 1 27 1 0 0 3 (-50) 2 1 (-4) 96 0, [false, false, false, true]) := by
  decide +kernel

/-! ### C83 -/

section
variable [Arith F]

private theorem blifatPost_preImpact (n : Blifat F) : (blifatPost n).1.preImpact = n.preImpact ∧
    (blifatPost n).1.reflexive = n.reflexive ∧ (blifatPost n).1.potentialDecay = n.potentialDecay := by
  have hr : ∀ m : Blifat F, (blifatRestore m).preImpact = m.preImpact ∧ (blifatRestore m).reflexive = m.reflexive ∧
      (blifatRestore m).potentialDecay = m.potentialDecay := by
    intro m; unfold blifatRestore; split <;> simp
  have ht : ∀ m : Blifat F, (blifatTick m).preImpact = m.preImpact ∧ (blifatTick m).reflexive = m.reflexive ∧
      (blifatTick m).potentialDecay = m.potentialDecay := by
    intro m; unfold blifatTick; split
    · simp
    · split <;> simp
  have hi : ∀ m : Blifat F, (blifatInhibit m).preImpact = m.preImpact ∧ (blifatInhibit m).reflexive = m.reflexive ∧
      (blifatInhibit m).potentialDecay = m.potentialDecay := by
    intro m; unfold blifatInhibit; split <;> simp
  have hf : ∀ m : Blifat F, (blifatFire m).1.preImpact = m.preImpact ∧ (blifatFire m).1.reflexive = m.reflexive ∧
      (blifatFire m).1.potentialDecay = m.potentialDecay := by
    intro m; unfold blifatFire; split <;> simp
  have hc : ∀ m : Blifat F, (blifatClamp m).preImpact = m.preImpact ∧ (blifatClamp m).reflexive = m.reflexive ∧
      (blifatClamp m).potentialDecay = m.potentialDecay := by
    intro m; unfold blifatClamp; split <;> simp
  unfold blifatPost
  simp only
  refine ⟨?_, ?_, ?_⟩
  · rw [(hc _).1, (hf _).1, (hi _).1, (ht _).1, (hr _).1]
  · rw [(hc _).2.1, (hf _).2.1, (hi _).2.1, (ht _).2.1, (hr _).2.1]
  · rw [(hc _).2.2, (hf _).2.2, (hi _).2.2, (ht _).2.2, (hr _).2.2]

private theorem blifat_burst {n n' : Blifat F} {imps : List (SynapticImpact F × Bool)} {b : Bool}
    (h : neuronStep blifat n imps = .ok (n', b)) :
    n'.preImpact = (if n.burstingPhase = 1 then n.potential * n.potentialDecay + n.reflexive
      else n.potential * n.potentialDecay) ∧
    n'.burstingPhase = (if b then n.burstingPeriod else if n.burstingPhase = 1 then 0 else n.burstingPhase) ∧
    n'.burstingPeriod = n.burstingPeriod := by
  obtain ⟨m, h1, h2⟩ := step_ok h
  obtain ⟨p, c, d, bl, hm⟩ := blifat_impacts imps _ _ h1
  change blifatPost m = _ at h2
  change m = { blifatPre n with potential := p, conductance := c, dopamine := d, blocking := bl } at hm
  obtain ⟨_, _, p3, _, _, p6⟩ := blifatPost_facts m
  obtain ⟨q1, _, _⟩ := blifatPost_preImpact m
  rw [h2] at p3 p6 q1
  simp only at p3 p6 q1
  have e1 : m.preImpact = (blifatPre n).preImpact := by rw [hm]
  have e2 : m.burstingPhase = (blifatPre n).burstingPhase := by rw [hm]
  have e3 : m.burstingPeriod = n.burstingPeriod := by rw [hm]; exact (blifatPre_facts n).2.2.2
  rw [q1, p6, p3, e1, e2, e3]
  unfold blifatPre blifatSave blifatBurst blifatDecay
  by_cases hp : n.burstingPhase = 1
  · simp [hp]
  · simp [hp]

private theorem res_burst {n n' : Res (Blifat F) F} {imps : List (SynapticImpact F × Bool)} {b : Bool}
    (h : neuronStep resBlifat n imps = .ok (n', b)) :
    n'.base.preImpact = (if n.base.burstingPhase = 1 then n.base.potential * n.base.potentialDecay + n.base.reflexive
      else n.base.potential * n.base.potentialDecay) ∧
    n'.base.burstingPhase = (if b then n.base.burstingPeriod else n.base.burstingPhase) ∧
    n'.base.burstingPeriod = n.base.burstingPeriod := by
  obtain ⟨m, h1, h2⟩ := step_ok h
  obtain ⟨p, c, d, bl, hm⟩ := blifat_impacts imps _ _ (res_impacts imps _ _ h1)
  change ({ m with base := (blifatPost m.base).1 }, (blifatPost m.base).2) = (n', b) at h2
  change m.base = { (resBlifatPre n).base with potential := p, conductance := c, dopamine := d, blocking := bl } at hm
  obtain ⟨_, _, p3, _, _, p6⟩ := blifatPost_facts m.base
  obtain ⟨q1, _, _⟩ := blifatPost_preImpact m.base
  have hb : n'.base = (blifatPost m.base).1 := (congrArg (fun x => x.1.base) h2).symm
  have hb2 : (blifatPost m.base).2 = b := congrArg Prod.snd h2
  rw [← hb, hb2] at p6
  rw [← hb] at p3 q1
  have e1 : m.base.preImpact = (resBlifatPre n).base.preImpact := by rw [hm]
  have e2 : m.base.burstingPhase = n.base.burstingPhase := by rw [hm]; exact (resPre_facts n).2.2.2.2
  have e3 : m.base.burstingPeriod = n.base.burstingPeriod := by rw [hm]; exact (resPre_facts n).2.2.2.1
  rw [q1, p6, p3, e1, e2, e3]
  refine ⟨?_, rfl, rfl⟩
  unfold resBlifatPre blifatSave resBlifatBurst blifatDecay
  by_cases hp : n.base.burstingPhase = 1
  · simp [hp]
  · simp [hp]

/-- The reflexive weight takes part in a step: the potential before impacts contains it. -/
def Bursts (n n' : Blifat F) : Prop := n'.preImpact = n.potential * n.potentialDecay + n.reflexive

/-- C83, what holds: with a bursting period of 1 the reflexive weight is added in the step after each spike (and in
the one after a step without spike it is not, the plain decay is). -/
theorem C83_period_one_partial (n n1 n2 : Blifat F) (i1 i2 : List (SynapticImpact F × Bool)) (b1 b2 : Bool)
    (hp : n.burstingPeriod = 1) (h1 : neuronStep blifat n i1 = .ok (n1, b1)) (h2 : neuronStep blifat n1 i2 = .ok (n2, b2)) :
    n2.preImpact = if b1 then n1.potential * n1.potentialDecay + n1.reflexive
      else n1.potential * n1.potentialDecay := by
  obtain ⟨_, a2, a3⟩ := blifat_burst h1
  obtain ⟨c1, _, _⟩ := blifat_burst h2
  rw [c1]
  cases b1 with
  | true => simp at a2; rw [if_pos (by rw [a2, hp])]; simp
  | false =>
    simp at a2
    have : n1.burstingPhase ≠ 1 := by
      rw [a2]
      split <;> omega
    rw [if_neg this]; simp

/-- C83: with a bursting period of 2 or more (or 0) a neuron that is not bursting never adds its reflexive weight, in
no step of any history. -/
theorem C83_long_period_never (n : Blifat F) (hp : n.burstingPeriod ≠ 1) (h0 : n.burstingPhase ≠ 1)
    (ins : List (List (SynapticImpact F × Bool))) (n1 n2 : Blifat F) (bs : List Bool) (imps) (b : Bool)
    (hrun : neuronRun blifat n ins = .ok (n1, bs)) (hstep : neuronStep blifat n1 imps = .ok (n2, b)) :
    n2.preImpact = n1.potential * n1.potentialDecay := by
  have key : ∀ (ins : List (List (SynapticImpact F × Bool))) (n n1 : Blifat F) (bs : List Bool),
      n.burstingPeriod ≠ 1 → n.burstingPhase ≠ 1 → neuronRun blifat n ins = .ok (n1, bs) →
      n1.burstingPhase ≠ 1 := by
    intro ins
    induction ins with
    | nil => intro n n1 bs _ h0 h; simp [neuronRun] at h; rw [← h.1]; exact h0
    | cons a rest ih =>
      intro n n1 bs hp h0 h
      obtain ⟨m, c, s, h1, h2, h3⟩ := run_cons h
      obtain ⟨_, a2, a3⟩ := blifat_burst h1
      have e : n1 = s.1 := congrArg Prod.fst h3
      rw [e]
      apply ih m s.1 s.2 (by rw [a3]; exact hp) ?_ h2
      rw [a2, if_neg h0]
      split
      · exact hp
      · exact h0
  rw [(blifat_burst hstep).1, if_neg (key ins n n1 bs hp h0 hrun)]

/-- C83: in the synaptic-resource variant with a bursting period of 1 the reflexive weight is added in every step
after the first spike, for ever. -/
theorem C83_resource_repeats (n n1 n2 n3 : Res (Blifat F) F) (i1 : List (SynapticImpact F × Bool))
    (ins : List (List (SynapticImpact F × Bool))) (imps : List (SynapticImpact F × Bool)) (bs : List Bool) (b : Bool)
    (hp : n.base.burstingPeriod = 1) (hspike : neuronStep resBlifat n i1 = .ok (n1, true))
    (hrun : neuronRun resBlifat n1 ins = .ok (n2, bs)) (hstep : neuronStep resBlifat n2 imps = .ok (n3, b)) :
    Bursts n2.base n3.base := by
  have key : ∀ (ins : List (List (SynapticImpact F × Bool))) (n n1 : Res (Blifat F) F) (bs : List Bool),
      n.base.burstingPeriod = 1 → n.base.burstingPhase = 1 → neuronRun resBlifat n ins = .ok (n1, bs) →
      n1.base.burstingPhase = 1 := by
    intro ins
    induction ins with
    | nil => intro n n1 bs _ h0 h; simp [neuronRun] at h; rw [← h.1]; exact h0
    | cons a rest ih =>
      intro n n1 bs hp h0 h
      obtain ⟨m, c, s, h1, h2, h3⟩ := run_cons h
      obtain ⟨_, a2, a3⟩ := res_burst h1
      have e : n1 = s.1 := congrArg Prod.fst h3
      rw [e]
      apply ih m s.1 s.2 (by rw [a3]; exact hp) ?_ h2
      rw [a2]
      split
      · exact hp
      · exact h0
  obtain ⟨_, a2, a3⟩ := res_burst hspike
  have hph := key ins n1 n2 bs (by rw [a3]; exact hp) (by rw [a2]; simpa using hp) hrun
  unfold Bursts
  rw [(res_burst hstep).1, if_pos hph]

end

/-- C83, full statement: after a spike, with `bursting_period_` p ≥ 1 and no further spike, the reflexive weight is
added in the p-th following step. -/
def C83_statement : Prop :=
  ∀ (n n1 n2 n3 : Blifat Int) (i1 : List (SynapticImpact Int × Bool)) (ins : List (List (SynapticImpact Int × Bool)))
    (last : List (SynapticImpact Int × Bool)) (b : Bool),
    neuronStep blifat n i1 = .ok (n1, true) → ins.length + 1 = n.burstingPeriod →
    neuronRun blifat n1 ins = .ok (n2, List.replicate ins.length false) →
    neuronStep blifat n2 last = .ok (n3, b) → Bursts n2 n3

/-- C83 is false: a period of 2 is never counted down. -/
theorem C83_bursting_refuted : ¬ C83_statement := by
  intro h
  have := h { blifatSample 100 with burstingPeriod := 2 } _ _ _ [exc 9] [[]] [] false rfl rfl rfl rfl
  unfold Bursts at this
  revert this
  decide

/-- Period 1: the step after the spike starts at 1 + 3. -/
example : neuronRun blifat { blifatSample 100 with burstingPeriod := 1 } [[exc 9], [], []] =
    .ok (.mk 2 5 0 0 1 0 0 1 0 0 0 4 4 1 0 1 3 (-50) 2 1 (-4) 97 0, [true, false, false]) := by decide +kernel

/-! ## AltAI-LIF: C54 -/

section
variable [Arith F]

/-- The leak of an AltAI neuron: reversed for negative potentials if `leak_rev_` is set. -/
def leaked (n : AltAi F) (p : F) : F :=
  p + Arith.ofInt (if n.leakRev = true ∧ Arith.lt p 0 = true then -n.leak else n.leak)

/-- The potential an AltAI neuron starts a step with. -/
def startPotential (n : AltAi F) : F :=
  if n.doNotSave then Arith.ofInt n.resetValue else Arith.round n.potential

private theorem altai_impacts : ∀ (imps : List (SynapticImpact F × Bool)) (n m : AltAi F),
    imps.foldlM (fun m (i : SynapticImpact F × Bool) => altaiImpact m i.1 i.2) n = Outcome.ok m →
    (∃ d a, m = { n with potential := withCurrents n.potential imps, dopamine := d, activity := a }) ∧
    (NoBlocking imps → m.activity = n.activity) := by
  intro imps
  induction imps with
  | nil => intro n m h; simp at h; subst h; exact ⟨⟨_, _, rfl⟩, fun _ => rfl⟩
  | cons i rest ih =>
    intro n m h
    rw [List.foldlM_cons] at h
    have key : ∀ n1, altaiImpact n i.1 i.2 = .ok n1 →
        (∃ d a, n1 = { n with potential := withCurrents n.potential [i], dopamine := d, activity := a }) ∧
        (i.1.synapseType ≠ .blocking → n1.activity = n.activity) := by
      intro n1 h1
      unfold altaiImpact at h1
      cases ht : i.1.synapseType <;> rw [ht] at h1
      case blocking =>
        have hw : withCurrents n.potential [i] = n.potential := by simp [withCurrents, ht]
        simp only at h1
        refine ⟨?_, fun h => absurd rfl h⟩
        rw [hw]
        split at h1
        · split at h1
          · simp at h1; exact ⟨n.dopamine, _, h1.symm⟩
          · simp at h1
        · split at h1
          · simp at h1
          · split at h1
            · split at h1
              · simp at h1; exact ⟨n.dopamine, _, h1.symm⟩
              · simp at h1
            · simp at h1; exact ⟨n.dopamine, n.activity, h1.symm⟩
      case inhibitoryConductance => simp at h1
      all_goals
        simp only [Outcome.ok.injEq] at h1
        refine ⟨⟨n1.dopamine, n.activity, ?_⟩, fun _ => by rw [← h1]⟩
        rw [← h1]
        simp only [withCurrents, List.foldl_cons, List.foldl_nil, ht]
    cases h1 : altaiImpact n i.1 i.2 with
    | ok n1 =>
      rw [h1] at h
      obtain ⟨⟨d, a, e⟩, hb⟩ := ih n1 m (by simpa using h)
      obtain ⟨⟨d1, a1, e1⟩, hb1⟩ := key n1 h1
      refine ⟨⟨d, a, ?_⟩, ?_⟩
      · rw [e, e1]; rfl
      · intro hn
        rw [hb (fun j hj => hn j (List.mem_cons_of_mem _ hj)), hb1 (hn i (by simp))]
    | throw w => rw [h1] at h; simp at h
    | ub => rw [h1] at h; simp at h

private theorem altaiNegative_activity (n : AltAi F) (w : Bool) : (altaiNegative n w).activity = n.activity ∧
    (altaiNegative n w).negative = n.negative ∧ (altaiNegative n w).saturate = n.saturate := by
  unfold altaiNegative
  split
  · split
    · simp
    · split
      · simp
      · split <;> simp
  · simp

private theorem altaiFire_activity (n : AltAi F) : (altaiFire n).1.activity = n.activity ∧
    (altaiFire n).1.negative = n.negative ∧ (altaiFire n).1.saturate = n.saturate := by
  unfold altaiFire
  split
  · simp only
    split <;> split <;> simp
  · simp

private theorem altaiPost_facts (n : AltAi F) :
    (altaiPost n).1.activity = (altaiTick n).activity ∧
    (altaiPost n).2 = (Arith.le (Arith.ofInt n.activation + n.additional) (leaked n n.potential) &&
      decide (0 < (altaiTick n).activity)) := by
  have ha : (altaiTick (altaiLeak n)).activity = (altaiTick n).activity := rfl
  constructor
  · unfold altaiPost
    simp only
    rw [(altaiNegative_activity _ _).1, (altaiFire_activity _).1, ha]
  · unfold altaiPost
    simp only
    have hp : (altaiTick (altaiLeak n)).potential = leaked n n.potential := by
      show n.potential + Arith.ofInt (n.leak * if n.leakRev && Arith.lt n.potential 0 then -1 else 1) = _
      unfold leaked
      by_cases hc : n.leakRev = true ∧ Arith.lt n.potential 0 = true
      · rw [if_pos hc, if_pos (by simp [hc.1, hc.2])]
        congr 2
        omega
      · rw [if_neg hc]
        have : ¬ ((n.leakRev && Arith.lt n.potential 0) = true) := by simpa using hc
        rw [if_neg this]
        congr 2
        omega
    have ht : altaiThreshold (altaiTick (altaiLeak n)) = Arith.ofInt n.activation + n.additional := rfl
    unfold altaiFire
    rw [ht, hp, ha]
    by_cases hle : Arith.le (Arith.ofInt n.activation + n.additional) (leaked n n.potential) = true
    · rw [if_pos hle]; simp [hle]
    · rw [if_neg hle]; simp [hle]

private theorem altai_step {n n' : AltAi F} {imps : List (SynapticImpact F × Bool)} {b : Bool}
    (h : neuronStep altai n imps = .ok (n', b)) :
    ∃ m, altaiPost m = (n', b) ∧ (∃ d a, m = { n with
      potential := withCurrents (startPotential n) imps, preImpact := startPotential n, dopamine := d
      activity := a }) ∧
      (NoBlocking imps → m.activity = n.activity) := by
  obtain ⟨m, h1, h2⟩ := step_ok h
  obtain ⟨⟨d, a, e⟩, hb⟩ := altai_impacts imps _ _ h1
  exact ⟨m, h2, ⟨d, a, e⟩, hb⟩

/-- C54: an AltAI neuron spikes exactly if its potential – start potential, currents, leak – reaches activation plus
additional threshold and its activity time after this step is positive. -/
theorem C54_spike (n n' : AltAi F) (imps : List (SynapticImpact F × Bool)) (b : Bool)
    (h : neuronStep altai n imps = .ok (n', b)) :
    b = (Arith.le (Arith.ofInt n.activation + n.additional)
      (leaked n (withCurrents (startPotential n) imps)) && decide (0 < n'.activity)) := by
  obtain ⟨m, h2, ⟨d, a, e⟩, _⟩ := altai_step h
  obtain ⟨p1, p2⟩ := altaiPost_facts m
  rw [h2] at p1 p2
  simp only at p1 p2
  rw [p2, ← p1, e]
  rfl

private theorem altai_activity {n n' : AltAi F} {imps : List (SynapticImpact F × Bool)} {b : Bool}
    (hn : NoBlocking imps) (h : neuronStep altai n imps = .ok (n', b)) : n'.activity = (altaiTick n).activity := by
  obtain ⟨m, h2, _, hb⟩ := altai_step h
  have p1 := (altaiPost_facts m).1
  rw [h2] at p1
  rw [p1]
  unfold altaiTick
  simp only [hb hn]

/-- C54: a neuron whose activity time is positive, 0 or -1 spikes exactly when it reaches the threshold; one below -1
is silent in this step. -/
theorem C54_active (n n' : AltAi F) (imps : List (SynapticImpact F × Bool)) (b : Bool) (hn : NoBlocking imps)
    (h : neuronStep altai n imps = .ok (n', b)) :
    b = (Arith.le (Arith.ofInt n.activation + n.additional)
      (leaked n (withCurrents (startPotential n) imps)) && decide (-2 < n.activity)) := by
  rw [C54_spike n n' imps b h, altai_activity hn h]
  congr 1
  unfold altaiTick i64max
  simp only
  apply Bool.eq_iff_iff.2
  rw [decide_eq_true_eq, decide_eq_true_eq]
  split <;> split <;> (try split) <;> omega

private theorem altai_run_activity : ∀ (ins : List (List (SynapticImpact F × Bool))) (n n' : AltAi F) (bs : List Bool),
    (∀ imps ∈ ins, NoBlocking imps) → neuronRun altai n ins = .ok (n', bs) →
    (0 < n.activity → 0 < n'.activity) ∧
    (∀ m : Nat, n.activity = -m → (ins.length < m → n'.activity = ins.length - (m : Int)) ∧
      (0 < ins.length → m ≤ ins.length → 0 < n'.activity)) := by
  intro ins
  induction ins with
  | nil =>
    intro n n' bs _ h
    simp [neuronRun] at h
    rw [← h.1]
    refine ⟨id, fun m hm => ⟨fun _ => by simp [hm], fun h => by simp at h⟩⟩
  | cons a rest ih =>
    intro n n' bs hn h
    obtain ⟨q, b, s, h1, h2, h3⟩ := run_cons h
    have hs := altai_activity (hn a (by simp)) h1
    have e : n' = s.1 := congrArg Prod.fst h3
    obtain ⟨i1, i2⟩ := ih q s.1 s.2 (fun x hx => hn x (List.mem_cons_of_mem _ hx)) h2
    rw [e]
    have hpos : (0 ≤ n.activity ∨ n.activity = -1) → 0 < q.activity := by
      intro hh
      rw [hs]
      unfold altaiTick i64max
      simp only
      split <;> split <;> (try split) <;> omega
    refine ⟨fun h => i1 (hpos (Or.inl (by omega))), fun m hm => ?_⟩
    by_cases hm1 : m ≤ 1
    · have := i1 (hpos (by omega))
      refine ⟨?_, fun _ _ => this⟩
      intro hlt
      simp only [List.length_cons] at hlt
      omega
    · obtain ⟨m', rfl⟩ : ∃ m', m = m' + 1 := ⟨m - 1, by omega⟩
      have hq : q.activity = -(m' : Int) := by
        rw [hs]
        unfold altaiTick i64max
        simp only
        split <;> split <;> (try split) <;> omega
      obtain ⟨j1, j2⟩ := i2 m' hq
      simp only [List.length_cons]
      constructor
      · intro hlt
        rw [j1 (by omega)]
        omega
      · intro _ hle
        exact j2 (by omega) (by omega)

/-- C54, length of a block: a neuron with activity time `-m` that receives no other blocking impact is silent in the
next `m - 1` steps, and in every step after these it spikes exactly if it reaches its threshold. -/
theorem C54_block_length (n n1 n2 : AltAi F) (m : Nat) (hm : n.activity = -m)
    (ins : List (List (SynapticImpact F × Bool))) (imps : List (SynapticImpact F × Bool)) (bs : List Bool) (b : Bool)
    (hins : ∀ i ∈ ins, NoBlocking i) (himps : NoBlocking imps)
    (hrun : neuronRun altai n ins = .ok (n1, bs)) (hstep : neuronStep altai n1 imps = .ok (n2, b)) :
    (ins.length + 1 < m → b = false) ∧
    (m ≤ ins.length + 1 → b = Arith.le (Arith.ofInt n1.activation + n1.additional)
      (leaked n1 (withCurrents (startPotential n1) imps))) := by
  have hb := C54_active n1 n2 imps b himps hstep
  obtain ⟨_, hr⟩ := altai_run_activity ins n n1 bs hins hrun
  obtain ⟨r1, r2⟩ := hr m hm
  constructor
  · intro hlt
    have := r1 (by omega)
    rw [hb, this]
    have : decide (-2 < (ins.length : Int) - (m : Int)) = false := decide_eq_false (by omega)
    rw [this, Bool.and_false]
  · intro hle
    have : -2 < n1.activity := by
      by_cases h0 : 0 < ins.length ∧ m ≤ ins.length
      · have := r2 h0.1 h0.2
        omega
      · by_cases h1 : ins.length < m
        · rw [r1 h1]; omega
        · have : ins = [] := List.eq_nil_of_length_eq_zero (by omega)
          subst this
          simp [neuronRun] at hrun
          rw [← hrun.1, hm]
          simp at h1
          omega
    rw [hb, decide_eq_true this, Bool.and_true]

/-- C54, saturation: in saturating mode the potential is never below the negative threshold (in any arithmetic in
which nothing is below itself, "less" implies "at most", and no integer constant r ≥ 0 is below a -n ≤ 0). -/
theorem C54_floor (hirr : ∀ a : F, Arith.lt a a = false) (hlt : ∀ a b : F, Arith.lt a b = true → Arith.le a b = true)
    (hnn : ∀ r q : Nat, Arith.lt (Arith.ofInt r : F) (-(Arith.ofInt q)) = false)
    (n n' : AltAi F) (imps : List (SynapticImpact F × Bool)) (b : Bool) (hsat : n.saturate = true)
    (h : neuronStep altai n imps = .ok (n', b)) :
    Arith.lt n'.potential (-(Arith.ofInt n.negative)) = false := by
  obtain ⟨m, h2, ⟨d, a, e⟩, _⟩ := altai_step h
  have hn' : n' = altaiNegative (altaiFire (altaiTick (altaiLeak m))).1 (altaiFire (altaiTick (altaiLeak m))).2.2 :=
    (congrArg Prod.fst h2).symm
  have hneg : (altaiFire (altaiTick (altaiLeak m))).1.negative = n.negative := by
    rw [(altaiFire_activity _).2.1]
    show m.negative = _
    rw [e]
  have hs : (altaiFire (altaiTick (altaiLeak m))).1.saturate = true := by
    rw [(altaiFire_activity _).2.2]
    show m.saturate = _
    rw [e]; exact hsat
  have hreset : (altaiFire (altaiTick (altaiLeak m))).2.2 = true →
      ∃ r : Nat, (altaiFire (altaiTick (altaiLeak m))).1.potential = Arith.ofInt r := by
    generalize altaiTick (altaiLeak m) = q
    unfold altaiFire
    split
    · simp only
      intro hr
      rw [if_pos hr]
      split <;> exact ⟨q.resetValue, rfl⟩
    · intro h; simp at h
  generalize hw : (altaiFire (altaiTick (altaiLeak m))).2.2 = w at hn' hreset
  generalize (altaiFire (altaiTick (altaiLeak m))).1 = q at hn' hneg hs hreset
  rw [hn', ← hneg]
  unfold altaiNegative
  split
  · exact hirr _
  · rename_i hc
    cases w with
    | true =>
      obtain ⟨r, hr⟩ := hreset rfl
      rw [hr]
      exact hnn _ _
    | false =>
      have hnle : ¬ Arith.le q.potential (altaiFloor q) = true := by simpa using hc
      cases hl : Arith.lt q.potential (-(Arith.ofInt q.negative)) with
      | false => rfl
      | true => exact absurd (hlt _ _ hl) hnle

/-- C54: the synaptic-resource variant is the plain one with its dopamine cleared at the start of the step. -/
theorem C54_resource_same (n n' : Res (AltAi F) F) (imps : List (SynapticImpact F × Bool)) (b : Bool)
    (h : neuronStep resAltai n imps = .ok (n', b)) :
    neuronStep altai { n.base with dopamine := 0 } imps = .ok (n'.base, b) := by
  have key : ∀ (imps : List (SynapticImpact F × Bool)) (n m : Res (AltAi F) F),
      imps.foldlM (fun m (i : SynapticImpact F × Bool) => resAltaiImpact m i.1 i.2) n = Outcome.ok m →
      imps.foldlM (fun m (i : SynapticImpact F × Bool) => altaiImpact m i.1 i.2) n.base = Outcome.ok m.base := by
    intro imps
    induction imps with
    | nil => intro n m h; simp at h; subst h; rfl
    | cons i rest ih =>
      intro n m h
      rw [List.foldlM_cons] at h ⊢
      cases h1 : resAltaiImpact n i.1 i.2 with
      | ok n1 =>
        rw [h1] at h
        have h2 := ih n1 m (by simpa using h)
        unfold resAltaiImpact at h1
        cases hb : altaiImpact n.base i.1 i.2 with
        | ok b =>
          rw [hb] at h1
          simp only [Outcome.bind_ok, Outcome.pure_eq, Outcome.ok.injEq] at h1
          rw [Outcome.bind_ok]
          rw [← h1] at h2
          exact h2
        | throw w => rw [hb] at h1; simp at h1
        | ub => rw [hb] at h1; simp at h1
      | throw w => rw [h1] at h; simp at h
      | ub => rw [h1] at h; simp at h
  obtain ⟨m, h1, h2⟩ := step_ok h
  have h3 := key imps _ _ h1
  change ({ m with base := (altaiPost m.base).1 }, (altaiPost m.base).2) = (n', b) at h2
  have hb : n'.base = (altaiPost m.base).1 := (congrArg (fun x => x.1.base) h2).symm
  have hb2 : (altaiPost m.base).2 = b := congrArg Prod.snd h2
  show ((imps.foldlM (fun m (i : SynapticImpact F × Bool) => altaiImpact m i.1 i.2)
    (altaiPre { n.base with dopamine := 0 }) : Outcome (AltAi F)) >>= fun m => pure (altaiPost m)) = _
  have hpre : altaiPre { n.base with dopamine := 0 } = ((resAltai : Kind (Res (AltAi F) F) F).pre n).base := rfl
  rw [hpre, h3, Outcome.bind_ok, hb, ← hb2]
  rfl

end

/-- Threshold 5, negative threshold 3, leak -1, reset 2; saturating, resetting; blocked with activity time -2. -/
def altaiSample : AltAi Int := ⟨false, true, false, true, false, 0, 0, 5, 3, -1, 2, 0, 0, -2⟩

example : neuronRun altai altaiSample [[exc 9], [exc 9], [exc (-20)]] =
    .ok (⟨false, true, false, true, false, -3, 2, 5, 3, -1, 2, 0, 0, 9223372036854775806⟩, [false, true, false]) := by
  decide

end Knp.Props
