import Verif.Props.Stdp

/-!
# C56 (population steps), C58 (additive synapses), C59, C84, C85, C88-C90: the rules themselves
-/

namespace Knp.Props
open Knp Knp.Neurons Knp.Stdp Knp.Spec Knp.Lemmas.Stdp

/-! ## C56: calculating a population does not touch the resource -/

/-- C56. None of the three calculation functions of a trainable neuron writes its free resource or its drain
coefficient: a population step between two training steps satisfies the `free` and `drain` conditions of `Between`. -/
theorem C56_population_step {F : Type} [Arith F] :
    (∀ n : Res (Blifat F) F, (resBlifat.pre n).rule.free = n.rule.free ∧ (resBlifat.pre n).rule.drain = n.rule.drain ∧
      (resBlifat.post n).1.rule.free = n.rule.free ∧ (resBlifat.post n).1.rule.drain = n.rule.drain ∧
      ∀ i f n', resBlifat.impact n i f = .ok n' → n'.rule.free = n.rule.free ∧ n'.rule.drain = n.rule.drain) ∧
    (∀ n : Res (AltAi F) F, (resAltai.pre n).rule.free = n.rule.free ∧ (resAltai.pre n).rule.drain = n.rule.drain ∧
      (resAltai.post n).1.rule.free = n.rule.free ∧ (resAltai.post n).1.rule.drain = n.rule.drain ∧
      ∀ i f n', resAltai.impact n i f = .ok n' → n'.rule.free = n.rule.free ∧ n'.rule.drain = n.rule.drain) := by
  constructor
  · intro n
    refine ⟨rfl, rfl, rfl, rfl, ?_⟩
    intro i f n' h
    simp only [resBlifat, resBlifatImpact] at h
    rcases hb : blifatImpact n.base i f with b | _ | _
    · rw [hb, Outcome.bind_ok] at h
      cases h
      dsimp only
      split <;> exact ⟨rfl, rfl⟩
    · rw [hb] at h; cases h
    · rw [hb] at h; cases h
  · intro n
    refine ⟨rfl, rfl, rfl, rfl, ?_⟩
    intro i f n' h
    simp only [resAltai, resAltaiImpact] at h
    rcases hb : altaiImpact n.base i f with b | _ | _
    · rw [hb, Outcome.bind_ok] at h
      cases h
      dsimp only
      split <;> exact ⟨rfl, rfl⟩
    · rw [hb] at h; cases h
    · rw [hb] at h; cases h

/-! ## C59: spike trains -/

/-- One spike of a neuron: the step, whether the neuron is being forced, its dopamine value. -/
structure SpikeEvent (F : Type) where
  step : Nat
  forced : Bool
  dopamine : F

/-- The learning states after each spike of a history. -/
def isiHistory {F : Type} [Field F] [LinearOrder F] (r : Rule F) : List (SpikeEvent F) → List (Rule F)
  | [] => []
  | e :: es =>
    let r' := updateIsi e.dopamine { r with forced := e.forced } e.step
    r' :: isiHistory r' es

/-- The events come in increasing steps after `t`, all of them below 2^63. -/
def Increasing {F : Type} (t : Nat) : List (SpikeEvent F) → Prop
  | [] => True
  | e :: es => t < e.step ∧ e.step < 2 ^ 63 ∧ Increasing e.step es

section
variable {F : Type} [Field F] [LinearOrder F]

private theorem sub_back {a b : Nat} (h : a < b) (hb : b < 2 ^ 63) : subU64 a b ≥ 2 ^ 63 := by
  have e : subU64 a b = a + two64 - b := subU64_of_gt h (by simp only [two64]; omega)
  rw [e]
  simp only [two64]
  omega

/-- C59 is false: whatever the distances between the spikes and however large `isi_max` (32 bit), no spike ever
continues a train. -/
theorem C59_never_continues (r : Rule F) (es : List (SpikeEvent F)) (hm : r.isiMax < 2 ^ 32)
    (h0 : r.isi ≠ .periodContinued) (hinc : Increasing r.lastStep es) :
    ∀ r' ∈ isiHistory r es, r'.isi ≠ .periodContinued := by
  suffices H : ∀ (t : Nat) (r : Rule F), r.isiMax < 2 ^ 32 → r.isi ≠ .periodContinued → r.lastStep ≤ t →
      Increasing t es → ∀ r' ∈ isiHistory r es, r'.isi ≠ .periodContinued from H r.lastStep r hm h0 le_rfl hinc
  clear hm h0 hinc r
  induction es with
  | nil => intro t r _ _ _ _ r' hr'; cases hr'
  | cons e es ih =>
    intro t r hm h0 hl hi
    obtain ⟨h1, h2, h3⟩ := hi
    have key : (updateIsi e.dopamine { r with forced := e.forced } e.step).isi ≠ .periodContinued ∧
        (updateIsi e.dopamine { r with forced := e.forced } e.step).isiMax = r.isiMax ∧
        (updateIsi e.dopamine { r with forced := e.forced } e.step).lastStep ≤ e.step := by
      have hb := sub_back (Nat.lt_of_le_of_lt hl h1) h2
      unfold updateIsi
      dsimp only
      by_cases hf : e.forced = true
      · rw [if_pos hf]
        exact ⟨by simp, rfl, by dsimp only; omega⟩
      · rw [if_neg hf]
        rcases hr : r.isi with _ | _ | _ | _
        · exact ⟨by simp, rfl, le_rfl⟩
        · have hnlt : ¬ subU64 r.lastStep e.step < r.isiMax := by omega
          dsimp only
          rw [if_neg hnlt]
          exact ⟨by simp [hr], rfl, le_rfl⟩
        · exact absurd hr h0
        · exact ⟨by simp, rfl, le_rfl⟩
    intro r' hr'
    rcases List.mem_cons.1 hr' with rfl | hr'
    · exact key.1
    · exact ih e.step _ (by rw [key.2.1]; exact hm) key.1 key.2.2 h3 r' hr'

/-- Non-vacuity, and the witness against C59: spikes at steps 10 and 11 with `isi_max = 5`; the second one is reported
as the start of a train, whose first spike is still the one of step 10. -/
theorem C59_refuted : ∃ (r : Rule ℚ) (es : List (SpikeEvent ℚ)), r.isiMax = 5 ∧ r.isi = .notInPeriod ∧
    Increasing r.lastStep es ∧ es.map (fun e => e.step) = [10, 11] ∧ (∀ e ∈ es, e.forced = false) ∧
    (isiHistory r es).map (fun r => r.isi) = [.periodStarted, .periodStarted] := by
  refine ⟨⟨0, 3, 4, 1, 0, 0, 1, 0, 5, 1/2, .notInPeriod, 0, 0, 0, false⟩, [⟨10, false, 0⟩, ⟨11, false, 0⟩], rfl, rfl, ?_, rfl,
    ?_, ?_⟩
  · simp [Increasing]
  · intro e he; simp at he; rcases he with rfl | rfl <;> rfl
  · decide +kernel

/-- C59, what holds: the first spike after rest or after forcing starts a train at its own step. -/
theorem C59_first_partial (d : F) (r : Rule F) (step : Nat) (hf : r.forced = false)
    (h : r.isi = .notInPeriod ∨ r.isi = .isForced) :
    (updateIsi d r step).isi = .periodStarted ∧ (updateIsi d r step).firstIsiSpike = step ∧
    (updateIsi d r step).lastStep = step := by
  unfold updateIsi
  rw [if_neg (by simp [hf])]
  rcases h with h | h <;> rw [h] <;> exact ⟨rfl, rfl, rfl⟩

/-- C59, what holds: a forced spike is marked as forced and does not count as a spike of the train. -/
theorem C59_forced_partial (d : F) (r : Rule F) (step : Nat) (hf : r.forced = true) :
    (updateIsi d r step).isi = .isForced ∧ (updateIsi d r step).lastStep = r.lastStep ∧
    (updateIsi d r step).firstIsiSpike = r.firstIsiSpike := by
  unfold updateIsi
  rw [if_pos hf]
  exact ⟨rfl, rfl, rfl⟩

/-- C59, what holds: a spike of a neuron that is in a continued train (which only a loaded network can be) always starts a new
train at its own step, however close the last spike was. -/
theorem C59_loaded_restarts (d : F) (r : Rule F) (step : Nat) (hf : r.forced = false) (hm : r.isiMax < 2 ^ 32)
    (h : r.isi = .periodContinued) (hl : r.lastStep < step) (hs : step < 2 ^ 63) :
    (updateIsi d r step).isi = .periodStarted ∧ (updateIsi d r step).firstIsiSpike = step ∧
    (updateIsi d r step).lastStep = step := by
  have hb := sub_back hl hs
  have hge : subU64 r.lastStep step ≥ r.isiMax := by
    revert hb
    generalize subU64 r.lastStep step = x
    omega
  unfold updateIsi
  rw [if_neg (by simp [hf]), h]
  dsimp only
  rw [if_pos (Or.inl hge)]
  exact ⟨rfl, rfl, rfl⟩

example : ({ StdpEx.rule 0 with isi := .periodContinued, lastStep := 3 } : Rule ℚ).forced = false ∧
    (updateIsi 0 ({ StdpEx.rule 0 with isi := .periodContinued, lastStep := 3 } : Rule ℚ) 4).isi = .periodStarted := by
  constructor <;> decide +kernel

example : (StdpEx.rule 0).forced = false ∧ (StdpEx.rule 0).isi = .notInPeriod ∧
    ({ StdpEx.rule 0 with forced := true } : Rule ℚ).forced = true := ⟨rfl, rfl, rfl⟩

/-! ## C84: reward and stability -/

variable {B : Type}

/-- What the code's comment (blifat_stdp.h:146) promises for a reward `t` steps after the first spike of the train:
`max(2 - |t - ISImax| / ISImax, -1)`. -/
def promisedFactor (t isiMax : Nat) : F := max (2 - |(t : F) - (isiMax : F)| / (isiMax : F)) (-1)

private theorem dop_keeps {o : Ops F} {bo : BaseOps B F} {step : Nat} (refs : List Ref) (n : Res B F)
    (ps : List (RProj F)) : ∃ f, (each (dopSyn o bo step) refs (n, ps)).1 = { n with rule := { n.rule with free := f } } := by
  refine each_fst (R := fun m : Res B F => ∃ f, m = { n with rule := { n.rule with free := f } }) ?_ refs (n, ps)
    ⟨n.rule.free, rfl⟩
  rintro m s ⟨f, rfl⟩
  unfold dopSyn
  split
  · exact ⟨_, rfl⟩
  · exact ⟨f, rfl⟩

private theorem reward_stability {o : Ops F} {bo : BaseOps B F} {step : Nat} (refs : List Ref) (n : Res B F)
    (ps : List (RProj F)) (hd : 0 < bo.dopamine n.base) (hf : n.rule.forced = false) :
    (dopNeuron o bo step refs (n, ps)).1.rule.stability = n.rule.stability +
      n.rule.stabilityChange * bo.dopamine n.base * rewardFactor o step n.rule.firstIsiSpike n.rule.isiMax := by
  unfold dopNeuron
  dsimp only
  rw [if_pos (Or.inl hd)]
  obtain ⟨f, hn⟩ := dop_keeps (o := o) (bo := bo) (step := step) refs n ps
  generalize each (dopSyn o bo step) refs (n, ps) = st1 at hn ⊢
  refine each_fst (R := fun m : Res B F => m.rule.stability = n.rule.stability +
      n.rule.stabilityChange * bo.dopamine n.base * rewardFactor o step n.rule.firstIsiSpike n.rule.isiMax)
    (fun m s h => h) refs (_, _) ?_
  have hc : ¬ (n.rule.forced = true ∨ bo.dopamine n.base < 0) := by
    rintro (h | h)
    · rw [hf] at h; cases h
    · exact absurd h (not_lt.2 hd.le)
  rw [hn]
  unfold dopStability
  dsimp only
  rw [if_neg hc]

variable [IsStrictOrderedRing F]

/-- C84, what holds: a reward that comes at least `isi_max` steps after the first spike of the train changes the
stability as promised. -/
theorem C84_late_reward_partial {o : Ops F} {bo : BaseOps B F} {step : Nat} (refs : List Ref) (n : Res B F)
    (ps : List (RProj F)) (hd : 0 < bo.dopamine n.base) (hf : n.rule.forced = false) (hs : step < two64)
    (hm : 0 < n.rule.isiMax) (h1 : n.rule.firstIsiSpike + n.rule.isiMax ≤ step) :
    (dopNeuron o bo step refs (n, ps)).1.rule.stability = n.rule.stability + n.rule.stabilityChange *
      bo.dopamine n.base * promisedFactor (step - n.rule.firstIsiSpike) n.rule.isiMax := by
  rw [reward_stability refs n ps hd hf]
  congr 2
  unfold rewardFactor promisedFactor divF
  rw [subU64_of_le (by omega) hs, subU64_of_le (by omega) (by omega)]
  have hne : (n.rule.isiMax : F) ≠ 0 := by exact_mod_cast Nat.pos_iff_ne_zero.1 hm
  rw [if_neg hne]
  have e : |((step - n.rule.firstIsiSpike : Nat) : F) - (n.rule.isiMax : F)| =
      ((step - n.rule.firstIsiSpike - n.rule.isiMax : Nat) : F) := by
    rw [Nat.cast_sub (n := step - n.rule.firstIsiSpike) (m := n.rule.isiMax) (by omega)]
    apply abs_of_nonneg
    have : (n.rule.isiMax : F) ≤ ((step - n.rule.firstIsiSpike : Nat) : F) := by
      exact_mod_cast (by omega : n.rule.isiMax ≤ step - n.rule.firstIsiSpike)
    linarith
  rw [e]

/-- C84 is false: a reward less than `isi_max` steps after the first spike of the train always lowers the stability by
the full `r * D`, while the promised factor is at least 1. -/
theorem C84_early_reward_punishes {o : Ops F} {bo : BaseOps B F} {step : Nat} (refs : List Ref) (n : Res B F)
    (ps : List (RProj F)) (hd : 0 < bo.dopamine n.base) (hf : n.rule.forced = false) (hs : step < two64)
    (hm : n.rule.isiMax < 2 ^ 32) (h0 : n.rule.firstIsiSpike ≤ step)
    (h1 : step < n.rule.firstIsiSpike + n.rule.isiMax) :
    (dopNeuron o bo step refs (n, ps)).1.rule.stability =
      n.rule.stability - n.rule.stabilityChange * bo.dopamine n.base ∧
    (1 : F) ≤ promisedFactor (step - n.rule.firstIsiSpike) n.rule.isiMax := by
  have hpos : 0 < n.rule.isiMax := by omega
  have hposF : (0 : F) < (n.rule.isiMax : F) := by exact_mod_cast hpos
  constructor
  · rw [reward_stability refs n ps hd hf]
    have : rewardFactor o step n.rule.firstIsiSpike n.rule.isiMax = -1 := by
      unfold rewardFactor divF
      rw [if_neg (ne_of_gt hposF), subU64_of_le h0 hs,
        subU64_of_gt (a := step - n.rule.firstIsiSpike) (b := n.rule.isiMax) (by omega) (by simp only [two64]; omega)]
      apply max_eq_right
      have h3 : (3 : F) * (n.rule.isiMax : F) ≤ ((step - n.rule.firstIsiSpike + two64 - n.rule.isiMax : Nat) : F) := by
        have : 3 * n.rule.isiMax ≤ step - n.rule.firstIsiSpike + two64 - n.rule.isiMax := by
          simp only [two64]; omega
        exact_mod_cast this
      have h4 : (3 : F) ≤ ((step - n.rule.firstIsiSpike + two64 - n.rule.isiMax : Nat) : F) / (n.rule.isiMax : F) := by
        rw [le_div_iff₀ hposF]; exact h3
      linarith
    rw [this]
    ring
  · unfold promisedFactor
    apply le_max_of_le_left
    have hle : ((step - n.rule.firstIsiSpike : Nat) : F) ≤ (n.rule.isiMax : F) := by
      exact_mod_cast (by omega : step - n.rule.firstIsiSpike ≤ n.rule.isiMax)
    have h0' : (0 : F) ≤ ((step - n.rule.firstIsiSpike : Nat) : F) := Nat.cast_nonneg _
    rw [abs_of_nonpos (by linarith)]
    have : -(((step - n.rule.firstIsiSpike : Nat) : F) - (n.rule.isiMax : F)) / (n.rule.isiMax : F) ≤ 1 := by
      rw [div_le_one hposF]; linarith
    linarith

/-- Non-vacuity: a neuron that spiked first at step 10, `isi_max = 5`, rewarded at steps 12 and 20. -/
example : (let n : Res (ℚ × ℚ) ℚ := ⟨(1, 0), ⟨0, 3, 4, 1, 0, 0, 1, 0, 5, 1/2, .periodStarted, 10, 10, 10, false⟩⟩
    (0 < StdpEx.bo.dopamine n.base ∧ n.rule.forced = false ∧ n.rule.firstIsiSpike ≤ 12 ∧
      12 < n.rule.firstIsiSpike + n.rule.isiMax ∧ n.rule.firstIsiSpike + n.rule.isiMax ≤ 20) ∧
    (dopNeuron StdpEx.o StdpEx.bo 12 [] (n, [])).1.rule.stability = -1 ∧
    (dopNeuron StdpEx.o StdpEx.bo 20 [] (n, [])).1.rule.stability = 1) := by
  refine ⟨⟨?_, rfl, ?_, ?_, ?_⟩, ?_, ?_⟩ <;> decide +kernel

/-! ## C90: which synapses contributed -/

omit [IsStrictOrderedRing F] in
/-- C90, what holds: from step `period` on, a synapse counts as having spiked iff its last spike arrived (at
`last_spike_step + delay - 1`) within the last `period` steps. -/
theorem C90_window_partial (step : Nat) (s : RSyn F) (hs : step < two64) (hp : s.rule.period ≤ step)
    (h1 : 1 ≤ s.rule.lastSpikeStep + s.delay) (h2 : s.rule.lastSpikeStep + s.delay < two64) :
    hadSpike step s = true ↔
      step - s.rule.period ≤ s.rule.lastSpikeStep + s.delay - 1 ∧ s.rule.lastSpikeStep + s.delay - 1 ≤ step := by
  unfold hadSpike
  rw [subU64_of_le hp hs, addU64_of_lt h2, subU64_of_le h1 h2]
  unfold inInterval
  rw [if_neg (by omega)]
  simp

omit [IsStrictOrderedRing F] in
/-- C90 is false in the first `period` steps of a run: no synapse whose last spike arrived before the current step
counts, however recent the spike. -/
theorem C90_early_refuted (step : Nat) (s : RSyn F) (hp : step < s.rule.period) (hw : s.rule.period < 2 ^ 32)
    (h1 : 1 ≤ s.rule.lastSpikeStep + s.delay) (h2 : s.rule.lastSpikeStep + s.delay - 1 < step) :
    hadSpike step s = false := by
  have hst : step < two64 := by simp only [two64]; omega
  unfold hadSpike
  rw [subU64_of_gt (a := step) (b := s.rule.period) hp (by simp only [two64]; omega),
    addU64_of_lt (by simp only [two64]; omega), subU64_of_le h1 (by simp only [two64]; omega)]
  unfold inInterval
  rw [if_pos (by simp only [two64]; omega)]
  simp only [Bool.and_eq_false_iff, decide_eq_false_iff_not]
  left; omega

omit [IsStrictOrderedRing F] in
/-- C90, exactly, for all numbers of 64 bits: `a` is the step of arrival.  From step `period` on the window are the last `period` steps; before, it are the steps from
the current one up to the wrapped `step - period`. -/
theorem C90_exact (step : Nat) (s : RSyn F) (hs : step < two64) (hp : s.rule.period < two64) :
    hadSpike step s = true ↔
      let a := (s.rule.lastSpikeStep + s.delay + (two64 - 1)) % two64
      if s.rule.period ≤ step then step - s.rule.period ≤ a ∧ a ≤ step else step ≤ a ∧ a ≤ two64 - (s.rule.period - step) := by
  have ha : subU64 (addU64 s.rule.lastSpikeStep s.delay) 1 = (s.rule.lastSpikeStep + s.delay + (two64 - 1)) % two64 := by
    unfold subU64 addU64
    generalize s.rule.lastSpikeStep + s.delay = x
    have h2 : 1 < two64 := by simp [two64]
    generalize two64 = W at *
    rw [Nat.mod_eq_of_lt h2, Nat.add_sub_assoc (by omega), Nat.mod_add_mod]
  unfold hadSpike inInterval
  rw [ha]
  simp only
  generalize (s.rule.lastSpikeStep + s.delay + (two64 - 1)) % two64 = a
  by_cases hc : s.rule.period ≤ step
  · rw [subU64_of_le hc hs, if_pos hc, if_neg (by omega)]
    simp
  · have hgt : step < s.rule.period := by omega
    rw [if_neg hc, subU64_of_gt hgt hp, if_pos (by omega)]
    simp only [Bool.and_eq_true, decide_eq_true_eq]
    omega

/-- Non-vacuity of both: a spike that arrived one step ago counts at step 6 but with period 10 it does not. -/
example : hadSpike 6 (StdpEx.syn 0 2) = true ∧
    hadSpike 6 ({ StdpEx.syn 0 2 with rule := { (StdpEx.syn 0 2).rule with period := 10 } } : RSyn ℚ) = false := by
  constructor <;> decide +kernel

omit [IsStrictOrderedRing F] in
private theorem head_isi (bo : BaseOps B F) (step : Nat) (n : Res B F) :
    (spikeHead bo step n).rule.isi = (updateIsi (bo.dopamine n.base) { n.rule with lastSpikeStep := step } step).isi := by
  unfold spikeHead
  dsimp only
  split <;> rfl

omit [IsStrictOrderedRing F] in
private theorem hadSpike_wiring {step : Nat} {s s' : RSyn F} (h : SameWiring s s') : hadSpike step s' = hadSpike step s := by
  obtain ⟨_, _, h3, _, _, _, _, h8, h9⟩ := h
  unfold hadSpike
  rw [h3, h8, h9]

omit [IsStrictOrderedRing F] in
/-- C90. When a neuron fires and does not continue a train (which by C59 is always the case), the contribution mark of
every synapse of the neuron is exactly the outcome of the window test on that synapse. -/
theorem C90_marks {o : Ops F} {bo : BaseOps B F} {step : Nat} (refs : List Ref) (n : Res B F) (ps : List (RProj F))
    (hi : (updateIsi (bo.dopamine n.base) { n.rule with lastSpikeStep := step } step).isi ≠ .periodContinued)
    (r : Ref) (hr : r ∈ refs) (s s' : RSyn F) (hs : getAt ps r = some s)
    (hs' : getAt (processNeuron o bo step refs (n, ps)).2 r = some s') :
    s'.rule.hasContributed = hadSpike step s := by
  have hfr := processNeuron_frame o bo step refs (n, ps)
  obtain ⟨s2, hs2, w⟩ := hfr.wiring r s hs
  obtain rfl : s2 = s' := Option.some.inj (hs2.symm.trans hs')
  rw [← hadSpike_wiring w]
  clear hs2 w
  unfold processNeuron at hs'
  dsimp only at hs'
  -- after the marking pass the mark is right at every reference
  have hisi : ∀ refs' st, (st : Res B F × List (RProj F)).1.rule.isi ≠ .periodContinued →
      (each (markSyn bo step) refs' st).1.rule.isi ≠ .periodContinued := by
    intro refs' st h
    exact each_fst (R := fun m : Res B F => m.rule.isi ≠ .periodContinued) (fun m s h => h) refs' st h
  have hmark : ∀ (refs' : List Ref) (st : Res B F × List (RProj F)), st.1.rule.isi ≠ .periodContinued → r ∈ refs' →
      ∀ x, getAt (each (markSyn bo step) refs' st).2 r = some x → x.rule.hasContributed = hadSpike step x := by
    intro refs'
    induction refs' with
    | nil => intro _ _ h; cases h
    | cons r0 rs ih =>
      intro st hst hr' x hx
      have hstep : (eachStep (markSyn bo step) st r0).1.rule.isi ≠ .periodContinued := by
        unfold eachStep
        rcases getAt st.2 r0 with _ | y
        · exact hst
        · exact hst
      by_cases hin : r ∈ rs
      · exact ih _ hstep hin x hx
      · have hr0 : r = r0 := by
          rcases List.mem_cons.1 hr' with h | h
          · exact h
          · exact absurd h hin
        subst hr0
        have hfr2 := each_frame (markSyn_wiring bo step) rs (eachStep (markSyn bo step) st r)
        have hx1 : getAt (eachStep (markSyn bo step) st r).2 r = some x := (hfr2.outside r hin).symm.trans hx
        rcases hy : getAt st.2 r with _ | y
        · unfold eachStep at hx1
          rw [hy] at hx1
          dsimp only at hx1
          rw [hy] at hx1; cases hx1
        · have e : eachStep (markSyn bo step) st r = ((markSyn bo step st.1 y).1, setAt st.2 r (markSyn bo step st.1 y).2) := by
            simp [eachStep, hy]
          rw [e] at hx1
          dsimp only at hx1
          rw [getAt_setAt, if_pos rfl, hy] at hx1
          have hxe : (markSyn bo step st.1 y).2 = x := Option.some.inj hx1
          rw [← hxe, hadSpike_wiring (markSyn_wiring bo step st.1 y)]
          have : (markSyn bo step st.1 y).2 = contribute st.1.rule.isi (hadSpike step y) y := by unfold markSyn; rfl
          rw [this]
          unfold contribute
          rw [if_pos (Or.inl hst)]
  have hhead : (spikeHead bo step n, ps).1.rule.isi ≠ .periodContinued := by
    dsimp only
    rw [head_isi]; exact hi
  -- the later passes keep it everywhere
  have keep : ∀ {f : Res B F → RSyn F → Res B F × RSyn F}, (∀ m y, SameWiring y (f m y).2) →
      (∀ m y, (f m y).2.rule.hasContributed = y.rule.hasContributed) → ∀ st : Res B F × List (RProj F),
      (∀ x, getAt st.2 r = some x → x.rule.hasContributed = hadSpike step x) →
      ∀ x, getAt (each f refs st).2 r = some x → x.rule.hasContributed = hadSpike step x := by
    intro f hw hc st h0
    refine each_ind (P := fun t => ∀ x, getAt t.2 r = some x → x.rule.hasContributed = hadSpike step x) ?_ st h0
    intro t r' y _ hy hp x hx
    dsimp only at hx
    rw [getAt_setAt] at hx
    by_cases h : r' = r
    · subst h
      rw [if_pos rfl, hy] at hx
      have hxe : (f t.1 y).2 = x := Option.some.inj hx
      rw [← hxe, hadSpike_wiring (hw t.1 y), hc]
      exact hp y hy
    · rw [if_neg h] at hx
      exact hp x hx
  have h1 := hmark refs (spikeHead bo step n, ps) hhead hr
  generalize each (markSyn bo step) refs (spikeHead bo step n, ps) = st1 at h1 hs'
  have h2 := keep (f := resetHebb (B := B)) resetHebb_wiring (by intro m y; unfold resetHebb; dsimp only; split <;> rfl)
    (scaleAdditional bo st1.1, st1.2) h1
  generalize each resetHebb refs (scaleAdditional bo st1.1, st1.2) = st2 at h2 hs'
  have h3 := keep (f := plastic (B := B) o) (plastic_wiring o) (by
    intro m y
    unfold plastic hebb
    dsimp only
    split
    · split <;> rfl
    · rfl) st2 h2
  generalize each (plastic o) refs st2 = st3 at h3 hs'
  exact keep (f := recalc (N := Res B F) o) (recalc_wiring o) (fun m y => rfl) st3 h3 s2 hs'

/-- Non-vacuity: in the example both synapses have contributed. -/
example : (processNeuron StdpEx.o StdpEx.bo 6 [(0, 0), (0, 1)] (⟨(1, 0), StdpEx.rule 0⟩, [StdpEx.proj false])).2.map
    (fun p => p.syns.map (fun s => s.rule.hasContributed)) = [[true, true]] := by decide +kernel

/-! ## C85, C88, C89, C58: additive STDP -/

/-- C85 is false: additive STDP never lowers a weight, whatever the order of the spikes (the exponential is only
assumed non-negative). -/
theorem C85_never_depresses (o : Ops F) (he : ∀ x, 0 ≤ o.exp x) (s : ASyn F) :
    s.weight ≤ (modifyWeight o s).weight := by
  unfold modifyWeight
  split
  · dsimp only
    have hw : ∀ d : F, 0 ≤ stdpW o s.tauPlus s.tauMinus 1 1 d := by
      intro d
      unfold stdpW
      split
      · rw [one_mul]; exact he _
      · rw [one_mul]; exact he _
    have : 0 ≤ stdpDelta o s.tauPlus s.tauMinus 1 1 s.preTimes s.postTimes := by
      unfold stdpDelta
      apply List.sum_nonneg
      intro x hx
      obtain ⟨a, _, rfl⟩ := List.mem_map.1 hx
      apply List.sum_nonneg
      intro y hy
      obtain ⟨b, _, rfl⟩ := List.mem_map.1 hy
      exact hw _
    linarith
  · exact le_rfl

/-- The contribution of a pair of spikes as published (Zhang et al. 1998): `t` is the signed time of the postsynaptic
spike minus that of the presynaptic one. -/
def publishedW (o : Ops F) (tauPlus tauMinus aPlus aMinus : F) (t : Int) : F :=
  if 0 < t then aPlus * o.exp (divF o (-(t : F)) tauPlus) else aMinus * o.exp (divF o (t : F) tauMinus)

/-- C85, what holds: if every postsynaptic spike of the queue is at or after every presynaptic one, each pair contributes its published value. -/
theorem C85_causal_partial (o : Ops F) (tp tm ap am : F) (pre post : List Nat) (h64 : ∀ t ∈ post, t < two64)
    (h : ∀ a ∈ pre, ∀ b ∈ post, a ≤ b) :
    stdpDelta o tp tm ap am pre post =
      (pre.map (fun a : Nat => (post.map (fun b : Nat => publishedW o tp tm ap am ((b : Int) - (a : Int)))).sum)).sum := by
  unfold stdpDelta
  congr 1
  apply List.map_congr_left
  intro a ha
  congr 1
  apply List.map_congr_left
  intro b hb
  have hab := h a ha b hb
  rw [subU64_of_le hab (h64 b hb)]
  have e : (((b : Int) - (a : Int) : Int) : F) = ((b - a : Nat) : F) := by
    rw [Nat.cast_sub hab]; push_cast; ring
  unfold stdpW publishedW
  rw [e]
  by_cases hlt : a < b
  · have h1 : (0 : F) < ((b - a : Nat) : F) := by exact_mod_cast (by omega : 0 < b - a)
    rw [if_pos h1, if_pos (by omega)]
  · have h0 : b - a = 0 := by omega
    rw [if_neg (by rw [h0]; simp), if_neg (by omega)]

/-- C85 is false: a postsynaptic spike one step before the presynaptic one is not weighted with the depression
constants. -/
theorem C85_refuted : ∃ (o : Ops ℚ), stdpDelta o 10 10 1 (-1) [11] [10] ≠ publishedW o 10 10 1 (-1) (-1) ∧
    0 < stdpDelta o 10 10 1 (-1) [11] [10] ∧ publishedW o 10 10 1 (-1) (-1) < 0 := by
  refine ⟨StdpEx.o, ?_, ?_, ?_⟩ <;> decide +kernel

/-- Non-vacuity of the previous theorems. -/
example : (∀ x, 0 ≤ StdpEx.o.exp x) ∧ (∀ t ∈ [12, 13], t < two64) ∧ (∀ a ∈ [10, 11], ∀ b ∈ [12, 13], a ≤ b) := by
  refine ⟨fun x => by simp [StdpEx.o], ?_, ?_⟩ <;> decide +kernel

/-- An additive projection with one synapse 0 → 1, fed by the presynaptic population 5 in mode "STDP and spike". -/
def addProj (locked : Bool) (times : List Nat) : AProj ℚ :=
  ⟨locked, [(5, .stdpAndSpike)], [⟨0, 1, 2, 1, .excitatory, 1, 1, times, times⟩], fun n => if n = 1 then [0] else []⟩

/-- C88 is false: a spike of the synapse's source neuron is not recorded in its presynaptic history, while a spike of
the neuron of the presynaptic population whose number is the synapse's target is. -/
theorem C88_refuted :
    ((initProjection (addProj false []) [⟨⟨5, 3⟩, [0]⟩]).1.syns.map (fun s => s.preTimes) = [[]]) ∧
    ((initProjection (addProj false []) [⟨⟨5, 3⟩, [1]⟩]).1.syns.map (fun s => s.preTimes) = [[3]]) := by
  constructor <;> decide +kernel

/-- C58 is false for additive STDP: a locked projection is trained. -/
theorem C58_additive_refuted : ∃ (o : Ops ℚ) (p : AProj ℚ), p.locked = true ∧
    (additiveStep o p []).syns.map (fun s => s.weight) ≠ p.syns.map (fun s => s.weight) := by
  refine ⟨StdpEx.o, addProj true [3, 4], rfl, ?_⟩
  decide +kernel

omit [IsStrictOrderedRing F] in
/-- Additive training ignores the lock altogether: locked and unlocked projections are trained alike. -/
theorem C58_additive_ignores_lock (o : Ops F) (p : AProj F) (b : Bool) (msgs : List SpikeMessage) :
    (additiveStep o { p with locked := b } msgs).syns = (additiveStep o p msgs).syns := by
  have h : ∀ (ms : List SpikeMessage) (q : AProj F), (initProjection { q with locked := b } ms).1 =
      { (initProjection q ms).1 with locked := b } := by
    intro ms
    induction ms with
    | nil => intro q; rfl
    | cons m ms ih =>
      intro q
      have e : (initMessage { q with locked := b } m).1 = { (initMessage q m).1 with locked := b } := by
        unfold initMessage
        dsimp only
        rcases processingOf q.stdpPops m.header.senderUid with _ | _ | _ <;> rfl
      unfold initProjection
      dsimp only
      rw [e, ih]
  unfold additiveStep
  dsimp only
  rw [h]

/-- The histories of a synapse are within their limit. -/
def WithinLimit (s : ASyn F) : Prop :=
  ((s.preTimes.length : Nat) : F) < s.tauMinus + s.tauPlus + 1 ∧ ((s.postTimes.length : Nat) : F) < s.tauMinus + s.tauPlus + 1

private theorem push_limit (w : Which) (t : Nat) (s : ASyn F) (h : WithinLimit s) : WithinLimit (pushTime w t s) := by
  unfold pushTime
  cases w
  · dsimp only
    split
    · rename_i hlt
      refine ⟨?_, h.2⟩
      dsimp only
      rw [List.length_append, List.length_singleton]
      push_cast
      linarith
    · exact h
  · dsimp only
    split
    · rename_i hlt
      refine ⟨h.1, ?_⟩
      dsimp only
      rw [List.length_append, List.length_singleton]
      push_cast
      linarith
    · exact h

private theorem modify_limit (f : ASyn F → ASyn F) (hf : ∀ s, WithinLimit s → WithinLimit (f s)) (l : List (ASyn F)) (k : Nat)
    (h : ∀ s ∈ l, WithinLimit s) : ∀ s ∈ l.modify k f, WithinLimit s := by
  intro s hs
  obtain ⟨i, hi⟩ := List.getElem?_of_mem hs
  rw [List.getElem?_modify] at hi
  rcases hl : l[i]? with _ | x
  · rw [hl] at hi; cases hi
  · rw [hl] at hi
    have hx := h x (List.mem_of_getElem? hl)
    by_cases hk : k = i
    · simp [hk] at hi; rw [← hi]; exact hf x hx
    · simp [hk] at hi; rw [← hi]; exact hx

private theorem append_limit (w : Which) (g : Nat → List Nat) (m : SpikeMessage) (l : List (ASyn F))
    (h : ∀ s ∈ l, WithinLimit s) : ∀ s ∈ appendTimes w g m l, WithinLimit s := by
  unfold appendTimes
  generalize m.neuronIndexes = ns
  induction ns generalizing l with
  | nil => exact h
  | cons n ns ih =>
    simp only [List.foldl_cons]
    apply ih
    generalize g n = ks
    induction ks generalizing l with
    | nil => exact h
    | cons k ks ih2 =>
      simp only [List.foldl_cons]
      apply ih2
      exact modify_limit _ (fun s hs => push_limit w _ s hs) l k h

/-- C89. Spike histories stay bounded: however many steps and messages, no history of an additive-STDP synapse exceeds
`tau_plus + tau_minus` rounded up. -/
theorem C89_bounded_history (o : Ops F) (p : AProj F) (steps : List (List SpikeMessage))
    (h0 : ∀ s ∈ p.syns, 0 ≤ s.tauMinus + s.tauPlus ∧ s.preTimes = [] ∧ s.postTimes = []) :
    ∀ s ∈ (steps.foldl (additiveStep o) p).syns, WithinLimit s := by
  have hinit : ∀ s ∈ p.syns, WithinLimit s := by
    intro s hs
    obtain ⟨h1, h2, h3⟩ := h0 s hs
    unfold WithinLimit
    rw [h2, h3]
    simp only [List.length_nil, Nat.cast_zero]
    constructor <;> linarith
  have hinv : ∀ s ∈ p.syns, WithinLimit s ∧ 0 ≤ s.tauMinus + s.tauPlus := fun s hs => ⟨hinit s hs, (h0 s hs).1⟩
  clear h0 hinit
  -- the time constants never change either; carry both facts
  have tau_push : ∀ (w : Which) (t : Nat) (s : ASyn F), (pushTime w t s).tauMinus = s.tauMinus ∧
      (pushTime w t s).tauPlus = s.tauPlus := by
    intro w t s
    unfold pushTime
    cases w <;> dsimp only <;> split <;> exact ⟨rfl, rfl⟩
  have tau_append : ∀ (w : Which) (g : Nat → List Nat) (m : SpikeMessage) (l : List (ASyn F)),
      (∀ s ∈ l, 0 ≤ s.tauMinus + s.tauPlus) → ∀ s ∈ appendTimes w g m l, 0 ≤ s.tauMinus + s.tauPlus := by
    intro w g m l h
    unfold appendTimes
    generalize m.neuronIndexes = ns
    induction ns generalizing l with
    | nil => exact h
    | cons n ns ih =>
      simp only [List.foldl_cons]
      apply ih
      generalize g n = ks
      induction ks generalizing l with
      | nil => exact h
      | cons k ks ih2 =>
        simp only [List.foldl_cons]
        apply ih2
        intro s hs
        obtain ⟨i, hi⟩ := List.getElem?_of_mem hs
        rw [List.getElem?_modify] at hi
        rcases hl : l[i]? with _ | x
        · rw [hl] at hi; cases hi
        · rw [hl] at hi
          have hx := h x (List.mem_of_getElem? hl)
          by_cases hk : k = i
          · simp [hk] at hi; rw [← hi, (tau_push w _ x).1, (tau_push w _ x).2]; exact hx
          · simp [hk] at hi; rw [← hi]; exact hx
  have msg : ∀ (q : AProj F) (m : SpikeMessage), (∀ s ∈ q.syns, WithinLimit s ∧ 0 ≤ s.tauMinus + s.tauPlus) →
      ∀ s ∈ (initMessage q m).1.syns, WithinLimit s ∧ 0 ≤ s.tauMinus + s.tauPlus := by
    intro q m h
    have ha := fun s hs => (h s hs).1
    have hb := fun s hs => (h s hs).2
    unfold initMessage
    rcases processingOf q.stdpPops m.header.senderUid with _ | _ | _
    · exact h
    · intro s hs
      exact ⟨append_limit _ _ _ _ ha s hs, tau_append _ _ _ _ hb s hs⟩
    · intro s hs
      exact ⟨append_limit _ _ _ _ (append_limit _ _ _ _ ha) s hs, tau_append _ _ _ _ (tau_append _ _ _ _ hb) s hs⟩
  have init : ∀ (ms : List SpikeMessage) (q : AProj F), (∀ s ∈ q.syns, WithinLimit s ∧ 0 ≤ s.tauMinus + s.tauPlus) →
      ∀ s ∈ (initProjection q ms).1.syns, WithinLimit s ∧ 0 ≤ s.tauMinus + s.tauPlus := by
    intro ms
    induction ms with
    | nil => intro q h; exact h
    | cons m ms ih => intro q h; exact ih _ (msg q m h)
  suffices H : ∀ s ∈ (steps.foldl (additiveStep o) p).syns, WithinLimit s ∧ 0 ≤ s.tauMinus + s.tauPlus from
    fun s hs => (H s hs).1
  induction steps generalizing p with
  | nil => exact hinv
  | cons ms steps ih =>
    simp only [List.foldl_cons]
    apply ih
    intro s hs
    unfold additiveStep at hs
    obtain ⟨x, hx, rfl⟩ := List.mem_map.1 hs
    have hx' := init ms p hinv x hx
    unfold modifyWeight
    split
    · refine ⟨?_, hx'.2⟩
      unfold WithinLimit
      simp only [List.length_nil, Nat.cast_zero]
      constructor <;> linarith [hx'.2]
    · exact hx'

/-- Non-vacuity: an empty history; three spikes are offered to a queue of limit 2. -/
example : (∀ s ∈ (addProj false []).syns, 0 ≤ s.tauMinus + s.tauPlus ∧ s.preTimes = [] ∧ s.postTimes = []) ∧
    ((initProjection (addProj false []) [⟨⟨5, 3⟩, [1]⟩, ⟨⟨5, 4⟩, [1]⟩, ⟨⟨5, 5⟩, [1]⟩]).1.syns.map (fun s => s.preTimes) =
      [[3, 4]]) := by
  constructor <;> decide +kernel

end
end Knp.Props
