import Verif.Spec.Power
import Mathlib.Tactic.Linarith
import Mathlib.Tactic.Ring
import Mathlib.Tactic.FieldSimp
import Mathlib.Tactic.Positivity
import Mathlib.Algebra.Order.Field.Basic
import Mathlib.Data.Rat.Cast.Order

/-! # C178: the power meter -/

namespace Knp.Props
open Knp Knp.Power Knp.Spec.Power

/-- C178, full statement: a reading is the average power since the previous reading, when time has passed. -/
def C178_statement : Prop :=
  ∀ (status : Status) (s₀ : Sample) (earlier : List Sample) (s : Sample), s.available = true →
    (lastReading (before status s₀ earlier)).1 < s.now →
    answer status s₀ earlier s = some (.fin (average (lastReading (before status s₀ earlier)).1 (lastReading (before status s₀ earlier)).2 s.now s.energy))

/-- The meter remembers the last reading. -/
private def Remembers (m : Meter) (l : List Sample) : Prop := (m.start, m.state1) = lastReading l

private theorem lastReading_snoc (l : List Sample) (s : Sample) :
    lastReading (l ++ [s]) = if s.available then (s.now, s.energy) else lastReading l := by
  unfold lastReading
  by_cases h : s.available = true <;> simp [List.filter_append, h]

private theorem getPower_remembers (m : Meter) (l : List Sample) (s : Sample) (h : Remembers m l) :
    (s.available = true → ∃ m', getPower m s = .ok (divide (s.energy - (lastReading l).2) (wholeSeconds (s.now - (lastReading l).1)), m')
      ∧ Remembers m' (l ++ [s]))
    ∧ (s.available = false → (∃ w, getPower m s = .throw w) ∧ Remembers m (l ++ [s])) := by
  unfold Remembers at *
  rw [lastReading_snoc]
  refine ⟨fun ha => ?_, fun ha => ?_⟩
  · rw [← h]
    simp [getPower, ha]
  · simp [getPower, ha, h]

private theorem run_spec (m : Meter) (past l : List Sample) (h : Remembers m past) :
    (run m l).1.length = l.length ∧
    ∀ (k : Nat) (s : Sample), l[k]? = some s → (run m l).1[k]? = some (if s.available then
      some (divide (s.energy - (lastReading (past ++ l.take k)).2) (wholeSeconds (s.now - (lastReading (past ++ l.take k)).1))) else none) := by
  induction l generalizing m past with
  | nil => simp [run]
  | cons a l ih =>
    have hg := getPower_remembers m past a h
    cases ha : a.available with
    | true =>
      obtain ⟨m', h1, h2⟩ := hg.1 ha
      have := ih m' (past ++ [a]) h2
      simp only [run, h1]
      refine ⟨by simp [this.1], ?_⟩
      intro k s hk
      cases k with
      | zero => simp at hk; subst hk; simp [ha]
      | succ k =>
        have := this.2 k s (by simpa using hk)
        simpa using this
    | false =>
      obtain ⟨⟨w, h1⟩, h2⟩ := hg.2 ha
      have := ih m (past ++ [a]) h2
      simp only [run, h1]
      refine ⟨by simp [this.1], ?_⟩
      intro k s hk
      cases k with
      | zero => simp at hk; subst hk; simp [ha]
      | succ k =>
        have := this.2 k s (by simpa using hk)
        simpa using this

private theorem construct_remembers (status : Status) (s₀ : Sample) : Remembers (construct status s₀) (before status s₀ []) := by
  have h0 : Remembers Meter.fresh [] := rfl
  cases status with
  | success =>
    have hg := getPower_remembers Meter.fresh [] s₀ h0
    cases ha : s₀.available with
    | true =>
      obtain ⟨m', h1, h2⟩ := hg.1 ha
      simpa [construct, checkStatus, h1, before] using h2
    | false =>
      obtain ⟨⟨w, h1⟩, h2⟩ := hg.2 ha
      simpa [construct, checkStatus, h1, before] using h2
  | _ => simpa [construct, checkStatus, before] using h0

/-- C178, every history: a call throws exactly when the energy metrics are unavailable, and otherwise tells the energy consumed since the last
call that did not throw, over the number of whole seconds since; calls that throw change nothing. -/
theorem C178_history (status : Status) (s₀ : Sample) (earlier : List Sample) (s : Sample) :
    answer status s₀ earlier s = if s.available then
      some (divide (s.energy - (lastReading (before status s₀ earlier)).2) (wholeSeconds (s.now - (lastReading (before status s₀ earlier)).1)))
      else none := by
  have h := run_spec _ _ (earlier ++ [s]) (construct_remembers status s₀)
  have h1 := h.2 earlier.length s (by simp)
  have h2 : (run (construct status s₀) (earlier ++ [s])).1.getLast? = (run (construct status s₀) (earlier ++ [s])).1[earlier.length]? := by
    rw [List.getLast?_eq_getElem?, h.1]; simp
  unfold answer
  rw [h2, h1]
  have h3 : before status s₀ [] ++ List.take earlier.length (earlier ++ [s]) = before status s₀ earlier := by
    simp [before]
  rw [h3]; rfl

/-- C178 for intervals of at least one second: the answer is a number, at least the average power and at most twice the average power; it is
the average power exactly when the interval is a whole number of seconds or no energy was consumed.
Missing from the full statement: the other intervals. -/
theorem C178_power_partial (status : Status) (s₀ : Sample) (earlier : List Sample) (s : Sample) (t₁ : Nat) (e₁ : ℚ)
    (hl : lastReading (before status s₀ earlier) = (t₁, e₁)) (ha : s.available = true) (ht : t₁ + 1000000000 ≤ s.now) (he : e₁ ≤ s.energy) :
    ∃ w, answer status s₀ earlier s = some (.fin w) ∧ average t₁ e₁ s.now s.energy ≤ w ∧ w ≤ 2 * average t₁ e₁ s.now s.energy ∧
      (w = average t₁ e₁ s.now s.energy ↔ (1000000000 ∣ s.now - t₁ ∨ s.energy = e₁)) := by
  rw [C178_history, hl, if_pos ha]
  obtain ⟨d, hd⟩ : ∃ d, s.now = t₁ + d := ⟨s.now - t₁, by omega⟩
  have hsub : s.now - t₁ = d := by omega
  have hcast : (s.now : ℚ) - t₁ = d := by rw [hd]; push_cast; ring
  have hq : wholeSeconds d ≠ 0 := by unfold wholeSeconds; omega
  simp only [hsub, divide, if_neg hq]
  refine ⟨_, rfl, ?_⟩
  unfold average
  rw [hcast]
  obtain ⟨q, hqq⟩ : ∃ q, q = wholeSeconds d := ⟨_, rfl⟩
  rw [← hqq] at hq ⊢
  have hq1 : 1 ≤ q := by omega
  have hlo : q * 1000000000 ≤ d := by rw [hqq]; unfold wholeSeconds; omega
  have hhi : d ≤ 2 * (q * 1000000000) := by rw [hqq]; unfold wholeSeconds; omega
  have hdv : 1000000000 ∣ d ↔ d = q * 1000000000 := by rw [hqq]; unfold wholeSeconds; omega
  have hq' : (0 : ℚ) < q := by exact_mod_cast hq1
  have hd' : (0 : ℚ) < d := by
    have : 0 < d := by omega
    exact_mod_cast this
  have hlo' : (q : ℚ) * 1000000000 ≤ d := by exact_mod_cast hlo
  have hhi' : (d : ℚ) ≤ 2 * (q * 1000000000) := by exact_mod_cast hhi
  have hj : 0 ≤ s.energy - e₁ := by linarith
  have hdd : (0 : ℚ) < d / 1000000000 := by positivity
  refine ⟨?_, ?_, ?_⟩
  · exact div_le_div_of_nonneg_left hj hq' (by linarith)
  · rw [← mul_div_assoc, div_le_div_iff₀ hq' hdd]
    nlinarith
  · rw [hdv, div_eq_div_iff hq'.ne' hdd.ne']
    constructor
    · intro h
      by_cases hz : s.energy = e₁
      · exact .inr hz
      · left
        have : s.energy - e₁ ≠ 0 := by intro h'; exact hz (by linarith)
        have h1 := mul_left_cancel₀ this h
        have h2 : (d : ℚ) = q * 1000000000 := by linarith
        exact_mod_cast h2
    · rintro (h | h)
      · have : (d : ℚ) = q * 1000000000 := by exact_mod_cast h
        rw [this]; ring
      · rw [h]; ring

/-- C178 is false of the code within a second of the previous reading: the answer is an infinity when energy was consumed, not-a-number when
none was. -/
theorem C178_short (status : Status) (s₀ : Sample) (earlier : List Sample) (s : Sample) (t₁ : Nat) (e₁ : ℚ)
    (hl : lastReading (before status s₀ earlier) = (t₁, e₁)) (ha : s.available = true) (ht : s.now < t₁ + 1000000000) (he : e₁ ≤ s.energy) :
    answer status s₀ earlier s = some (if e₁ < s.energy then .posInf else .nan) := by
  rw [C178_history, hl, if_pos ha]
  have hq : wholeSeconds (s.now - t₁) = 0 := by unfold wholeSeconds; omega
  simp only [divide, hq, if_true]
  by_cases h : e₁ < s.energy
  · rw [if_pos (by linarith), if_pos h]
  · rw [if_neg (by linarith), if_neg (by linarith), if_neg h]

/-- C178 is false of the code: 30 J in a second and a half are 20 W, the meter tells 30 W. -/
theorem C178_refuted : ¬ C178_statement := by
  intro h
  have h1 := h .success ⟨true, 100, 5000000000⟩ [] ⟨true, 130, 6500000000⟩ rfl (by decide)
  rw [C178_history] at h1
  revert h1
  decide +kernel

/-! A meter read two seconds after it was made, once unavailable in between; half a second later. -/
example : answer .success ⟨true, 100, 5000000000⟩ [⟨false, 0, 6000000000⟩] ⟨true, 130, 7000000000⟩ = some (.fin 15) := by decide +kernel
example : lastReading (before .success ⟨true, 100, 5000000000⟩ [⟨false, 0, 6000000000⟩]) = (5000000000, 100) := by decide +kernel
example : answer .success ⟨true, 100, 5000000000⟩ [⟨true, 130, 7000000000⟩] ⟨true, 131, 7500000000⟩ = some .posInf := by decide +kernel
/-! The counters could not be programmed: the first reading is over the whole life of the clock. -/
example : answer .pmuBusy ⟨true, 100, 5000000000⟩ [] ⟨true, 140, 7000000000⟩ = some (.fin 20) := by decide +kernel

end Knp.Props
