import Verif.Lemmas.Rounding
import Verif.Model.StdpFloat

/-!
# C163: the weight of a synapse in floating point

C57 is about exact arithmetic.  Here every operation is rounded to `p` bits (24 for `float`).
-/

namespace Knp.Props
open Knp Knp.Store Knp.Stdp

/-- A number of `p` bits: rounding does not change it. -/
def Representable (p : Nat) (q : Rat) : Prop := rnd p q = q

/-- C163, the specification: the results of rounding are the representable numbers, and a number is rounded to one that no
representable number lies between it and. -/
theorem C163_rounding (p : Nat) (hp : 1 ≤ p) (q : Rat) : Representable p (rnd p q) ∧
    (∀ x, Representable p x → x ≤ q → x ≤ rnd p q) ∧ (∀ x, Representable p x → q ≤ x → rnd p q ≤ x) ∧
    |rnd p q - q| ≤ |q| * (2 : Rat) ^ (-(p : Int)) := by
  refine ⟨rnd_rnd p hp q, fun x hx h => ?_, fun x hx h => ?_, ?_⟩
  · have := rnd_mono p hp h; rw [hx] at this; exact this
  · have := rnd_mono p hp h; rw [hx] at this; exact this
  · rcases lt_trichotomy q 0 with h | h | h
    · have := rnd_err p (-q) (by linarith)
      rw [rnd_neg, show -rnd p q - -q = -(rnd p q - q) by ring, abs_neg] at this
      rw [abs_of_neg h]; exact this
    · subst h; rw [rnd_zero]; simp
    · rw [abs_of_pos h]; exact rnd_err p q h

/-- C163: with any bounds `w_min < w_max` and any resource the weight is never below `w_min` and never above `w_min` plus the
(rounded) difference of the bounds, as long as the resource is at most `2^(p-1) - 1` times that difference. -/
theorem C163_weight_partial (p : Nat) (hp : 1 ≤ p) (wMin wMax resource : Rat) (h : wMin < wMax) (hmin : Representable p wMin) :
    wMin ≤ weightRounded p wMin wMax resource ∧
    (resource ≤ ((2 : Rat) ^ (p - 1) - 1) * rnd p (wMax - wMin) →
      weightRounded p wMin wMax resource ≤ rnd p (wMin + rnd p (wMax - wMin))) := by
  unfold weightRounded
  dsimp only
  have hD : 0 < rnd p (wMax - wMin) := rnd_pos p hp (by linarith)
  have hDr : rnd p (rnd p (wMax - wMin)) = rnd p (wMax - wMin) := rnd_rnd p hp _
  have hd : (0 : Rat) ≤ max resource 0 := le_max_right _ _
  generalize hDe : rnd p (wMax - wMin) = D at *
  have hsum : 0 < D + max resource 0 := by linarith
  have hden := rnd_pos p hp hsum
  have hprod : 0 ≤ D * max resource 0 := mul_nonneg hD.le hd
  constructor
  · have hq : 0 ≤ rnd p (rnd p (D * max resource 0) / rnd p (D + max resource 0)) :=
      rnd_nonneg p hp (div_nonneg (rnd_nonneg p hp hprod) hden.le)
    have := rnd_mono p hp (show wMin ≤ wMin + _ by linarith)
    rw [hmin] at this
    exact this
  · intro hres
    apply rnd_mono p hp
    have hmax : max resource 0 ≤ ((2 : Rat) ^ (p - 1) - 1) * D := by
      apply max_le hres
      have : (1 : Rat) ≤ 2 ^ (p - 1) := one_le_pow₀ (by norm_num)
      nlinarith
    have hquot : rnd p (D * max resource 0) / rnd p (D + max resource 0) ≤ D := by
      rw [div_le_iff₀ hden]
      rcases hd.lt_or_eq with hpos | h0
      · have e1 := rnd_err p (D * max resource 0) (mul_pos hD hpos)
        have e2 := rnd_err p (D + max resource 0) hsum
        have hu : (2 : Rat) ^ (-(p : Int)) * 2 ^ (p - 1) = 1 / 2 := by
          rw [← zpow_natCast (2 : Rat) (p - 1), ← zpow_add₀ (by norm_num), show (1 / 2 : Rat) = (2 : Rat) ^ (-1 : Int) by norm_num]
          congr 1
          omega
        have hup : (0 : Rat) < 2 ^ (-(p : Int)) := by positivity
        have hule : (2 : Rat) ^ (-(p : Int)) ≤ 1 / 2 := by
          have : (1 : Rat) ≤ 2 ^ (p - 1) := one_le_pow₀ (by norm_num)
          nlinarith
        generalize (2 : Rat) ^ (-(p : Int)) = u at *
        generalize max resource 0 = d at *
        generalize (2 : Rat) ^ (p - 1) = m at *
        have a1 := (abs_le.1 e1).2
        have a2 := (abs_le.1 e2).1
        have key : D * d * (1 + u) ≤ D * ((D + d) * (1 - u)) := by
          have k1 : 2 * u * d ≤ D * (1 - u) := by
            have : 2 * u * d ≤ 2 * u * ((m - 1) * D) := mul_le_mul_of_nonneg_left hmax (by linarith)
            have : 2 * u * ((m - 1) * D) = 2 * (u * m) * D - 2 * u * D := by ring
            rw [hu] at this
            nlinarith
          have : D * ((D + d) * (1 - u)) - D * d * (1 + u) = D * (D * (1 - u) - 2 * u * d) := by ring
          nlinarith [mul_nonneg hD.le (sub_nonneg.2 k1)]
        have b2 : D * ((D + d) * (1 - u)) ≤ D * rnd p (D + d) := by
          apply mul_le_mul_of_nonneg_left _ hD.le
          nlinarith
        nlinarith
      · rw [← h0] at hden ⊢
        rw [mul_zero, rnd_zero]
        exact (mul_pos hD hden).le
    have := rnd_mono p hp hquot
    rw [hDr] at this
    linarith

/-- C163: so the weight is at most `w_max` if the difference of the bounds is representable - for instance when `w_min = 0`. -/
theorem C163_upper_partial (p : Nat) (hp : 1 ≤ p) (wMin wMax resource : Rat) (h : wMin < wMax) (hmin : Representable p wMin)
    (hmax : Representable p wMax) (hdiff : Representable p (wMax - wMin)) (hres : resource ≤ ((2 : Rat) ^ (p - 1) - 1) * (wMax - wMin)) :
    wMin ≤ weightRounded p wMin wMax resource ∧ weightRounded p wMin wMax resource ≤ wMax := by
  obtain ⟨h1, h2⟩ := C163_weight_partial p hp wMin wMax resource h hmin
  unfold Representable at hmax hdiff
  rw [hdiff] at h2
  have := h2 hres
  rw [show wMin + (wMax - wMin) = wMax by ring, hmax] at this
  exact ⟨h1, this⟩

/-- The hypotheses: bounds 0 and 3, resource up to 25 165 821. -/
example : Representable 24 0 ∧ Representable 24 3 ∧ Representable 24 (3 - 0) ∧
    ((1000 : Rat) ≤ ((2 : Rat) ^ (24 - 1) - 1) * (3 - 0)) ∧ weightRounded 24 0 3 1000 = 12545276 / 4194304 := by
  refine ⟨?_, ?_, ?_, by norm_num, ?_⟩
  · show rnd 24 0 = 0; decide +kernel
  · show rnd 24 3 = 3; decide +kernel
  · show rnd 24 (3 - 0) = 3 - 0; decide +kernel
  · decide +kernel

/-- The weight also grows with the resource, and stays below `w_max`, in exact arithmetic (C57).  The full statement for rounded
arithmetic ... -/
def C163_statement (p : Nat) : Prop := ∀ wMin wMax resource : Rat, wMin < wMax → Representable p wMin → Representable p wMax →
  Representable p resource → wMin ≤ weightRounded p wMin wMax resource ∧ weightRounded p wMin wMax resource ≤ wMax

/-- ... is false: with bounds 0 and 3 a large resource gives a weight above 3; and with bounds -2 and 2 + 3/4194304, whose difference
is rounded up, the rounded difference alone takes it above. -/
theorem C163_refuted : ¬ C163_statement 24 ∧ weightRounded 24 0 3 440628032 = 3 + 1 / 4194304 ∧
    2 + 3 / 4194304 < weightRounded 24 (-2) (2 + 3 / 4194304) 134217728 := by
  have e : weightRounded 24 0 3 440628032 = 3 + 1 / 4194304 := by decide +kernel
  refine ⟨fun h => ?_, e, by decide +kernel⟩
  have := (h 0 3 440628032 (by norm_num) (show rnd 24 0 = 0 by decide +kernel) (show rnd 24 3 = 3 by decide +kernel)
    (show rnd 24 440628032 = 440628032 by decide +kernel)).2
  rw [e] at this
  norm_num at this

/-- C163: the upper bound is reached - `w_max` is not excluded as it is in exact arithmetic - and the weight need not grow with the
resource: here the next larger `float` as resource gives a smaller weight. -/
theorem C163_order_refuted : weightRounded 24 0 1 16777216 = 1 ∧
    Representable 24 (15000766 / 1024) ∧ Representable 24 (15000767 / 1024) ∧
    weightRounded 24 0 40 (15000767 / 1024) < weightRounded 24 0 40 (15000766 / 1024) := by
  refine ⟨by decide +kernel, ?_, ?_, by decide +kernel⟩
  · show rnd 24 _ = _; decide +kernel
  · show rnd 24 _ = _; decide +kernel

end Knp.Props
