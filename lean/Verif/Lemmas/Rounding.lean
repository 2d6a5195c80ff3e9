import Verif.Lemmas.Storage

/-! # Lemmas: rounding to nearest, ties to even -/

namespace Knp.Store
open Knp

theorem roundHalfEven_mono {a b : Rat} (h : a ≤ b) : roundHalfEven a ≤ roundHalfEven b := by
  have hf : a.floor ≤ b.floor := Rat.le_floor_iff.2 (le_trans (Rat.floor_le a) h)
  have a1 : (a.floor : Rat) ≤ a := Rat.floor_le a
  have b2 : b < b.floor + 1 := by exact_mod_cast Rat.lt_floor_add_one b
  have key : ∀ q : Rat, q.floor ≤ roundHalfEven q ∧ roundHalfEven q ≤ q.floor + 1 := by
    intro q
    unfold roundHalfEven
    dsimp only
    split
    · omega
    · split
      · omega
      · split <;> omega
  rcases Int.lt_or_eq_of_le hf with hlt | heq
  · have := (key a).2
    have := (key b).1
    omega
  · unfold roundHalfEven
    dsimp only
    rw [heq]
    have hr : a - (b.floor : Rat) ≤ b - b.floor := by linarith
    split
    · have := (key b).1
      split
      · omega
      · split
        · omega
        · split <;> omega
    · rename_i h1
      split
      · rename_i h2
        rw [if_neg (by linarith), if_pos (by linarith)]
      · rename_i h2
        have ha : a - (b.floor : Rat) = 1 / 2 := le_antisymm (not_lt.1 h2) (not_lt.1 h1)
        rw [if_neg (by linarith : ¬ b - (b.floor : Rat) < 1 / 2)]
        split
        · split <;> omega
        · omega

theorem log2Floor_lt (q : Rat) (hq : 0 < q) : q < (2 : Rat) ^ (log2Floor q + 1) := by
  have hn : 0 < q.num := Rat.num_pos.2 hq
  have hd : 0 < q.den := q.den_pos
  have hnn : q.num.toNat ≠ 0 := by omega
  have h1 : q.num.toNat < 2 ^ (Nat.log2 q.num.toNat + 1) := Nat.lt_log2_self
  have h2 : 2 ^ Nat.log2 q.den ≤ q.den := Nat.log2_self_le (by omega)
  unfold log2Floor
  dsimp only
  split
  · rename_i h
    rw [pow2_eq] at h
    rw [show ((Nat.log2 q.num.toNat : Int) - (Nat.log2 q.den : Int) - 1 + 1) =
      (Nat.log2 q.num.toNat : Int) - (Nat.log2 q.den : Int) by ring]
    exact h
  · have hdp : (0 : Rat) < q.den := by exact_mod_cast hd
    have h1' : (q.num.toNat : Rat) < 2 ^ (Nat.log2 q.num.toNat + 1) := by exact_mod_cast h1
    have h2' : (2 : Rat) ^ Nat.log2 q.den ≤ q.den := by exact_mod_cast h2
    have h3 : (q.num.toNat : Rat) = (q.num : Rat) := by
      have : ((q.num.toNat : Int) : Rat) = (q.num : Rat) := by congr 1; omega
      exact_mod_cast this
    have hqe : q * q.den = (q.num.toNat : Rat) := by rw [h3]; exact Rat.mul_den_eq_num q
    have h4 : q * q.den < (2 : Rat) ^ ((Nat.log2 q.num.toNat : Int) - (Nat.log2 q.den : Int) + 1) * q.den := by
      calc q * q.den = (q.num.toNat : Rat) := hqe
        _ < 2 ^ (Nat.log2 q.num.toNat + 1) := h1'
        _ = (2 : Rat) ^ ((Nat.log2 q.num.toNat : Int) - (Nat.log2 q.den : Int) + 1) * 2 ^ Nat.log2 q.den := by
            rw [← zpow_natCast (2 : Rat) (Nat.log2 q.den), ← zpow_add₀ (by norm_num), ← zpow_natCast (2 : Rat) (Nat.log2 q.num.toNat + 1)]
            congr 1
            push_cast
            ring
        _ ≤ (2 : Rat) ^ ((Nat.log2 q.num.toNat : Int) - (Nat.log2 q.den : Int) + 1) * q.den :=
            mul_le_mul_of_nonneg_left h2' (by positivity)
    exact lt_of_mul_lt_mul_right h4 hdp.le

theorem zpow_le_iff {a b : Int} : (2 : Rat) ^ a ≤ (2 : Rat) ^ b ↔ a ≤ b := zpow_le_zpow_iff_right₀ (by norm_num)

theorem zpow_lt_iff {a b : Int} : (2 : Rat) ^ a < (2 : Rat) ^ b ↔ a < b := zpow_lt_zpow_iff_right₀ (by norm_num)

theorem log2Floor_unique {q : Rat} {e : Int} (h1 : (2 : Rat) ^ e ≤ q) (h2 : q < (2 : Rat) ^ (e + 1)) : log2Floor q = e := by
  have hq : 0 < q := lt_of_lt_of_le (by positivity) h1
  have a := log2Floor_le q hq
  have b := log2Floor_lt q hq
  have c := zpow_lt_iff.1 (lt_of_le_of_lt h1 b)
  have d := zpow_lt_iff.1 (lt_of_le_of_lt a h2)
  omega

/-- The last place of a number. -/
def ulp (p : Nat) (q : Rat) : Rat := (2 : Rat) ^ (log2Floor q - ((p : Int) - 1))

theorem rndPos_eq (p : Nat) (q : Rat) : rndPos p q = (roundHalfEven (q / ulp p q) : Rat) * ulp p q := by
  unfold rndPos ulp
  dsimp only
  rw [pow2_eq]

theorem ulp_pos (p : Nat) (q : Rat) : 0 < ulp p q := by unfold ulp; positivity

theorem pow_scaled (p : Nat) (q : Rat) (hp : 1 ≤ p) : (2 : Rat) ^ (log2Floor q) = ((2 ^ (p - 1) : Int) : Rat) * ulp p q ∧
    (2 : Rat) ^ (log2Floor q + 1) = ((2 ^ p : Int) : Rat) * ulp p q := by
  unfold ulp
  constructor
  · push_cast
    rw [← zpow_natCast (2 : Rat) (p - 1), ← zpow_add₀ (by norm_num)]
    congr 1
    omega
  · push_cast
    rw [← zpow_natCast (2 : Rat) p, ← zpow_add₀ (by norm_num)]
    congr 1
    omega

theorem rndPos_bounds (p : Nat) (hp : 1 ≤ p) (q : Rat) (hq : 0 < q) :
    (2 : Rat) ^ (log2Floor q) ≤ rndPos p q ∧ rndPos p q ≤ (2 : Rat) ^ (log2Floor q + 1) := by
  obtain ⟨e1, e2⟩ := pow_scaled p q hp
  have hu := ulp_pos p q
  have a := log2Floor_le q hq
  have b := (log2Floor_lt q hq).le
  rw [rndPos_eq]
  rw [e1] at a ⊢
  rw [e2] at b ⊢
  constructor
  · apply mul_le_mul_of_nonneg_right _ hu.le
    have := roundHalfEven_mono ((le_div_iff₀ hu).2 a)
    rw [roundHalfEven_int] at this
    exact_mod_cast this
  · apply mul_le_mul_of_nonneg_right _ hu.le
    have := roundHalfEven_mono ((div_le_iff₀ hu).2 b)
    rw [roundHalfEven_int] at this
    exact_mod_cast this

theorem rndPos_mono (p : Nat) (hp : 1 ≤ p) {a b : Rat} (ha : 0 < a) (h : a ≤ b) : rndPos p a ≤ rndPos p b := by
  have hb : 0 < b := lt_of_lt_of_le ha h
  have hle : log2Floor a ≤ log2Floor b := by
    have := zpow_lt_iff.1 (lt_of_le_of_lt (le_trans (log2Floor_le a ha) h) (log2Floor_lt b hb))
    omega
  rcases Int.lt_or_eq_of_le hle with hlt | heq
  · refine le_trans (rndPos_bounds p hp a ha).2 (le_trans (zpow_le_iff.2 ?_) (rndPos_bounds p hp b hb).1)
    omega
  · rw [rndPos_eq, rndPos_eq]
    have hu : ulp p a = ulp p b := by unfold ulp; rw [heq]
    rw [hu]
    apply mul_le_mul_of_nonneg_right _ (ulp_pos p b).le
    exact_mod_cast roundHalfEven_mono (div_le_div_of_nonneg_right h (ulp_pos p b).le)

theorem rnd_pos (p : Nat) (hp : 1 ≤ p) {q : Rat} (hq : 0 < q) : 0 < rnd p q := by
  unfold rnd
  rw [if_neg hq.ne', if_neg (not_lt.2 hq.le)]
  exact lt_of_lt_of_le (by positivity) (rndPos_bounds p hp q hq).1

theorem rnd_neg (p : Nat) (q : Rat) : rnd p (-q) = -rnd p q := by
  unfold rnd
  rcases lt_trichotomy q 0 with h | h | h
  · rw [if_neg (by linarith : ¬ -q = 0), if_neg (by linarith), if_neg h.ne, if_pos h, neg_neg]
  · subst h; simp
  · rw [if_neg (by linarith : ¬ -q = 0), if_pos (by linarith), if_neg h.ne', if_neg (by linarith), neg_neg]

theorem rnd_zero (p : Nat) : rnd p 0 = 0 := by unfold rnd; rw [if_pos rfl]

theorem rnd_nonneg (p : Nat) (hp : 1 ≤ p) {q : Rat} (hq : 0 ≤ q) : 0 ≤ rnd p q := by
  rcases hq.lt_or_eq with h | h
  · exact (rnd_pos p hp h).le
  · rw [← h, rnd_zero]

/-- Rounding is monotone. -/
theorem rnd_mono (p : Nat) (hp : 1 ≤ p) {a b : Rat} (h : a ≤ b) : rnd p a ≤ rnd p b := by
  have pos : ∀ {a b : Rat}, 0 < a → a ≤ b → rnd p a ≤ rnd p b := by
    intro a b ha h
    have hb := lt_of_lt_of_le ha h
    unfold rnd
    rw [if_neg ha.ne', if_neg (not_lt.2 ha.le), if_neg hb.ne', if_neg (not_lt.2 hb.le)]
    exact rndPos_mono p hp ha h
  rcases le_or_gt b 0 with hb | hb
  · rcases hb.lt_or_eq with hb | hb
    · have := pos (a := -b) (b := -a) (by linarith) (by linarith)
      rw [rnd_neg, rnd_neg] at this
      linarith
    · subst hb
      have := rnd_nonneg p hp (q := -a) (by linarith)
      rw [rnd_neg] at this
      rw [rnd_zero]
      linarith
  · rcases le_or_gt a 0 with ha | ha
    · have h1 := rnd_nonneg p hp (q := -a) (by linarith)
      rw [rnd_neg] at h1
      have := (rnd_pos p hp hb).le
      linarith
    · exact pos ha h

/-- Rounding what is rounded changes nothing. -/
theorem rnd_rnd (p : Nat) (hp : 1 ≤ p) (q : Rat) : rnd p (rnd p q) = rnd p q := by
  have pos : ∀ {q : Rat}, 0 < q → rnd p (rnd p q) = rnd p q := by
    intro q hq
    have e : rnd p q = rndPos p q := by unfold rnd; rw [if_neg hq.ne', if_neg (not_lt.2 hq.le)]
    have hpos := rnd_pos p hp hq
    obtain ⟨b1, b2⟩ := rndPos_bounds p hp q hq
    rw [e] at hpos ⊢
    have e' : rnd p (rndPos p q) = rndPos p (rndPos p q) := by unfold rnd; rw [if_neg hpos.ne', if_neg (not_lt.2 hpos.le)]
    rw [e', rndPos_eq p (rndPos p q)]
    rcases b2.lt_or_eq with hlt | heq
    · have hl := log2Floor_unique b1 hlt
      have hu : ulp p (rndPos p q) = ulp p q := by unfold ulp; rw [hl]
      rw [hu, rndPos_eq, mul_div_cancel_right₀ _ (ulp_pos p q).ne', roundHalfEven_int]
    · have hl : log2Floor (rndPos p q) = log2Floor q + 1 := by
        apply log2Floor_unique
        · rw [heq]
        · rw [heq, zpow_lt_iff]; omega
      obtain ⟨s1, _⟩ := pow_scaled p (rndPos p q) hp
      rw [hl, ← heq] at s1
      have hu := ulp_pos p (rndPos p q)
      generalize rndPos p q = x at *
      have : x / ulp p x = ((2 ^ (p - 1) : Int) : Rat) := by rw [div_eq_iff hu.ne']; exact s1
      rw [this, roundHalfEven_int]
      exact s1.symm
  rcases lt_trichotomy q 0 with h | h | h
  · have := pos (q := -q) (by linarith)
    rw [rnd_neg, rnd_neg] at this
    linarith
  · subst h; rw [rnd_zero, rnd_zero]
  · exact pos h

end Knp.Store
