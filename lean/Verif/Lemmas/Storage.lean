import Verif.Model.Storage
import Verif.Spec.Storage
import Mathlib.Algebra.Order.Field.Rat
import Mathlib.Algebra.Order.Field.Basic
import Mathlib.Algebra.Order.Field.Power
import Mathlib.Data.List.Nodup
import Mathlib.Data.Rat.Floor
import Mathlib.Tactic.Ring
import Mathlib.Tactic.Linarith
import Mathlib.Tactic.FieldSimp
import Mathlib.Tactic.NormNum
import Mathlib.Tactic.Positivity
import Mathlib.Tactic.Push

/-! Helper lemmas for spike data files: rounding, grouping. -/

namespace Knp.Store
open Knp Knp.Spec

/-! ### Rounding -/

theorem pow2_eq (e : Int) : pow2 e = (2 : Rat) ^ e := by
  cases e with
  | ofNat n => simp [pow2]
  | negSucc n => simp [pow2, zpow_negSucc]

theorem roundHalfEven_err (q : Rat) : |(roundHalfEven q : Rat) - q| ≤ 1 / 2 := by
  have h1 : (q.floor : Rat) ≤ q := Rat.floor_le q
  have h2 : q < q.floor + 1 := by exact_mod_cast Rat.lt_floor_add_one q
  unfold roundHalfEven
  dsimp only
  rw [abs_le]
  split
  · constructor <;> linarith
  · split
    · push_cast; constructor <;> linarith
    · split
      · constructor <;> linarith
      · push_cast; constructor <;> linarith

theorem roundHalfEven_int (z : Int) : roundHalfEven (z : Rat) = z := by
  unfold roundHalfEven
  dsimp only
  rw [Rat.floor_intCast]
  rw [if_pos (by simp)]

theorem log2Floor_le (q : Rat) (hq : 0 < q) : (2 : Rat) ^ (log2Floor q) ≤ q := by
  have hn : 0 < q.num := Rat.num_pos.2 hq
  have hd : 0 < q.den := q.den_pos
  have hnn : q.num.toNat ≠ 0 := by omega
  have h1 : 2 ^ Nat.log2 q.num.toNat ≤ q.num.toNat := Nat.log2_self_le hnn
  have h2 : q.den < 2 ^ (Nat.log2 q.den + 1) := Nat.lt_log2_self
  have hqe : q = (q.num.toNat : Rat) / (q.den : Rat) := by
    have : ((q.num.toNat : Int) : Rat) = (q.num : Rat) := by
      congr 1
      omega
    have h3 : (q.num.toNat : Rat) = (q.num : Rat) := by exact_mod_cast this
    rw [h3]
    exact (Rat.num_div_den q).symm
  unfold log2Floor
  dsimp only
  rw [pow2_eq]
  split
  · have hdp : (0 : Rat) < q.den := by exact_mod_cast hd
    have h1' : (2 : Rat) ^ Nat.log2 q.num.toNat ≤ q.num.toNat := by exact_mod_cast h1
    have h2' : (q.den : Rat) ≤ 2 ^ (Nat.log2 q.den + 1) := by exact_mod_cast h2.le
    rw [hqe, le_div_iff₀ hdp]
    calc (2 : Rat) ^ ((Nat.log2 (q.num.toNat / q.den : Rat).num.toNat : Int) - (Nat.log2 (q.num.toNat / q.den : Rat).den : Int) - 1) * q.den
        = (2 : Rat) ^ ((Nat.log2 q.num.toNat : Int) - (Nat.log2 q.den : Int) - 1) * q.den := by rw [← hqe]
      _ ≤ (2 : Rat) ^ ((Nat.log2 q.num.toNat : Int) - (Nat.log2 q.den : Int) - 1) * 2 ^ (Nat.log2 q.den + 1) :=
          mul_le_mul_of_nonneg_left h2' (by positivity)
      _ = (2 : Rat) ^ Nat.log2 q.num.toNat := by
          rw [← zpow_natCast (2 : Rat) (Nat.log2 q.den + 1), ← zpow_add₀ (by norm_num), ← zpow_natCast (2 : Rat) (Nat.log2 q.num.toNat)]
          congr 1
          push_cast
          ring
      _ ≤ q.num.toNat := h1'
  · linarith

theorem rnd_err (p : Nat) (q : Rat) (hq : 0 < q) : |rnd p q - q| ≤ q * (2 : Rat) ^ (-(p : Int)) := by
  have hr : rnd p q = rndPos p q := by
    unfold rnd
    rw [if_neg hq.ne', if_neg (not_lt.2 hq.le)]
  have hl := log2Floor_le q hq
  rw [hr]
  unfold rndPos
  dsimp only
  rw [pow2_eq]
  generalize log2Floor q = e at *
  have hu : (0 : Rat) < 2 ^ (e - ((p : Int) - 1)) := by positivity
  have h1 := roundHalfEven_err (q / 2 ^ (e - ((p : Int) - 1)))
  have h2 : (roundHalfEven (q / 2 ^ (e - ((p : Int) - 1))) : Rat) * 2 ^ (e - ((p : Int) - 1)) - q =
      ((roundHalfEven (q / 2 ^ (e - ((p : Int) - 1))) : Rat) - q / 2 ^ (e - ((p : Int) - 1))) * 2 ^ (e - ((p : Int) - 1)) := by
    rw [sub_mul, div_mul_cancel₀ _ hu.ne']
  rw [h2, abs_mul, abs_of_pos hu]
  calc _ ≤ 1 / 2 * (2 : Rat) ^ (e - ((p : Int) - 1)) := mul_le_mul_of_nonneg_right h1 hu.le
    _ = (2 : Rat) ^ e * (2 : Rat) ^ (-(p : Int)) := by
        rw [← zpow_add₀ (by norm_num : (2 : Rat) ≠ 0), show (1 / 2 : Rat) = (2 : Rat) ^ (-1 : Int) by norm_num,
          ← zpow_add₀ (by norm_num : (2 : Rat) ≠ 0)]
        congr 1
        ring
    _ ≤ q * (2 : Rat) ^ (-(p : Int)) := mul_le_mul_of_nonneg_right hl (by positivity)

theorem rnd_nat (p n : Nat) (hn : n < 2 ^ p) : rnd p (n : Rat) = n := by
  rcases Nat.eq_zero_or_pos n with rfl | hpos
  · simp [rnd]
  have hq : (0 : Rat) < n := by exact_mod_cast hpos
  have hr : rnd p (n : Rat) = rndPos p n := by
    unfold rnd
    rw [if_neg hq.ne', if_neg (not_lt.2 hq.le)]
  have hlog : Nat.log2 n < p := (Nat.log2_lt (by omega)).2 hn
  have hl : log2Floor (n : Rat) = (Nat.log2 n : Int) := by
    unfold log2Floor
    dsimp only
    have h1 : (n : Rat).num.toNat = n := by simp
    have h2 : (n : Rat).den = 1 := by simp
    rw [h1, h2, show Nat.log2 1 = 0 by decide, pow2_eq]
    rw [if_neg]
    · simp
    · rw [not_lt]
      have := Nat.log2_self_le (n := n) (by omega)
      have h3 : ((2 : Rat) ^ Nat.log2 n) ≤ n := by exact_mod_cast this
      simpa using h3
  rw [hr]
  unfold rndPos
  dsimp only
  rw [hl, pow2_eq]
  obtain ⟨k, hk⟩ : ∃ k : Nat, (Nat.log2 n : Int) - ((p : Int) - 1) = -(k : Int) := ⟨p - 1 - Nat.log2 n, by omega⟩
  rw [hk, zpow_neg, zpow_natCast, div_inv_eq_mul]
  have : (n : Rat) * 2 ^ k = (((n * 2 ^ k : Nat) : Int) : Rat) := by push_cast; ring
  rw [this, roundHalfEven_int]
  push_cast
  have h2k : ((2 : Rat) ^ k) ≠ 0 := by positivity
  field_simp

/-! ### Grouping -/

theorem spikesAt_nil_of (ms : List SpikeMessage) (s : Nat) (h : s ∉ ms.map (fun m => m.header.sendTime)) : spikesAt ms s = [] := by
  unfold spikesAt
  have : ms.filter (fun m => decide (m.header.sendTime = s)) = [] := by
    rw [List.filter_eq_nil_iff]
    intro m hm he
    exact h (List.mem_map.2 ⟨m, hm, by simpa using he⟩)
  rw [this]
  rfl

theorem spikesAt_cons (m : SpikeMessage) (ms : List SpikeMessage) (s : Nat) :
    spikesAt (m :: ms) s = (if m.header.sendTime = s then m.neuronIndexes else []) ++ spikesAt ms s := by
  unfold spikesAt
  by_cases h : m.header.sendTime = s
  · rw [List.filter_cons_of_pos (by simpa using h), if_pos h]
    rfl
  · rw [List.filter_cons_of_neg (by simpa using h), if_neg h]
    rfl

theorem addSpike_times (uid step idx : Nat) (ms : List SpikeMessage) :
    (addSpike uid step idx ms).map (fun m => m.header.sendTime) =
      if step ∈ ms.map (fun m => m.header.sendTime) then ms.map (fun m => m.header.sendTime)
      else ms.map (fun m => m.header.sendTime) ++ [step] := by
  induction ms with
  | nil => simp [addSpike]
  | cons m ms ih =>
    unfold addSpike
    by_cases h : m.header.sendTime = step
    · rw [if_pos h, if_pos (by simp [h])]
      rfl
    · rw [if_neg h, List.map_cons, ih, List.map_cons]
      by_cases h2 : step ∈ ms.map (fun m => m.header.sendTime)
      · rw [if_pos h2, if_pos (List.mem_cons_of_mem _ h2)]
      · rw [if_neg h2, if_neg (by
          rw [List.mem_cons]
          rintro (h3 | h3)
          · exact h h3.symm
          · exact h2 h3)]
        rfl

theorem addSpike_spikes (uid step idx : Nat) (ms : List SpikeMessage) (hn : (ms.map (fun m => m.header.sendTime)).Nodup) (s : Nat) :
    spikesAt (addSpike uid step idx ms) s = spikesAt ms s ++ if step = s then [idx] else [] := by
  induction ms with
  | nil =>
    unfold addSpike
    rw [spikesAt_cons]
    simp [spikesAt]
  | cons m ms ih =>
    rw [List.map_cons, List.nodup_cons] at hn
    unfold addSpike
    by_cases h : m.header.sendTime = step
    · rw [if_pos h, spikesAt_cons, spikesAt_cons]
      dsimp only
      by_cases hs : step = s
      · subst hs
        rw [if_pos h, if_pos h, if_pos rfl, spikesAt_nil_of ms step (h ▸ hn.1)]
        simp
      · rw [if_neg (by rw [h]; exact hs), if_neg (by rw [h]; exact hs), if_neg hs]
        simp
    · rw [if_neg h, spikesAt_cons, spikesAt_cons, ih hn.2, List.append_assoc]

theorem addSpike_mem (uid step idx : Nat) (ms : List SpikeMessage) (h : ∀ m ∈ ms, m.header.senderUid = uid ∧ m.neuronIndexes ≠ []) :
    ∀ m ∈ addSpike uid step idx ms, m.header.senderUid = uid ∧ m.neuronIndexes ≠ [] := by
  induction ms with
  | nil =>
    intro m hm
    simp [addSpike] at hm
    subst hm
    exact ⟨rfl, by simp⟩
  | cons a ms ih =>
    unfold addSpike
    by_cases hs : a.header.sendTime = step
    · rw [if_pos hs]
      intro m hm
      rcases List.mem_cons.1 hm with rfl | hm
      · exact ⟨(h a (List.mem_cons_self ..)).1, by simp⟩
      · exact h m (List.mem_cons_of_mem _ hm)
    · rw [if_neg hs]
      intro m hm
      rcases List.mem_cons.1 hm with rfl | hm
      · exact h _ (List.mem_cons_self ..)
      · exact ih (fun m hm => h m (List.mem_cons_of_mem _ hm)) m hm

/-- Adding (step, index) pairs one by one. -/
def addPairs (uid : UID) (xs : List (Nat × Nat)) (acc : List SpikeMessage) : List SpikeMessage :=
  xs.foldl (fun acc x => addSpike uid x.1 x.2 acc) acc

theorem addPairs_spec (uid : UID) (xs : List (Nat × Nat)) (acc : List SpikeMessage)
    (hn : (acc.map (fun m => m.header.sendTime)).Nodup) (hm : ∀ m ∈ acc, m.header.senderUid = uid ∧ m.neuronIndexes ≠ []) :
    ((addPairs uid xs acc).map (fun m => m.header.sendTime)).Nodup ∧
    (∀ m ∈ addPairs uid xs acc, m.header.senderUid = uid ∧ m.neuronIndexes ≠ []) ∧
    ∀ s, spikesAt (addPairs uid xs acc) s = spikesAt acc s ++ (xs.filter (fun x => decide (x.1 = s))).map (fun x => x.2) := by
  induction xs generalizing acc with
  | nil => exact ⟨hn, hm, fun s => by simp [addPairs]⟩
  | cons x xs ih =>
    have hn' : ((addSpike uid x.1 x.2 acc).map (fun m => m.header.sendTime)).Nodup := by
      rw [addSpike_times]
      split
      · exact hn
      · rename_i h
        exact List.nodup_append.2 ⟨hn, by simp, by
          intro a ha b hb
          simp at hb
          subst hb
          rintro rfl
          exact h ha⟩
    obtain ⟨h1, h2, h3⟩ := ih (addSpike uid x.1 x.2 acc) hn' (addSpike_mem uid x.1 x.2 acc hm)
    refine ⟨h1, h2, fun s => ?_⟩
    have := h3 s
    unfold addPairs at this ⊢
    rw [List.foldl_cons, this, addSpike_spikes uid x.1 x.2 acc hn]
    by_cases hs : x.1 = s
    · rw [if_pos hs, List.filter_cons_of_pos (by simpa using hs)]
      simp
    · rw [if_neg hs, List.filter_cons_of_neg (by simpa using hs)]
      simp

theorem groupLoop_eq {X : Type} (uid : UID) (tps : Rat) (xs : List X) (a : X → Int) (f : X → Rat) (g : X → Nat)
    (acc : List SpikeMessage) (h : ∀ x ∈ xs, castStep (toFloat (f x / tps)) = .ok (g x)) :
    groupLoop uid tps (xs.map a) (xs.map f) acc = .ok (addPairs uid (xs.map (fun x => (g x, narrow32 (a x)))) acc) := by
  induction xs generalizing acc with
  | nil => rfl
  | cons x xs ih =>
    rw [List.map_cons, List.map_cons, groupLoop, h x (List.mem_cons_self ..)]
    dsimp only
    rw [ih _ (fun y hy => h y (List.mem_cons_of_mem _ hy))]
    rfl

theorem nodup_filter_short (ms : List SpikeMessage) (hn : (ms.map (fun m => m.header.sendTime)).Nodup) (s : Nat) :
    ms.filter (fun m => decide (m.header.sendTime = s)) = [] ∨
    ∃ m, ms.filter (fun m => decide (m.header.sendTime = s)) = [m] := by
  induction ms with
  | nil => exact Or.inl rfl
  | cons m ms ih =>
    rw [List.map_cons, List.nodup_cons] at hn
    by_cases h : m.header.sendTime = s
    · right
      refine ⟨m, ?_⟩
      rw [List.filter_cons_of_pos (by simpa using h)]
      congr 1
      rw [List.filter_eq_nil_iff]
      intro x hx he
      exact hn.1 (List.mem_map.2 ⟨x, hx, by simp at he; rw [he, h]⟩)
    · rw [List.filter_cons_of_neg (by simpa using h)]
      exact ih hn.2

theorem spikesAt_perm_eq {a b : List SpikeMessage} (hp : a.Perm b) (hn : (b.map (fun m => m.header.sendTime)).Nodup) (s : Nat) :
    spikesAt a s = spikesAt b s := by
  unfold spikesAt
  have h := hp.filter (fun m => decide (m.header.sendTime = s))
  rcases nodup_filter_short b hn s with h1 | ⟨m, h1⟩
  · rw [h1] at h ⊢
    rw [h.eq_nil]
  · rw [h1] at h ⊢
    rw [List.perm_singleton.1 h]

theorem spikesAt_perm {a b : List SpikeMessage} (hp : a.Perm b) (s : Nat) : (spikesAt a s).Perm (spikesAt b s) :=
  (hp.filter _).flatMap_right _

/-- Grouping and sorting pairs. -/
theorem sortPairs_loaded (uid : UID) (xs : List (Nat × Nat)) :
    Loaded uid (fun s => (xs.filter (fun x => decide (x.1 = s))).map (fun x => x.2))
      (sortBy (fun a b => decide (a.header.sendTime ≤ b.header.sendTime)) (addPairs uid xs [])) := by
  obtain ⟨h1, h2, h3⟩ := addPairs_spec uid xs [] List.nodup_nil (by simp)
  have hp := sortBy_perm (fun a b : SpikeMessage => decide (a.header.sendTime ≤ b.header.sendTime)) (addPairs uid xs [])
  have hs := sortBy_sorted (fun a b : SpikeMessage => decide (a.header.sendTime ≤ b.header.sendTime))
    (fun a b => by simp; omega) (fun a b c h h' => by simp at *; omega) (addPairs uid xs [])
  constructor
  · have hn : (sortBy (fun a b : SpikeMessage => decide (a.header.sendTime ≤ b.header.sendTime)) (addPairs uid xs [])).Pairwise
        (fun a b => a.header.sendTime ≠ b.header.sendTime) := by
      have := (hp.map (fun m => m.header.sendTime)).nodup_iff.2 h1
      exact List.pairwise_map.1 this
    exact (hs.and hn).imp (fun {a b} h => by have := h.1; simp at this; omega)
  · intro m hm
    exact h2 m (hp.mem_iff.1 hm)
  · intro s
    rw [spikesAt_perm_eq hp h1, h3 s]
    rfl

/-- The loaded list is determined by its specification. -/
theorem loaded_unique {uid : UID} {sp : Nat → List Nat} {a b : List SpikeMessage} (ha : Loaded uid sp a) (hb : Loaded uid sp b) : a = b := by
  have key : ∀ (a b : List SpikeMessage), (a.Pairwise (fun x y => x.header.sendTime < y.header.sendTime)) →
      (b.Pairwise (fun x y => x.header.sendTime < y.header.sendTime)) →
      (∀ m ∈ a, m.header.senderUid = uid ∧ m.neuronIndexes ≠ []) → (∀ m ∈ b, m.header.senderUid = uid ∧ m.neuronIndexes ≠ []) →
      (∀ s, spikesAt a s = spikesAt b s) → a = b := by
    have later : ∀ (l : List SpikeMessage) (s : Nat), (∀ m ∈ l, s < m.header.sendTime) → spikesAt l s = [] := by
      intro l s h
      apply spikesAt_nil_of
      intro hm
      obtain ⟨m, hm1, hm2⟩ := List.mem_map.1 hm
      have := h m hm1
      omega
    intro a
    induction a with
    | nil =>
      intro b _ _ _ hb2 hsp
      cases b with
      | nil => rfl
      | cons y b =>
        have := hsp y.header.sendTime
        rw [spikesAt_cons, if_pos rfl] at this
        have h2 := (hb2 y (List.mem_cons_self ..)).2
        simp [spikesAt] at this
        exact absurd this.1 h2
    | cons x a ih =>
      intro b ha1 hb1 ha2 hb2 hsp
      rw [List.pairwise_cons] at ha1
      cases b with
      | nil =>
        have := hsp x.header.sendTime
        rw [spikesAt_cons, if_pos rfl] at this
        have h2 := (ha2 x (List.mem_cons_self ..)).2
        simp [spikesAt] at this
        exact absurd this.1 h2
      | cons y b =>
        rw [List.pairwise_cons] at hb1
        have hxn := (ha2 x (List.mem_cons_self ..)).2
        have hyn := (hb2 y (List.mem_cons_self ..)).2
        have hla := later a x.header.sendTime ha1.1
        have hlb := later b y.header.sendTime hb1.1
        have ht : x.header.sendTime = y.header.sendTime := by
          rcases Nat.lt_trichotomy x.header.sendTime y.header.sendTime with h | h | h
          · have := hsp x.header.sendTime
            rw [spikesAt_cons, if_pos rfl, hla, spikesAt_cons, if_neg (by omega),
              later b x.header.sendTime (fun m hm => by have := hb1.1 m hm; omega)] at this
            simp at this
            exact absurd this hxn
          · exact h
          · have := hsp y.header.sendTime
            rw [spikesAt_cons, if_neg (by omega), later a y.header.sendTime (fun m hm => by have := ha1.1 m hm; omega),
              spikesAt_cons, if_pos rfl, hlb] at this
            simp at this
            exact absurd this hyn
        have hi : x.neuronIndexes = y.neuronIndexes := by
          have := hsp x.header.sendTime
          rw [spikesAt_cons, if_pos rfl, hla, spikesAt_cons, if_pos ht.symm, ht, hlb] at this
          simpa using this
        have hxy : x = y := by
          obtain ⟨⟨u, t⟩, i⟩ := x
          obtain ⟨⟨u', t'⟩, i'⟩ := y
          have hu := (ha2 _ (List.mem_cons_self ..)).1
          have hu' := (hb2 _ (List.mem_cons_self ..)).1
          dsimp only at *
          subst hu hu' ht hi
          rfl
        subst hxy
        congr 1
        apply ih b ha1.2 hb1.2 (fun m hm => ha2 m (List.mem_cons_of_mem _ hm)) (fun m hm => hb2 m (List.mem_cons_of_mem _ hm))
        intro s
        have := hsp s
        rw [spikesAt_cons, spikesAt_cons] at this
        exact List.append_cancel_left this
  exact key a b ha.ascending hb.ascending ha.sender hb.sender (fun s => (ha.spikes s).trans (hb.spikes s).symm)

/-- The (step, index) pairs of a list of messages. -/
def pairsOf (ms : List SpikeMessage) : List (Nat × Nat) :=
  ms.flatMap (fun m => m.neuronIndexes.map (fun i => (m.header.sendTime, i)))

theorem pairsOf_filter (ms : List SpikeMessage) (s : Nat) :
    ((pairsOf ms).filter (fun x => decide (x.1 = s))).map (fun x => x.2) = spikesAt ms s := by
  induction ms with
  | nil => rfl
  | cons m ms ih =>
    rw [spikesAt_cons, ← ih]
    unfold pairsOf
    rw [List.flatMap_cons, List.filter_append, List.map_append]
    congr 1
    by_cases h : m.header.sendTime = s
    · rw [if_pos h, List.filter_map, List.map_map]
      have : m.neuronIndexes.filter ((fun x : Nat × Nat => decide (x.1 = s)) ∘ fun i => (m.header.sendTime, i)) = m.neuronIndexes := by
        rw [List.filter_eq_self]
        intro i _
        simpa using h
      rw [this]
      simp [Function.comp_def]
    · rw [if_neg h, List.filter_map]
      have : m.neuronIndexes.filter ((fun x : Nat × Nat => decide (x.1 = s)) ∘ fun i => (m.header.sendTime, i)) = [] := by
        rw [List.filter_eq_nil_iff]
        intro i _
        simpa using h
      rw [this]
      rfl

theorem pairsOf_mem (ms : List SpikeMessage) (x : Nat × Nat) (h : x ∈ pairsOf ms) :
    ∃ m ∈ ms, m.header.sendTime = x.1 ∧ x.2 ∈ m.neuronIndexes := by
  obtain ⟨m, hm, hx⟩ := List.mem_flatMap.1 h
  obtain ⟨i, hi, rfl⟩ := List.mem_map.1 hx
  exact ⟨m, hm, rfl, hi⟩

theorem castStep_nat (n : Nat) (h : n < two64) : castStep (n : Rat) = .ok n := by
  unfold castStep
  have h1 : ¬((n : Rat) ≤ -1 ∨ (two64 : Rat) ≤ n) := by
    rintro (h1 | h1)
    · have : (0 : Rat) ≤ n := by positivity
      linarith
    · have : two64 ≤ n := by exact_mod_cast h1
      omega
  rw [if_neg h1]
  have : ((n : Rat)).floor = (n : Int) := by
    have := Rat.floor_intCast (n : Int)
    simpa using this
  rw [this, Int.toNat_natCast]

theorem narrow32_nat (i : Nat) (h : i < 4294967296) : narrow32 (i : Int) = i := by
  unfold narrow32
  omega

end Knp.Store
