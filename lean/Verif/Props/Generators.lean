import Verif.Model.Generators
import Verif.Spec.Generators
import Verif.Props.Population
import Mathlib.Data.List.Nodup

/-!
# C65 - C68, C94: connection and population generators
-/

namespace Knp.Props
open Knp Knp.Gen Knp.Spec

variable {P R N : Type}

private theorem loop_filterMap (gen : SynGen P) (f : Nat → Option (Synapse P)) (n i : Nat) (acc : List (Synapse P))
    (h : ∀ k, i ≤ k → k < i + n → gen k = .ok (f k)) :
    loop gen n i acc = .ok (acc ++ (List.range' i n).filterMap f) := by
  induction n generalizing i acc with
  | zero => simp [loop]
  | succ n ih =>
    rw [List.range'_succ, loop, h i (by omega) (by omega)]
    have ih' := fun a => ih (i + 1) a (fun k h1 h2 => h k (by omega) (by omega))
    cases hf : f i with
    | none => simp [ih', hf]
    | some s => simp [ih', hf]

private theorem construct_filterMap (pre post : UID) (gen : SynGen P) (f : Nat → Option (Synapse P)) (n : Nat)
    (h : ∀ k, k < n → gen k = .ok (f k)) :
    construct pre post gen n = .ok ⟨pre, post, (List.range n).filterMap f⟩ := by
  unfold construct
  rw [loop_filterMap gen f n 0 [] (fun k _ h2 => h k (by omega)), List.range_eq_range']
  simp

private theorem construct_map (pre post : UID) (gen : SynGen P) (f : Nat → Synapse P) (n : Nat)
    (h : ∀ k, k < n → gen k = .ok (some (f k))) :
    construct pre post gen n = .ok ⟨pre, post, (List.range n).map f⟩ := by
  rw [construct_filterMap pre post gen (fun k => some (f k)) n h]
  congr 2
  rw [← List.filterMap_eq_map]
  rfl

theorem connects_map (f : Nat → Synapse P) (n : Nat) (S : Nat → Nat → Prop)
    (inj : ∀ a b, a < n → b < n → (f a).src = (f b).src → (f a).dst = (f b).dst → a = b)
    (sound : ∀ a, a < n → S (f a).src (f a).dst) (complete : ∀ i j, S i j → ∃ a, a < n ∧ (f a).src = i ∧ (f a).dst = j) :
    ConnectsExactly ((List.range n).map f) S := by
  have hnd : (ends ((List.range n).map f)).Nodup := by
    unfold ends
    rw [List.map_map]
    apply List.Nodup.map_on _ List.nodup_range
    intro a ha b hb hab
    have := Prod.mk.inj hab
    exact inj a b (List.mem_range.1 ha) (List.mem_range.1 hb) this.1 this.2
  intro i j
  constructor
  · intro hs
    obtain ⟨a, ha, h1, h2⟩ := complete i j hs
    apply List.count_eq_one_of_mem hnd
    unfold ends
    rw [List.map_map, List.mem_map]
    exact ⟨a, List.mem_range.2 ha, by simp [h1, h2]⟩
  · intro hs
    apply List.count_eq_zero_of_not_mem
    intro hm
    unfold ends at hm
    rw [List.map_map, List.mem_map] at hm
    obtain ⟨a, ha, hab⟩ := hm
    have := Prod.mk.inj hab
    have hsa := sound a (List.mem_range.1 ha)
    apply hs
    rw [← this.1, ← this.2]
    exact hsa

private theorem mul_u64 {a b : Nat} (h : a * b < two64) : mulU64 a b = a * b := Nat.mod_eq_of_lt h

private theorem div_lt_of_lt_mul' {i n m : Nat} (h : i < n * m) : i / n < m := Nat.div_lt_of_lt_mul h

private theorem pair_index {n m i j : Nat} (hi : i < n) (hj : j < m) :
    n * j + i < n * m ∧ (n * j + i) % n = i ∧ (n * j + i) / n = j := by
  have hn : 0 < n := by omega
  refine ⟨?_, ?_, ?_⟩
  · calc n * j + i < n * j + n := by omega
      _ = n * (j + 1) := by rw [Nat.mul_add, Nat.mul_one]
      _ ≤ n * m := Nat.mul_le_mul_left _ (by omega)
  · rw [Nat.mul_add_mod, Nat.mod_eq_of_lt hi]
  · rw [Nat.mul_add_div hn, Nat.div_eq_of_lt hi]; omega

theorem eq_of_mod_div {n a b : Nat} (h1 : a % n = b % n) (h2 : a / n = b / n) : a = b := by
  rw [← Nat.div_add_mod a n, ← Nat.div_add_mod b n, h1, h2]

/-! ## C65 -/

theorem allToAll_eq (pre post : UID) (n m : Nat) (par : Nat → Nat → P) (h : n * m < two64) :
    allToAll pre post n m par =
      .ok ⟨pre, post, (List.range (n * m)).map (fun i => ⟨par (i % n) (i / n), i % n, i / n⟩)⟩ := by
  unfold allToAll
  rw [mul_u64 h]
  apply construct_map
  intro k hk
  unfold allToAllGen
  rw [if_neg (by rintro rfl; simp at hk)]

/-- C65. `all_to_all(n, m)` always succeeds and connects exactly the pairs `(i, j)` with `i < n`, `j < m`, each once; the
parameters of each synapse are what the parameter generator gives for its pair. Any sizes whose product fits `size_t`. -/
theorem C65_all_to_all (pre post : UID) (n m : Nat) (par : Nat → Nat → P) (h : n * m < two64) :
    ∃ l, allToAll pre post n m par = .ok ⟨pre, post, l⟩ ∧ l.length = n * m ∧
      ConnectsExactly l (fun i j => i < n ∧ j < m) ∧ ∀ s ∈ l, s.params = par s.src s.dst := by
  refine ⟨_, allToAll_eq pre post n m par h, by simp, ?_, ?_⟩
  · apply connects_map
    · intro a b _ _ h1 h2
      exact eq_of_mod_div h1 h2
    · intro a ha
      have hn : 0 < n := by
        rcases Nat.eq_zero_or_pos n with rfl | h
        · simp at ha
        · exact h
      exact ⟨Nat.mod_lt _ hn, div_lt_of_lt_mul' ha⟩
    · rintro i j ⟨hi, hj⟩
      obtain ⟨h1, h2, h3⟩ := pair_index hi hj
      exact ⟨n * j + i, h1, h2, h3⟩
  · intro s hs
    obtain ⟨k, _, rfl⟩ := List.mem_map.1 hs
    rfl

/-- C65. Connecting two populations is `all_to_all` with their UIDs and sizes. -/
theorem C65_connect_populations (src dst : UID) (n m : Nat) (par : Nat → Nat → P) (h : n * m < two64) :
    ∃ l, connectPopulations src dst n m par = .ok ⟨src, dst, l⟩ ∧ ConnectsExactly l (fun i j => i < n ∧ j < m) := by
  obtain ⟨l, h1, _, h2, _⟩ := C65_all_to_all src dst n m par h
  exact ⟨l, h1, h2⟩

example : allToAll 1 2 2 3 (fun i j => 10 * i + j) =
    .ok ⟨1, 2, [⟨0, 0, 0⟩, ⟨10, 1, 0⟩, ⟨1, 0, 1⟩, ⟨11, 1, 1⟩, ⟨2, 0, 2⟩, ⟨12, 1, 2⟩]⟩ ∧ 2 * 3 < two64 := by decide

/-! ## C66 -/

theorem aligned_ge_eq (pre post : UID) (n m : Nat) (par : Nat → Nat → P) (hm : 1 ≤ m) (h : m ≤ n) :
    aligned pre post n m par =
      .ok ⟨pre, post, (List.range n).map (fun i => ⟨par i (i / (n / m)), i, i / (n / m)⟩)⟩ := by
  unfold aligned
  rw [Nat.max_eq_left h]
  apply construct_map
  intro k _
  unfold alignedGen
  have hq : n / m ≠ 0 := by
    have := Nat.div_pos h (by omega : 0 < m)
    omega
  rw [if_pos h, if_neg (by omega), if_neg hq]

theorem aligned_lt_eq (pre post : UID) (n m : Nat) (par : Nat → Nat → P) (hn : 1 ≤ n) (h : n < m) :
    aligned pre post n m par =
      .ok ⟨pre, post, (List.range m).map (fun i => ⟨par (i / (m / n)) i, i / (m / n), i⟩)⟩ := by
  unfold aligned
  rw [Nat.max_eq_right (by omega)]
  apply construct_map
  intro k _
  unfold alignedGen
  have hq : m / n ≠ 0 := by
    have := Nat.div_pos (by omega : n ≤ m) (by omega : 0 < n)
    omega
  rw [if_neg (by omega), if_neg (by omega), if_neg hq]

private theorem block_iff {q i j : Nat} (hq : 0 < q) : i / q = j ↔ j * q ≤ i ∧ i < (j + 1) * q := by
  rw [Nat.div_eq_iff hq]
  constructor
  · rintro ⟨h1, h2⟩
    refine ⟨h1, ?_⟩
    rw [Nat.add_mul]; omega
  · rintro ⟨h1, h2⟩
    refine ⟨h1, ?_⟩
    rw [Nat.add_mul] at h2; omega

/-- C66, divisible sizes, larger source: neuron `j` of the target gets exactly the consecutive block of sources
`[j*q, (j+1)*q)`, `q = n/m`, each source exactly one synapse, all ends inside the populations. -/
theorem C66_divisible_partial (pre post : UID) (n m : Nat) (par : Nat → Nat → P) (hm : 1 ≤ m) (hle : m ≤ n) (hd : m ∣ n) :
    ∃ l, aligned pre post n m par = .ok ⟨pre, post, l⟩ ∧ l.length = n ∧ Valid n m l ∧
      ConnectsExactly l (fun i j => j < m ∧ j * (n / m) ≤ i ∧ i < (j + 1) * (n / m)) ∧
      ∀ s ∈ l, s.params = par s.src s.dst := by
  have hq : 0 < n / m := Nat.div_pos hle (by omega)
  have hmul : m * (n / m) = n := Nat.mul_div_cancel' hd
  have hdiv : ∀ a, a < n → a / (n / m) < m := by
    intro a ha
    apply Nat.div_lt_of_lt_mul
    rw [Nat.mul_comm, hmul]; exact ha
  refine ⟨_, aligned_ge_eq pre post n m par hm hle, by simp, ?_, ?_, ?_⟩
  · intro s hs
    obtain ⟨k, hk, rfl⟩ := List.mem_map.1 hs
    exact ⟨List.mem_range.1 hk, hdiv k (List.mem_range.1 hk)⟩
  · apply connects_map
    · intro a b _ _ h1 _
      exact h1
    · intro a ha
      exact ⟨hdiv a ha, (block_iff hq).1 rfl⟩
    · rintro i j ⟨hj, h1, h2⟩
      refine ⟨i, ?_, rfl, (block_iff hq).2 ⟨h1, h2⟩⟩
      have : (j + 1) * (n / m) ≤ m * (n / m) := Nat.mul_le_mul_right _ (by omega)
      omega
  · intro s hs
    obtain ⟨k, _, rfl⟩ := List.mem_map.1 hs
    rfl

/-- C66, divisible sizes, larger target: the mirror image. -/
theorem C66_divisible_target_partial (pre post : UID) (n m : Nat) (par : Nat → Nat → P) (hn : 1 ≤ n) (hlt : n < m)
    (hd : n ∣ m) :
    ∃ l, aligned pre post n m par = .ok ⟨pre, post, l⟩ ∧ l.length = m ∧ Valid n m l ∧
      ConnectsExactly l (fun i j => i < n ∧ i * (m / n) ≤ j ∧ j < (i + 1) * (m / n)) ∧
      ∀ s ∈ l, s.params = par s.src s.dst := by
  have hq : 0 < m / n := Nat.div_pos (by omega) (by omega)
  have hmul : n * (m / n) = m := Nat.mul_div_cancel' hd
  have hdiv : ∀ a, a < m → a / (m / n) < n := by
    intro a ha
    apply Nat.div_lt_of_lt_mul
    rw [Nat.mul_comm, hmul]; exact ha
  refine ⟨_, aligned_lt_eq pre post n m par hn hlt, by simp, ?_, ?_, ?_⟩
  · intro s hs
    obtain ⟨k, hk, rfl⟩ := List.mem_map.1 hs
    exact ⟨hdiv k (List.mem_range.1 hk), List.mem_range.1 hk⟩
  · apply connects_map
    · intro a b _ _ _ h2
      exact h2
    · intro a ha
      exact ⟨hdiv a ha, (block_iff hq).1 rfl⟩
    · rintro i j ⟨hi, h1, h2⟩
      refine ⟨j, ?_, (block_iff hq).2 ⟨h1, h2⟩, rfl⟩
      have : (i + 1) * (m / n) ≤ n * (m / n) := Nat.mul_le_mul_right _ (by omega)
      omega
  · intro s hs
    obtain ⟨k, _, rfl⟩ := List.mem_map.1 hs
    rfl

/-- C66, exactly when it is wrong: for non-empty populations all ends are inside iff the larger size is a multiple of the
smaller one. -/
theorem C66_valid_iff (pre post : UID) (n m : Nat) (par : Nat → Nat → P) (hn : 1 ≤ n) (hm : 1 ≤ m) :
    ∃ l, aligned pre post n m par = .ok ⟨pre, post, l⟩ ∧ l.length = max n m ∧ (Valid n m l ↔ m ∣ n ∨ n ∣ m) := by
  have key : ∀ a b : Nat, 1 ≤ b → b ≤ a → (a - 1) / (a / b) < b → b ∣ a := by
    intro a b hb hab hlt
    have hq : 0 < a / b := Nat.div_pos hab (by omega)
    have h1 : a - 1 < b * (a / b) := by
      have := (Nat.div_lt_iff_lt_mul hq).1 hlt
      exact this
    have h2 : b * (a / b) ≤ a := Nat.mul_div_le a b
    exact ⟨a / b, by omega⟩
  by_cases hle : m ≤ n
  · by_cases hd : m ∣ n
    · obtain ⟨l, h1, h2, h3, _⟩ := C66_divisible_partial pre post n m par hm hle hd
      exact ⟨l, h1, by omega, ⟨fun _ => Or.inl hd, fun _ => h3⟩⟩
    · refine ⟨_, aligned_ge_eq pre post n m par hm hle, by simp; omega, ?_⟩
      constructor
      · intro hv
        have := hv ⟨par (n - 1) ((n - 1) / (n / m)), n - 1, (n - 1) / (n / m)⟩
          (List.mem_map.2 ⟨n - 1, List.mem_range.2 (by omega), rfl⟩)
        exact Or.inl (key n m hm hle this.2)
      · rintro (h | h)
        · exact absurd h hd
        · exfalso
          have : n = m := Nat.le_antisymm (Nat.le_of_dvd (by omega) h) hle
          exact hd (this ▸ Nat.dvd_refl m)
  · by_cases hd : n ∣ m
    · obtain ⟨l, h1, h2, h3, _⟩ := C66_divisible_target_partial pre post n m par hn (by omega) hd
      exact ⟨l, h1, by omega, ⟨fun _ => Or.inr hd, fun _ => h3⟩⟩
    · refine ⟨_, aligned_lt_eq pre post n m par hn (by omega), by simp; omega, ?_⟩
      constructor
      · intro hv
        have := hv ⟨par ((m - 1) / (m / n)) (m - 1), (m - 1) / (m / n), m - 1⟩
          (List.mem_map.2 ⟨m - 1, List.mem_range.2 (by omega), rfl⟩)
        exact Or.inr (key m n hn (by omega) this.1)
      · rintro (h | h)
        · exfalso
          have := Nat.le_of_dvd (by omega) h
          omega
        · exact absurd h hd

/-- C66 is false: 5 sources, 3 targets; a synapse goes to the non-existing target 4. -/
theorem C66_refuted : aligned 1 2 5 3 (fun _ _ => ()) =
    .ok ⟨1, 2, [⟨(), 0, 0⟩, ⟨(), 1, 1⟩, ⟨(), 2, 2⟩, ⟨(), 3, 3⟩, ⟨(), 4, 4⟩]⟩ ∧
    ¬ Valid 5 3 [(⟨(), 0, 0⟩ : Synapse Unit), ⟨(), 1, 1⟩, ⟨(), 2, 2⟩, ⟨(), 3, 3⟩, ⟨(), 4, 4⟩] := by
  constructor
  · decide
  · intro h
    have := h ⟨(), 4, 4⟩ (by simp)
    simp at this

/-- An empty population opposite a non-empty one is a division by zero. -/
theorem C66_empty_side_ub (pre post : UID) (n : Nat) (par : Nat → Nat → P) (hn : 1 ≤ n) :
    aligned pre post n 0 par = .ub ∧ aligned pre post 0 n par = .ub := by
  obtain ⟨k, rfl⟩ : ∃ k, n = k + 1 := ⟨n - 1, by omega⟩
  constructor
  · simp [aligned, construct, loop, alignedGen]
  · simp [aligned, construct, loop, alignedGen]

example : aligned 1 2 2 4 (fun _ _ => ()) = .ok ⟨1, 2, [⟨(), 0, 0⟩, ⟨(), 0, 1⟩, ⟨(), 1, 2⟩, ⟨(), 1, 3⟩]⟩ ∧ 2 ∣ 4 := by decide

/-! ## C67 -/

/-- C67. `exclusive(n)` connects exactly the pairs of different neurons of `0 .. n-1`, each once. Every `n`, also 0 and 1. -/
theorem C67_exclusive (pre post : UID) (n : Nat) (par : Nat → Nat → P) (h : n * (n - 1) < two64) :
    ∃ l, exclusive pre post n par = .ok ⟨pre, post, l⟩ ∧ l.length = n * (n - 1) ∧
      ConnectsExactly l (fun i j => i < n ∧ j < n ∧ i ≠ j) ∧ ∀ s ∈ l, s.params = par s.src s.dst := by
  rcases Nat.lt_or_ge n 1 with h0 | h1
  · obtain rfl : n = 0 := by omega
    refine ⟨[], by simp [exclusive, mulU64, construct, loop], by simp, ?_, by simp⟩
    intro i j
    simp [ends]
  have hn64 : n < two64 := by
    rcases Nat.lt_or_ge n 3 with h3 | h3
    · unfold two64; omega
    · have : n * 2 ≤ n * (n - 1) := Nat.mul_le_mul_left _ (by omega)
      omega
  have hsub : subU64 n 1 = n - 1 := subU64_of_le h1 hn64
  have heq : exclusive pre post n par = .ok ⟨pre, post, (List.range (n * (n - 1))).map
      (fun i => ⟨par (i / (n - 1)) (exclTarget n i), i / (n - 1), exclTarget n i⟩)⟩ := by
    unfold exclusive
    rw [hsub, mul_u64 h]
    apply construct_map
    intro k hk
    unfold exclusiveGen
    rw [hsub, if_neg]
    intro hz
    rw [hz] at hk
    simp at hk
  have htgt : ∀ k, exclTarget n k = if k % (n - 1) ≥ k / (n - 1) then k % (n - 1) + 1 else k % (n - 1) := by
    intro k; unfold exclTarget; rw [hsub]
  refine ⟨_, heq, by simp, ?_, ?_⟩
  · apply connects_map
    · intro a b _ _ e1 e2
      dsimp only at e1 e2
      rw [htgt, htgt, e1] at e2
      apply eq_of_mod_div _ e1
      split at e2 <;> split at e2 <;> omega
    · intro a ha
      dsimp only
      have hpos : 0 < n - 1 := by
        rcases Nat.eq_zero_or_pos (n - 1) with hz | hz
        · rw [hz] at ha; simp at ha
        · exact hz
      have hr := Nat.mod_lt a hpos
      have hq : a / (n - 1) < n := div_lt_of_lt_mul' (by rw [Nat.mul_comm]; exact ha)
      rw [htgt]
      split <;> refine ⟨hq, by omega, by omega⟩
    · rintro i j ⟨hi, hj, hij⟩
      have hpos : 0 < n - 1 := by omega
      have hr : (if j > i then j - 1 else j) < n - 1 := by split <;> omega
      obtain ⟨e1, e2, e3⟩ := pair_index (n := n - 1) (m := n) hr hi
      refine ⟨(n - 1) * i + (if j > i then j - 1 else j), by rw [Nat.mul_comm n]; exact e1, e3, ?_⟩
      dsimp only
      rw [htgt, e2, e3]
      by_cases hji : j > i
      · rw [if_pos hji, if_pos (by omega)]; omega
      · rw [if_neg hji, if_neg (by omega)]
  · intro s hs
    obtain ⟨k, _, rfl⟩ := List.mem_map.1 hs
    rfl

example : exclusive 1 2 3 (fun _ _ => ()) =
    .ok ⟨1, 2, [⟨(), 0, 1⟩, ⟨(), 0, 2⟩, ⟨(), 1, 0⟩, ⟨(), 1, 2⟩, ⟨(), 2, 0⟩, ⟨(), 2, 1⟩]⟩ ∧ 3 * (3 - 1) < two64 := by decide

/-! ## C68 -/

/-- C68, `one_to_one(n)`: neuron `i` to neuron `i`, for `i < n`, in order. -/
theorem C68_one_to_one (pre post : UID) (n : Nat) (par : Nat → P) :
    oneToOne pre post n par = .ok ⟨pre, post, (List.range n).map (fun i => ⟨par i, i, i⟩)⟩ :=
  construct_map _ _ _ _ _ (fun _ _ => rfl)

private theorem range_getElem {α : Type} (c : List α) (g : Nat → Option α) (h : ∀ i, i < c.length → g i = c[i]?) :
    (List.range c.length).filterMap g = c := by
  have h1 : (List.range c.length).filterMap g = (List.range c.length).filterMap (fun i => c[i]?) :=
    List.filterMap_congr (fun i hi => h i (List.mem_range.1 hi))
  rw [h1]
  clear h1 h
  induction c with
  | nil => rfl
  | cons x c ih =>
    rw [List.length_cons, List.range_succ_eq_map, List.filterMap_cons]
    simp only [List.getElem?_cons_zero, List.filterMap_map, Function.comp_def, List.getElem?_cons_succ, ih]

/-- C68, `from_container`: exactly the container. -/
theorem C68_from_container (pre post : UID) (c : List (Synapse P)) :
    fromContainer pre post c = .ok ⟨pre, post, c⟩ := by
  unfold fromContainer
  rw [construct_filterMap pre post _ (fun i => c[i]?) c.length, range_getElem c _ (fun _ _ => rfl)]
  intro k hk
  unfold fromContainerGen
  rw [List.getElem?_eq_getElem hk]

/-- C68, `from_map`: one synapse per entry, in iteration order. -/
theorem C68_from_map (pre post : UID) (m : List ((Nat × Nat) × P)) :
    fromMap pre post m = .ok ⟨pre, post, m.map (fun e => ⟨e.2, e.1.1, e.1.2⟩)⟩ := by
  unfold fromMap
  have : (m.map (fun e => (⟨e.2, e.1.1, e.1.2⟩ : Synapse P))).length = m.length := by simp
  rw [construct_filterMap pre post _ (fun i => (m.map (fun e => (⟨e.2, e.1.1, e.1.2⟩ : Synapse P)))[i]?) m.length]
  · rw [← this, range_getElem _ _ (fun _ _ => rfl)]
  · intro k hk
    unfold fromMapGen
    rw [List.getElem?_map, List.getElem?_eq_getElem hk]
    rfl

/-- C68, `clone_projection`: the same ends synapse by synapse, parameters from the generator, UIDs as given or of the source. -/
theorem C68_clone {P' : Type} (src : Created P') (par : Nat → P) (pre post : Option UID) :
    ∃ l, cloneProjection src par pre post = .ok ⟨pre.getD src.pre, post.getD src.post, l⟩ ∧
      ends l = ends src.synapses ∧ l.map (fun s => s.params) = (List.range src.synapses.length).map par := by
  let f : Nat → Option (Synapse P) := fun i => src.synapses[i]?.map (fun s => ⟨par i, s.src, s.dst⟩)
  have heq : cloneProjection src par pre post =
      .ok ⟨pre.getD src.pre, post.getD src.post, (List.range src.synapses.length).filterMap f⟩ := by
    unfold cloneProjection
    apply construct_filterMap
    intro k hk
    show cloneGen src.synapses par k = .ok (src.synapses[k]?.map _)
    unfold cloneGen
    rw [List.getElem?_eq_getElem hk]
    rfl
  refine ⟨_, heq, ?_, ?_⟩
  · unfold ends
    rw [List.map_filterMap]
    have hlen : (src.synapses.map (fun s => (s.src, s.dst))).length = src.synapses.length := by simp
    rw [← hlen]
    apply range_getElem
    intro i hi
    show Option.map _ (Option.map _ _) = _
    rw [List.getElem?_map]
    cases src.synapses[i]? <;> rfl
  · rw [List.map_filterMap]
    rw [← List.filterMap_eq_map]
    apply List.filterMap_congr
    intro i hi
    show Option.map _ (Option.map _ _) = _
    rw [List.getElem?_eq_getElem (List.mem_range.1 hi)]
    rfl

/-- C68, `index_based`: exactly the pairs inside the populations for which the function gives parameters, each once and
with these parameters. -/
theorem C68_index_based (pre post : UID) (n m : Nat) (par : Nat → Nat → Option P) (h : n * m < two64) :
    ∃ l, indexBased pre post n m par = .ok ⟨pre, post, l⟩ ∧
      ConnectsExactly l (fun i j => i < n ∧ j < m ∧ (par i j).isSome = true) ∧
      ∀ s ∈ l, par s.src s.dst = some s.params := by
  let f : Nat → Option (Synapse P) := fun i => (par (i % n) (i / n)).map (fun p => ⟨p, i % n, i / n⟩)
  have heq : indexBased pre post n m par = .ok ⟨pre, post, (List.range (n * m)).filterMap f⟩ := by
    unfold indexBased
    rw [mul_u64 h]
    apply construct_filterMap
    intro k hk
    show indexBasedGen n par k = .ok ((par (k % n) (k / n)).map _)
    unfold indexBasedGen
    rw [if_neg (by rintro rfl; simp at hk)]
    cases par (k % n) (k / n) <;> rfl
  have hmem : ∀ s : Synapse P, s ∈ (List.range (n * m)).filterMap f ↔ s.src < n ∧ s.dst < m ∧ par s.src s.dst = some s.params := by
    intro s
    rw [List.mem_filterMap]
    constructor
    · rintro ⟨k, hk, hfk⟩
      have hk' := List.mem_range.1 hk
      have hn : 0 < n := by
        rcases Nat.eq_zero_or_pos n with rfl | h
        · simp at hk'
        · exact h
      obtain ⟨p, hp, rfl⟩ := Option.map_eq_some_iff.1 hfk
      exact ⟨Nat.mod_lt _ hn, div_lt_of_lt_mul' hk', hp⟩
    · rintro ⟨h1, h2, h3⟩
      obtain ⟨e1, e2, e3⟩ := pair_index h1 h2
      refine ⟨n * s.dst + s.src, List.mem_range.2 e1, ?_⟩
      show Option.map _ _ = _
      rw [e2, e3, h3]
      rfl
  refine ⟨_, heq, ?_, fun s hs => ((hmem s).1 hs).2.2⟩
  have hnd : (ends ((List.range (n * m)).filterMap f)).Nodup := by
    unfold ends
    rw [List.map_filterMap]
    apply List.Nodup.filterMap _ List.nodup_range
    intro a b p ha hb
    rw [Option.mem_def] at ha hb
    obtain ⟨s, hs, rfl⟩ := Option.map_eq_some_iff.1 ha
    obtain ⟨t, ht, hst⟩ := Option.map_eq_some_iff.1 hb
    obtain ⟨p, _, rfl⟩ := Option.map_eq_some_iff.1 hs
    obtain ⟨q, _, rfl⟩ := Option.map_eq_some_iff.1 ht
    have := Prod.mk.inj hst
    exact (eq_of_mod_div this.1 this.2).symm
  intro i j
  constructor
  · rintro ⟨hi, hj, hs⟩
    apply List.count_eq_one_of_mem hnd
    obtain ⟨p, hp⟩ := Option.isSome_iff_exists.1 hs
    exact List.mem_map.2 ⟨⟨p, i, j⟩, (hmem _).2 ⟨hi, hj, hp⟩, rfl⟩
  · intro hs
    apply List.count_eq_zero_of_not_mem
    intro hm
    obtain ⟨s, hs', hsij⟩ := List.mem_map.1 hm
    have := Prod.mk.inj hsij
    obtain ⟨h1, h2, h3⟩ := (hmem s).1 hs'
    apply hs
    rw [← this.1, ← this.2]
    exact ⟨h1, h2, by rw [h3]; rfl⟩

/-- C68, `fixed_probability`: an impossible probability is refused. -/
theorem C68_probability_refused (pre post : UID) (n m : Nat) (prob zero one : R) (lt : R → R → Bool) (draw : Nat → R)
    (par : Nat → Nat → P) (h : lt one prob = true ∨ lt prob zero = true) :
    fixedProbability pre post n m prob zero one lt draw par =
      .throw "Incorrect probability, set probability between 0 and 1." := by
  unfold fixedProbability
  rw [if_pos (by simpa using h)]

/-- C68, `fixed_probability`: whatever the random numbers, at most one synapse per pair and none outside the populations;
pair `(i, j)` is connected iff its own random number is below the probability. -/
theorem C68_fixed_probability (pre post : UID) (n m : Nat) (prob zero one : R) (lt : R → R → Bool) (draw : Nat → R)
    (par : Nat → Nat → P) (h : n * m < two64) (h1 : lt one prob = false) (h0 : lt prob zero = false) :
    ∃ l, fixedProbability pre post n m prob zero one lt draw par = .ok ⟨pre, post, l⟩ ∧
      ConnectsExactly l (fun i j => i < n ∧ j < m ∧ lt (draw (n * j + i)) prob = true) ∧
      ∀ s ∈ l, s.params = par s.src s.dst := by
  have hsame : fixedProbability pre post n m prob zero one lt draw par =
      indexBased pre post n m (fun i j => if lt (draw (n * j + i)) prob then some (par i j) else none) := by
    unfold fixedProbability indexBased
    rw [if_neg (by simp [h1, h0])]
    congr 1
    funext i
    unfold fixedProbabilityGen indexBasedGen
    by_cases hn : n = 0
    · rw [if_pos hn, if_pos hn]
    · rw [if_neg hn, if_neg hn]
      dsimp only
      rw [Nat.div_add_mod i n]
      by_cases hl : lt (draw i) prob = true
      · rw [if_pos hl, if_pos hl]
      · rw [if_neg hl, if_neg hl]
  rw [hsame]
  obtain ⟨l, e1, e2, e3⟩ := C68_index_based pre post n m
    (fun i j => if lt (draw (n * j + i)) prob then some (par i j) else none) h
  refine ⟨l, e1, ?_, ?_⟩
  · intro i j
    have := e2 i j
    have hiff : (i < n ∧ j < m ∧ (if lt (draw (n * j + i)) prob then some (par i j) else none).isSome = true) ↔
        (i < n ∧ j < m ∧ lt (draw (n * j + i)) prob = true) := by
      by_cases hl : lt (draw (n * j + i)) prob = true
      · simp [hl]
      · simp [hl]
    exact ⟨fun hs => this.1 (hiff.2 hs), fun hs => this.2 (fun hx => hs (hiff.1 hx))⟩
  · intro s hs
    have := e3 s hs
    split at this
    · exact (Option.some.inj this).symm
    · cases this

private theorem count_mod (n k i : Nat) (hi : i < n) :
    ((List.range (n * k)).map (fun t => t % n)).count i = k := by
  induction k with
  | zero => simp
  | succ k ih =>
    rw [Nat.mul_succ, List.range_add, List.map_append, List.count_append, ih, List.map_map]
    have : (List.range n).map ((fun t => t % n) ∘ (fun x => n * k + x)) = List.range n := by
      have h2 : (List.range n).map ((fun t => t % n) ∘ (fun x => n * k + x)) = (List.range n).map id := by
        apply List.map_congr_left
        intro t ht
        show (n * k + t) % n = t
        rw [Nat.mul_add_mod, Nat.mod_eq_of_lt (List.mem_range.1 ht)]
      rw [h2, List.map_id]
    rw [this, List.count_eq_one_of_mem List.nodup_range (List.mem_range.2 hi)]

private theorem draw_lt {size : Nat} {draw : Nat → Nat} (h : DrawOf size draw) (h1 : 1 ≤ size) (h64 : size < two64) (i : Nat) :
    draw i < size := by
  have := h i
  rw [subU64_of_le h1 h64] at this
  omega

/-- C68, `fixed_number_post`: for every sequence of random draws each of the `n` source neurons gets exactly `k` synapses and
all targets exist. -/
theorem C68_fixed_post (pre post : UID) (n m k : Nat) (draw : Nat → Nat) (par : Nat → Nat → P) (hd : DrawOf m draw)
    (hm : 1 ≤ m) (hm64 : m < two64) (h : n * k < two64) :
    ∃ l, fixedNumberPost pre post n k draw par = .ok ⟨pre, post, l⟩ ∧ l.length = n * k ∧ Valid n m l ∧
      (∀ i, i < n → (l.map (fun s => s.src)).count i = k) ∧ ∀ s ∈ l, s.params = par s.src s.dst := by
  have heq : fixedNumberPost pre post n k draw par =
      .ok ⟨pre, post, (List.range (n * k)).map (fun i => ⟨par (i % n) (draw i), i % n, draw i⟩)⟩ := by
    unfold fixedNumberPost
    rw [mul_u64 h]
    apply construct_map
    intro t ht
    unfold fixedPostGen
    rw [if_neg (by rintro rfl; simp at ht)]
  refine ⟨_, heq, by simp, ?_, ?_, ?_⟩
  · intro s hs
    obtain ⟨t, ht, rfl⟩ := List.mem_map.1 hs
    have ht' := List.mem_range.1 ht
    have hn : 0 < n := by
      rcases Nat.eq_zero_or_pos n with rfl | h
      · simp at ht'
      · exact h
    exact ⟨Nat.mod_lt _ hn, draw_lt hd hm hm64 t⟩
  · intro i hi
    rw [List.map_map]
    exact count_mod n k i hi
  · intro s hs
    obtain ⟨t, _, rfl⟩ := List.mem_map.1 hs
    rfl

/-- C68, `fixed_number_pre`: each of the `m` target neurons gets exactly `k` synapses and all sources exist. -/
theorem C68_fixed_pre (pre post : UID) (n m k : Nat) (draw : Nat → Nat) (par : Nat → Nat → P) (hd : DrawOf n draw)
    (hn : 1 ≤ n) (hn64 : n < two64) (h : m * k < two64) :
    ∃ l, fixedNumberPre pre post m k draw par = .ok ⟨pre, post, l⟩ ∧ l.length = m * k ∧ Valid n m l ∧
      (∀ j, j < m → (l.map (fun s => s.dst)).count j = k) ∧ ∀ s ∈ l, s.params = par s.src s.dst := by
  have heq : fixedNumberPre pre post m k draw par =
      .ok ⟨pre, post, (List.range (m * k)).map (fun i => ⟨par (draw i) (i % m), draw i, i % m⟩)⟩ := by
    unfold fixedNumberPre
    rw [mul_u64 h]
    apply construct_map
    intro t ht
    unfold fixedPreGen
    rw [if_neg (by rintro rfl; simp at ht)]
  refine ⟨_, heq, by simp, ?_, ?_, ?_⟩
  · intro s hs
    obtain ⟨t, ht, rfl⟩ := List.mem_map.1 hs
    have ht' := List.mem_range.1 ht
    have hm : 0 < m := by
      rcases Nat.eq_zero_or_pos m with rfl | h
      · simp at ht'
      · exact h
    exact ⟨draw_lt hd hn hn64 t, Nat.mod_lt _ hm⟩
  · intro i hi
    rw [List.map_map]
    exact count_mod m k i hi
  · intro s hs
    obtain ⟨t, _, rfl⟩ := List.mem_map.1 hs
    rfl

/-- C68, limits. The `k` targets of a neuron need not be different; and with an empty opposite population the
distribution ranges over all of `size_t`, so the draw 7 is possible and the synapse leads nowhere. -/
theorem C68_fixed_post_limits :
    (∃ draw, DrawOf 3 draw ∧ fixedNumberPost 1 2 1 2 draw (fun _ _ => ()) = .ok ⟨1, 2, [⟨(), 0, 0⟩, ⟨(), 0, 0⟩]⟩) ∧
    (∃ draw, DrawOf 0 draw ∧ fixedNumberPost 1 2 1 1 draw (fun _ _ => ()) = .ok ⟨1, 2, [⟨(), 0, 7⟩]⟩) := by
  refine ⟨⟨fun _ => 0, fun _ => Nat.zero_le _, by decide⟩, ⟨fun _ => 7, ?_, by decide⟩⟩
  intro _
  show (7 : Nat) ≤ subU64 0 1
  decide

example : DrawOf 3 (fun i => i % 3) ∧ 1 ≤ 3 ∧ fixedNumberPost 1 2 2 2 (fun i => i % 3) (fun _ _ => ()) =
    .ok ⟨1, 2, [⟨(), 0, 0⟩, ⟨(), 1, 1⟩, ⟨(), 0, 2⟩, ⟨(), 1, 0⟩]⟩ := by
  refine ⟨?_, by decide, by decide⟩
  intro i
  have : subU64 3 1 = 2 := by decide
  rw [this]
  show i % 3 ≤ 2
  omega

example : fixedProbability 1 2 2 2 5 0 10 (fun a b : Nat => decide (a < b)) (fun i => [3, 7, 5, 4].getD i 0) (fun _ _ => ()) =
    .ok ⟨1, 2, [⟨(), 0, 0⟩, ⟨(), 1, 1⟩]⟩ := by decide

/-! ## C94 -/

/-- C94. The population creators: exactly the given parameters, or `count` copies. -/
theorem C94_population_creators (c : List N) (x : N) (count : Nat) :
    (popFromContainer c).neurons = c ∧ (popDefault x count).neurons = List.replicate count x ∧
      (popClone count x).neurons = List.replicate count x := by
  have hrep : (List.range count).filterMap (fun _ => some x) = List.replicate count x := by
    induction count with
    | zero => rfl
    | succ k ih => rw [List.range_succ, List.filterMap_append, ih, List.replicate_succ']; rfl
  refine ⟨?_, ?_, ?_⟩
  · unfold popFromContainer
    rw [C80_construct, range_getElem c _ (fun _ _ => rfl)]
  · unfold popDefault
    rw [C80_construct, hrep]
  · unfold popClone
    rw [C80_construct, hrep]

example : (popFromContainer [4, 2]).neurons = [4, 2] ∧ (popClone 3 7).neurons = [7, 7, 7] := by decide

end Knp.Props
