import Verif.Model.Visualizer
import Mathlib.Algebra.BigOperators.Group.List.Basic
import Mathlib.Tactic.Ring
import Mathlib.Tactic.Linarith
import Mathlib.Tactic.FieldSimp
import Mathlib.Tactic.Positivity

/-! # Lemmas about the layout -/

set_option linter.unusedSectionVars false

namespace Knp.Vis
open Knp

section sums
variable {F : Type} [Field F] [LinearOrder F] [IsStrictOrderedRing F]

omit [LinearOrder F] [IsStrictOrderedRing F] in
theorem sum_add {α : Type} (f g : α → F) : ∀ l : List α, (l.map (fun a => f a + g a)).sum = (l.map f).sum + (l.map g).sum := by
  intro l
  induction l with
  | nil => simp
  | cons a l ih => simp only [List.map_cons, List.sum_cons, ih]; ring

omit [LinearOrder F] [IsStrictOrderedRing F] in
theorem sum_mul {α : Type} (f : α → F) (c : F) : ∀ l : List α, (l.map (fun a => f a * c)).sum = (l.map f).sum * c := by
  intro l
  induction l with
  | nil => simp
  | cons a l ih => simp only [List.map_cons, List.sum_cons, ih]; ring

omit [LinearOrder F] [IsStrictOrderedRing F] in
theorem sum_neg {α : Type} (f : α → F) : ∀ l : List α, (l.map (fun a => -f a)).sum = -(l.map f).sum := by
  intro l
  induction l with
  | nil => simp
  | cons a l ih => simp only [List.map_cons, List.sum_cons, ih]; ring

omit [LinearOrder F] [IsStrictOrderedRing F] in
theorem sum_swap {α β : Type} (h : α → β → F) (l2 : List β) : ∀ l1 : List α,
    (l1.map (fun a => (l2.map (fun b => h a b)).sum)).sum = (l2.map (fun b => (l1.map (fun a => h a b)).sum)).sum := by
  intro l1
  induction l1 with
  | nil =>
    simp only [List.map_nil, List.sum_nil]
    induction l2 with
    | nil => rfl
    | cons b l ih => rw [List.map_cons, List.sum_cons, ← ih, add_zero]
  | cons a l1 ih =>
    simp only [List.map_cons, List.sum_cons, ih]
    rw [sum_add]

/-- Forces that are equal and opposite add up to nothing. -/
theorem sum_opposite {α : Type} (h : α → α → F) (hh : ∀ a b, h a b = -h b a) (l : List α) : (l.map (fun a => (l.map (fun b => h a b)).sum)).sum = 0 := by
  have h1 : (l.map (fun a => (l.map (fun b => h a b)).sum)).sum = -(l.map (fun a => (l.map (fun b => h a b)).sum)).sum := by
    conv => lhs; rw [sum_swap]
    rw [← sum_neg]
    congr 1
    apply List.map_congr_left
    intro b _
    rw [← sum_neg]
    congr 1
    apply List.map_congr_left
    intro a _
    exact hh a b
  linarith

end sums

section
variable {F : Type} [Field F] [LinearOrder F] [IsStrictOrderedRing F]

omit [IsStrictOrderedRing F] in
theorem forceAlong_neg (p : Params F) (d l : F) (e : Bool) : forceAlong p (-d) l e = -forceAlong p d l e := by
  unfold forceAlong
  cases e <;> simp <;> ring

/-- Point on point, nothing for a point on itself. -/
def pull (p : Params F) (norm : F → F → F) (mat : List (List Bool)) (a b : Point F × Nat) : F × F :=
  if a.2 = b.2 then (0, 0) else force p norm a.1 b.1 ((mat.getD a.2 []).getD b.2 false || (mat.getD b.2 []).getD a.2 false)

omit [IsStrictOrderedRing F] in
theorem pull_neg (p : Params F) (norm : F → F → F) (hnorm : ∀ x y, norm (-x) (-y) = norm x y) (mat : List (List Bool)) (a b : Point F × Nat) :
    (pull p norm mat a b).1 = -(pull p norm mat b a).1 ∧ (pull p norm mat a b).2 = -(pull p norm mat b a).2 := by
  unfold pull
  by_cases e : a.2 = b.2
  · rw [if_pos e, if_pos e.symm]; simp
  · rw [if_neg e, if_neg (fun h => e h.symm)]
    have hx : a.1.x - b.1.x = -(b.1.x - a.1.x) := by ring
    have hy : a.1.y - b.1.y = -(b.1.y - a.1.y) := by ring
    unfold force
    simp only
    rw [hx, hy, hnorm, forceAlong_neg, forceAlong_neg, Bool.or_comm]
    exact ⟨rfl, rfl⟩

omit [IsStrictOrderedRing F] in
theorem pulls_sum (p : Params F) (norm : F → F → F) (mat : List (List Bool)) (i : Nat) (q : Point F) : ∀ (os : List (Point F × Nat)) (acc : F × F),
    os.foldl (fun (acc : F × F) (o : Point F × Nat) =>
      if i = o.2 then acc
      else
        let f := force p norm q o.1 ((mat.getD i []).getD o.2 false || (mat.getD o.2 []).getD i false)
        (acc.1 + f.1, acc.2 + f.2)) acc =
    (acc.1 + (os.map (fun o => (pull p norm mat (q, i) o).1)).sum, acc.2 + (os.map (fun o => (pull p norm mat (q, i) o).2)).sum) := by
  intro os
  induction os with
  | nil => intro acc; simp
  | cons o os ih =>
    intro acc
    rw [List.foldl_cons, ih]
    simp only [List.map_cons, List.sum_cons, pull]
    by_cases e : i = o.2
    · simp [e]
    · simp only [e, if_false]
      ext <;> simp only <;> ring

omit [IsStrictOrderedRing F] in
theorem forceOn_eq (p : Params F) (norm : F → F → F) (mat : List (List Bool)) (pts : List (Point F)) (i : Nat) (q : Point F) :
    forceOn p norm mat pts i q = ((pts.zipIdx.map (fun o => (pull p norm mat (q, i) o).1)).sum + -q.vx * p.resistance,
      (pts.zipIdx.map (fun o => (pull p norm mat (q, i) o).2)).sum + -q.vy * p.resistance) := by
  unfold forceOn
  rw [pulls_sum]
  simp only [zero_add]

theorem zip_map {α β : Type} (f : α → β) (pts : List α) : ∀ k, (pts.zipIdx k).map (fun o => f o.1) = pts.map f := by
  induction pts with
  | nil => intro k; rfl
  | cons a l ih => intro k; rw [List.zipIdx_cons, List.map_cons, List.map_cons, ih]

omit [IsStrictOrderedRing F] in
theorem iterate_map {β : Type} (p : Params F) (norm : F → F → F) (mat : List (List Bool)) (pts : List (Point F)) (g : Point F → β) :
    (iterate p norm mat pts).map g = pts.zipIdx.map (fun o => g (
      let f := forceOn p norm mat pts o.2 o.1
      let vx := o.1.vx + f.1 * p.dt
      let vy := o.1.vy + f.2 * p.dt
      ⟨o.1.x + vx * p.dt, o.1.y + vy * p.dt, vx, vy⟩)) := by
  unfold iterate
  rw [List.mapIdx_eq_zipIdx_map, List.map_map]
  rfl

/-- The total velocity after an iteration. -/
theorem velocity_iterate (p : Params F) (norm : F → F → F) (hnorm : ∀ x y, norm (-x) (-y) = norm x y) (mat : List (List Bool)) (pts : List (Point F)) :
    ((iterate p norm mat pts).map (·.vx)).sum = (pts.map (·.vx)).sum * (1 - p.resistance * p.dt) ∧
      ((iterate p norm mat pts).map (·.vy)).sum = (pts.map (·.vy)).sum * (1 - p.resistance * p.dt) := by
  rw [iterate_map, iterate_map]
  simp only [forceOn_eq]
  have hx := sum_opposite (fun a b => (pull p norm mat a b).1) (fun a b => (pull_neg p norm hnorm mat a b).1) pts.zipIdx
  have hy := sum_opposite (fun a b => (pull p norm mat a b).2) (fun a b => (pull_neg p norm hnorm mat a b).2) pts.zipIdx
  have ex : ∀ o : Point F × Nat, o.1.vx + ((pts.zipIdx.map (fun b => (pull p norm mat (o.1, o.2) b).1)).sum + -o.1.vx * p.resistance) * p.dt =
      (fun o : Point F × Nat => o.1.vx * (1 - p.resistance * p.dt)) o + (fun o : Point F × Nat => (pts.zipIdx.map (fun b => (pull p norm mat o b).1)).sum * p.dt) o := by
    intro o; simp only; ring
  have ey : ∀ o : Point F × Nat, o.1.vy + ((pts.zipIdx.map (fun b => (pull p norm mat (o.1, o.2) b).2)).sum + -o.1.vy * p.resistance) * p.dt =
      (fun o : Point F × Nat => o.1.vy * (1 - p.resistance * p.dt)) o + (fun o : Point F × Nat => (pts.zipIdx.map (fun b => (pull p norm mat o b).2)).sum * p.dt) o := by
    intro o; simp only; ring
  simp only [ex, ey]
  constructor
  · rw [sum_add, sum_mul, sum_mul, hx, zero_mul, add_zero, zip_map (fun q : Point F => q.vx)]
  · rw [sum_add, sum_mul, sum_mul, hy, zero_mul, add_zero, zip_map (fun q : Point F => q.vy)]

omit [IsStrictOrderedRing F] in
/-- The total position after an iteration. -/
theorem position_iterate (p : Params F) (norm : F → F → F) (mat : List (List Bool)) (pts : List (Point F)) :
    ((iterate p norm mat pts).map (·.x)).sum = (pts.map (·.x)).sum + ((iterate p norm mat pts).map (·.vx)).sum * p.dt ∧
      ((iterate p norm mat pts).map (·.y)).sum = (pts.map (·.y)).sum + ((iterate p norm mat pts).map (·.vy)).sum * p.dt := by
  rw [iterate_map, iterate_map, iterate_map, iterate_map]
  simp only
  constructor
  · rw [sum_add, sum_mul, zip_map (fun q : Point F => q.x)]
  · rw [sum_add, sum_mul, zip_map (fun q : Point F => q.y)]

theorem iterate_length (p : Params F) (norm : F → F → F) (mat : List (List Bool)) (pts : List (Point F)) :
    (iterate p norm mat pts).length = pts.length := by unfold iterate; simp

theorem iterateN_length (p : Params F) (norm : F → F → F) (mat : List (List Bool)) : ∀ (n : Nat) (pts : List (Point F)),
    (iterateN p norm mat n pts).length = pts.length := by
  intro n
  induction n with
  | zero => intro pts; rfl
  | succ n ih => intro pts; unfold iterateN; rw [ih, iterate_length]

/-! ## The box -/

theorem foldl_min_le (xs : List F) : ∀ (b : F), xs.foldl min b ≤ b ∧ ∀ x ∈ xs, xs.foldl min b ≤ x := by
  induction xs with
  | nil => intro b; exact ⟨le_refl _, fun x h => by cases h⟩
  | cons a l ih =>
    intro b
    rw [List.foldl_cons]
    obtain ⟨h1, h2⟩ := ih (min b a)
    refine ⟨h1.trans (min_le_left _ _), ?_⟩
    intro x hx
    rcases List.mem_cons.1 hx with e | e
    · subst e; exact h1.trans (min_le_right _ _)
    · exact h2 x e

theorem le_foldl_max (xs : List F) : ∀ (b : F), b ≤ xs.foldl max b ∧ ∀ x ∈ xs, x ≤ xs.foldl max b := by
  induction xs with
  | nil => intro b; exact ⟨le_refl _, fun x h => by cases h⟩
  | cons a l ih =>
    intro b
    rw [List.foldl_cons]
    obtain ⟨h1, h2⟩ := ih (max b a)
    refine ⟨(le_max_left _ _).trans h1, ?_⟩
    intro x hx
    rcases List.mem_cons.1 hx with e | e
    · subst e; exact (le_max_right _ _).trans h1
    · exact h2 x e

theorem foldl_min_mem (xs : List F) : ∀ (b : F), xs.foldl min b = b ∨ xs.foldl min b ∈ xs := by
  induction xs with
  | nil => intro b; exact .inl rfl
  | cons a l ih =>
    intro b
    rw [List.foldl_cons]
    rcases ih (min b a) with h | h
    · rcases le_total b a with h' | h'
      · rw [min_eq_left h'] at h ⊢; exact .inl h
      · rw [min_eq_right h'] at h ⊢; exact .inr (by rw [h]; exact List.mem_cons_self)
    · exact .inr (List.mem_cons_of_mem _ h)

theorem foldl_max_mem (xs : List F) : ∀ (b : F), xs.foldl max b = b ∨ xs.foldl max b ∈ xs := by
  induction xs with
  | nil => intro b; exact .inl rfl
  | cons a l ih =>
    intro b
    rw [List.foldl_cons]
    rcases ih (max b a) with h | h
    · rcases le_total b a with h' | h'
      · rw [max_eq_right h'] at h ⊢; exact .inr (by rw [h]; exact List.mem_cons_self)
      · rw [max_eq_left h'] at h ⊢; exact .inl h
    · exact .inr (List.mem_cons_of_mem _ h)

theorem lround_bounds [FloorRing F] (y : F) (W : Int) (h0 : 0 ≤ y) (hW : y ≤ W) : 0 ≤ lround y ∧ lround y ≤ W := by
  unfold lround
  rw [if_pos h0]
  constructor
  · rw [Int.le_floor]; push_cast; linarith
  · have : ⌊y + 1 / 2⌋ < W + 1 := by
      rw [Int.floor_lt]; push_cast; linarith
    omega

/-- A coordinate after scaling. -/
theorem scaled_bounds (low high x small s : F) (W : Int) (hl : low ≤ x) (hh : x ≤ high) (hs : 0 < small) (hW : 0 ≤ W) (h0 : 0 ≤ s)
    (hsc : s ≤ (W : F) / (high - low + small)) : 0 ≤ (x - low) * s ∧ (x - low) * s ≤ W := by
  have hd : 0 < high - low + small := by linarith
  have hWF : (0 : F) ≤ W := by exact_mod_cast hW
  refine ⟨mul_nonneg (by linarith) h0, ?_⟩
  calc (x - low) * s ≤ (high - low + small) * s := mul_le_mul_of_nonneg_right (by linarith) h0
    _ ≤ (high - low + small) * ((W : F) / (high - low + small)) := mul_le_mul_of_nonneg_left hsc (le_of_lt hd)
    _ = W := by field_simp

end

end Knp.Vis
