import Verif.Spec.CudaVector

/-! # Lemmas about vectors in device memory -/

namespace Knp.CuVec
open Knp

variable {α : Type}

/-- The block at an address. -/
def live (m : Mem α) (a : Nat) : Option (List (Option α)) := (m.blocks[a]?).join

/-- A heap with one block replaced. -/
def upd (h : Nat → Option (List (Option α))) (a : Nat) (x : Option (List (Option α))) : Nat → Option (List (Option α)) :=
  fun b => if b = a then x else h b

/-- Cells with a range replaced. -/
def over (cs : List (Option α)) (off : Nat) (ys : List (Option α)) : List (Option α) := cs.take off ++ ys ++ cs.drop (off + ys.length)

theorem over_length (cs ys : List (Option α)) (off : Nat) (h : off + ys.length ≤ cs.length) : (over cs off ys).length = cs.length := by
  unfold over
  simp only [List.length_append, List.length_take, List.length_drop]
  omega

theorem over_nil (cs : List (Option α)) (off : Nat) : over cs off [] = cs := by unfold over; simp

theorem upd_same (h : Nat → Option (List (Option α))) (a : Nat) (x : Option (List (Option α))) (hx : h a = x) : upd h a x = h := by
  funext b; unfold upd; split
  · rename_i e; subst e; exact hx.symm
  · rfl

theorem live_set (m : Mem α) (a : Nat) (x : Option (List (Option α))) (h : a < m.blocks.length) :
    live ⟨m.blocks.set a x⟩ = upd (live m) a x := by
  funext b
  unfold live upd
  simp only [List.getElem?_set]
  by_cases e : a = b
  · subst e; simp [h]
  · rw [if_neg e, if_neg (fun e' => e e'.symm)]

theorem live_lt {m : Mem α} {a : Nat} {cs : List (Option α)} (h : live m a = some cs) : a < m.blocks.length := by
  unfold live at h
  rcases Nat.lt_or_ge a m.blocks.length with h1 | h1
  · exact h1
  · rw [List.getElem?_eq_none h1] at h; cases h

theorem alloc_zero (m : Mem α) : m.alloc 0 = (m, none) := rfl

theorem alloc_pos (m : Mem α) {n : Nat} (h : n ≠ 0) : ∃ m' a, m.alloc n = (m', some a) ∧ live m a = none ∧
    live m' = upd (live m) a (some (List.replicate n none)) := by
  refine ⟨⟨m.blocks ++ [some (List.replicate n none)]⟩, m.blocks.length, by unfold Mem.alloc; rw [if_neg h], ?_, ?_⟩
  · unfold live; rw [List.getElem?_eq_none (Nat.le_refl _)]; rfl
  · funext b
    unfold live upd
    simp only
    rw [List.getElem?_append]
    split
    · rename_i hb; rw [if_neg (by omega)]
    · split
      · rename_i e; subst e; simp
      · rename_i h1 h2
        rw [List.getElem?_eq_none (l := m.blocks) (by omega), List.getElem?_eq_none (by rw [List.length_singleton]; omega)]

theorem free_live {m : Mem α} {a : Nat} {cs : List (Option α)} (h : live m a = some cs) :
    ∃ m', m.free (some a) = .ok m' ∧ live m' = upd (live m) a none := by
  refine ⟨⟨m.blocks.set a none⟩, ?_, live_set m a none (live_lt h)⟩
  unfold Mem.free
  have : m.cells (some a) = some cs := h
  simp only [this]

theorem store_live {m : Mem α} {a : Nat} {cs : List (Option α)} (h : live m a = some cs) (ds : List (Option α)) :
    live (m.store (some a) ds) = upd (live m) a (some ds) := live_set m a _ (live_lt h)

theorem write_live {m : Mem α} {a : Nat} {cs : List (Option α)} (h : live m a = some cs) (off : Nat) (xs : List α)
    (hl : off + xs.length ≤ cs.length) : ∃ m', m.write (some a) off xs = .ok m' ∧ live m' = upd (live m) a (some (over cs off (xs.map some))) := by
  unfold Mem.write
  by_cases hx : xs = []
  · subst hx
    rw [if_pos rfl]
    exact ⟨m, rfl, by rw [List.map_nil, over_nil, upd_same _ _ _ h]⟩
  · have hc : m.cells (some a) = some cs := h
    rw [if_neg hx]
    simp only [hc]
    rw [if_pos hl]
    exact ⟨_, rfl, by rw [store_live h]; unfold over; rw [List.length_map]⟩

theorem assign_live {e : Elem α} {m : Mem α} {a : Nat} {cs : List (Option α)} (h : live m a = some cs) (off : Nat) (xs : List α)
    (hl : off + xs.length ≤ cs.length) (ht : e.trivial = true ∨ ((cs.drop off).take xs.length).all (·.isSome) = true) :
    ∃ m', m.assign e (some a) off xs = .ok m' ∧ live m' = upd (live m) a (some (over cs off (xs.map some))) := by
  unfold Mem.assign
  by_cases hx : xs = []
  · subst hx
    rw [if_pos rfl]
    exact ⟨m, rfl, by rw [List.map_nil, over_nil, upd_same _ _ _ h]⟩
  · have hc : m.cells (some a) = some cs := h
    rw [if_neg hx]
    simp only [hc]
    rw [if_pos (by rw [Bool.or_eq_true]; exact ht)]
    exact write_live h off xs hl

theorem destroy_live {e : Elem α} {m : Mem α} {a : Nat} {cs : List (Option α)} (h : live m a = some cs) (off n : Nat)
    (hl : off + n ≤ cs.length) (ht : e.trivial = true ∨ ((cs.drop off).take n).all (·.isSome) = true) :
    ∃ m', m.destroy e (some a) off n = .ok m' ∧ live m' = upd (live m) a (some (over cs off (List.replicate n none))) := by
  unfold Mem.destroy
  by_cases hn : n = 0
  · subst hn
    rw [if_pos rfl]
    exact ⟨m, rfl, by rw [List.replicate_zero, over_nil, upd_same _ _ _ h]⟩
  · have hc : m.cells (some a) = some cs := h
    rw [if_neg hn]
    simp only [hc]
    rw [if_pos hl, if_pos (by rw [Bool.or_eq_true]; exact ht)]
    exact ⟨_, rfl, by rw [store_live h]; unfold over; rw [List.length_replicate]⟩

theorem collect_some : ∀ xs : List α, collect (xs.map some) = .ok xs := by
  intro xs
  induction xs with
  | nil => rfl
  | cons x xs ih => rw [List.map_cons]; unfold collect; rw [ih]; rfl

theorem read_live {m : Mem α} {a : Nat} {cs : List (Option α)} (h : live m a = some cs) (off n : Nat) (xs : List α)
    (hn : xs.length = n) (hx : (cs.drop off).take n = xs.map some) : m.read (some a) off n = .ok xs := by
  unfold Mem.read
  by_cases h0 : n = 0
  · rw [if_pos h0]
    have : xs = [] := List.eq_nil_of_length_eq_zero (hn.trans h0)
    rw [this]
  · have hc : m.cells (some a) = some cs := h
    rw [if_neg h0]
    simp only [hc]
    have hl : off + n ≤ cs.length := by
      have := congrArg List.length hx
      simp only [List.length_take, List.length_drop, List.length_map] at this
      omega
    rw [if_pos hl, hx, collect_some]

theorem read_zero (m : Mem α) (p : Option Nat) (off : Nat) : m.read p off 0 = .ok [] := rfl
theorem write_nil (m : Mem α) (p : Option Nat) (off : Nat) : m.write p off [] = .ok m := rfl
theorem assign_nil (e : Elem α) (m : Mem α) (p : Option Nat) (off : Nat) : m.assign e p off [] = .ok m := rfl
theorem destroy_zero (e : Elem α) (m : Mem α) (p : Option Nat) (off : Nat) : m.destroy e p off 0 = .ok m := rfl
theorem free_none (m : Mem α) : m.free none = .ok m := rfl

/-! ## A vector that holds a list -/

/-- The vector is in order and its elements are `xs`. -/
structure Holds (h : Nat → Option (List (Option α))) (v : Vec) (xs : List α) : Prop where
  size : v.size = xs.length
  le : v.size ≤ v.cap
  null : v.data = none → v.cap = 0
  cells : ∀ a, v.data = some a → ∃ cs, h a = some cs ∧ v.cap ≤ cs.length ∧ 0 < v.cap ∧ cs.take v.size = xs.map some

/-- The heap without the block of the vector. -/
def rest (h : Nat → Option (List (Option α))) (v : Vec) : Nat → Option (List (Option α)) :=
  fun a => if v.data = some a then none else h a

/-- The call ends, the vector then holds `xs`, and all other blocks are as before. -/
def Does (m : Mem α) (v : Vec) (r : Outcome (Mem α × Vec)) (xs : List α) : Prop :=
  ∃ m' v', r = .ok (m', v') ∧ Holds (live m') v' xs ∧ rest (live m') v' = rest (live m) v

theorem Holds.empty (h : Nat → Option (List (Option α))) : Holds h .empty [] :=
  ⟨rfl, Nat.le_refl _, fun _ => rfl, fun _ e => by cases e⟩

theorem Holds.of_none {h : Nat → Option (List (Option α))} {v : Vec} {xs : List α} (hv : Holds h v xs) (e : v.data = none) :
    v = .empty ∧ xs = [] := by
  have h1 := hv.null e
  have h2 := hv.le
  have h3 := hv.size
  have h4 : v.size = 0 := by omega
  refine ⟨?_, List.eq_nil_of_length_eq_zero (by omega)⟩
  cases v
  simp only at e h1 h4
  subst e; subst h1; subst h4
  rfl

/-- A vector with a block. -/
theorem holds_some {h : Nat → Option (List (Option α))} {a c s : Nat} {cs : List (Option α)} {xs : List α} (hh : h a = some cs)
    (hc : c ≤ cs.length) (h0 : 0 < c) (hs : s = xs.length) (hle : s ≤ c) (ht : cs.take s = xs.map some) : Holds h ⟨some a, c, s⟩ xs :=
  ⟨hs, hle, (fun e => by cases e), (fun b e => by cases e; exact ⟨cs, hh, hc, h0, ht⟩)⟩

theorem rest_empty (h : Nat → Option (List (Option α))) : rest h .empty = h := by
  funext a; unfold rest Vec.empty; simp

theorem rest_upd (h : Nat → Option (List (Option α))) (a : Nat) (x : Option (List (Option α))) (c s : Nat) :
    rest (upd h a x) ⟨some a, c, s⟩ = fun b => if b = a then none else h b := by
  funext b
  unfold rest upd
  simp only [Option.some.injEq]
  by_cases e : b = a
  · subst e; simp
  · rw [if_neg (fun e' => e e'.symm), if_neg e, if_neg e]

theorem rest_some (h : Nat → Option (List (Option α))) (a : Nat) (c s : Nat) :
    rest h ⟨some a, c, s⟩ = fun b => if b = a then none else h b := by
  funext b
  unfold rest
  simp only [Option.some.injEq]
  by_cases e : b = a
  · subst e; simp
  · rw [if_neg (fun e' => e e'.symm), if_neg e]

theorem all_some (xs : List α) : (xs.map some).all (·.isSome) = true := by
  rw [List.all_eq_true]
  intro x hx
  obtain ⟨y, _, rfl⟩ := List.mem_map.1 hx
  rfl

/-- The elements of a vector in a range. -/
theorem range_of_take {cs : List (Option α)} {xs : List α} (h : cs.take xs.length = xs.map some) (off n : Nat) (hl : off + n ≤ xs.length) :
    (cs.drop off).take n = ((xs.drop off).take n).map some := by
  have : (xs.map some).drop off = (cs.take xs.length).drop off := by rw [h]
  rw [List.map_take, List.map_drop, this, List.drop_take, List.take_take, Nat.min_eq_left (by omega)]

theorem take_over_end (cs : List (Option α)) (ys : List (Option α)) (off : Nat) (h : off ≤ cs.length) :
    (over cs off ys).take (off + ys.length) = cs.take off ++ ys := by
  unfold over
  have : (cs.take off ++ ys).length = off + ys.length := by
    rw [List.length_append, List.length_take, Nat.min_eq_left h]
  rw [← this, List.take_left']
  rfl

theorem take_over_before (cs : List (Option α)) (ys : List (Option α)) (off n : Nat) (h : off ≤ cs.length) (hn : n ≤ off) :
    (over cs off ys).take n = cs.take n := by
  unfold over
  rw [List.append_assoc, List.take_append_of_le_length (by rw [List.length_take]; omega), List.take_take, Nat.min_eq_left hn]

end Knp.CuVec
