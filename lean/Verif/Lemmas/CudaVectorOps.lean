import Verif.Lemmas.CudaVector

/-! # The operations of a vector in device memory -/

namespace Knp.CuVec
open Knp

variable {α : Type} {e : Elem α} {m : Mem α} {v o : Vec} {xs ys : List α}

/-- Reading elements of a vector. -/
theorem read_holds (h : Holds (live m) v xs) (off n : Nat) (hl : off + n ≤ xs.length) :
    m.read v.data off n = .ok ((xs.drop off).take n) := by
  cases hd : v.data with
  | none =>
    obtain ⟨_, rfl⟩ := h.of_none hd
    have : n = 0 := by simp only [List.length_nil] at hl; omega
    subst this
    simp [read_zero]
  | some a =>
    obtain ⟨cs, h1, h2, h3, h4⟩ := h.cells a hd
    rw [h.size] at h4
    exact read_live h1 off n _ (by rw [List.length_take, List.length_drop]; omega) (range_of_take h4 off n hl)

/-- The contents depend on the block only. -/
theorem Holds.congr {h h' : Nat → Option (List (Option α))} (hv : Holds h v xs) (he : ∀ a, v.data = some a → h' a = h a) : Holds h' v xs :=
  ⟨hv.size, hv.le, hv.null, fun a ha => by rw [he a ha]; exact hv.cells a ha⟩

/-- Writing into a new block. -/
theorem into_new (dev : Bool) {a n : Nat} (ha : live m a = some (List.replicate n none)) (hn : xs.length ≤ n)
    (ht : dev = true → e.trivial = true ∨ xs = []) :
    ∃ m', m.fill e dev (some a) 0 xs = .ok m' ∧
      live m' = upd (live m) a (some (over (List.replicate n none) 0 (xs.map some))) := by
  cases dev with
  | false => exact write_live ha 0 xs (by rw [List.length_replicate]; omega)
  | true =>
    rcases ht rfl with h | h
    · exact assign_live ha 0 xs (by rw [List.length_replicate]; omega) (.inl h)
    · subst h
      exact assign_live (e := e) ha 0 [] (by rw [List.length_replicate]; simp) (.inr (by simp))

theorem take_new {n k : Nat} (hk : k = xs.length) : (over (List.replicate n none) 0 (xs.map some)).take k = xs.map some := by
  subst hk
  have := take_over_end (List.replicate n (none : Option α)) (xs.map some) 0 (Nat.zero_le _)
  rwa [List.length_map, Nat.zero_add, List.take_zero, List.nil_append] at this

theorem length_new {n : Nat} (hn : xs.length ≤ n) : (over (List.replicate n none) 0 (xs.map some)).length = n := by
  rw [over_length _ _ _ (by rw [List.length_map, List.length_replicate]; omega), List.length_replicate]

theorem reserve_does (dev : Bool) (n : Nat) (hv : Holds (live m) v xs) (hb : 0 < e.bytes) (ht : dev = true → e.trivial = true ∨ xs = []) :
    ∃ m' v', reserve e m dev v n = .ok (m', v') ∧ Holds (live m') v' xs ∧ rest (live m') v' = rest (live m) v ∧ n ≤ v'.cap ∧
      v'.size = v.size := by
  unfold reserve
  by_cases hn : n ≤ v.cap
  · rw [if_pos hn]
    exact ⟨m, v, rfl, hv, rfl, hn, rfl⟩
  · rw [if_neg hn]
    have hsz := hv.size
    have hle := hv.le
    have hN : ∃ N, (if dev = true then n * e.bytes else n) = N ∧ n ≤ N := by
      refine ⟨_, rfl, ?_⟩
      split
      · exact Nat.le_mul_of_pos_right n hb
      · exact Nat.le_refl _
    obtain ⟨N, hN, hnN⟩ := hN
    rw [hN]
    obtain ⟨m1, a', h1, h2, h3⟩ := alloc_pos m (n := N) (by omega)
    rw [h1]
    simp only
    have hv1 : Holds (live m1) v xs := hv.congr (by
      intro a ha
      obtain ⟨cs, h4, _⟩ := hv.cells a ha
      rw [h3]; unfold upd; rw [if_neg]; intro h5; rw [h5, h2] at h4; cases h4)
    have hr := read_holds hv1 0 v.size (by omega)
    rw [List.drop_zero, hsz, List.take_length, ← hsz] at hr
    rw [hr, Outcome.bind_ok]
    obtain ⟨m2, h4, h5⟩ := into_new (m := m1) (e := e) dev (a := a') (n := N) (xs := xs) (by rw [h3]; simp [upd]) (by omega) ht
    rw [h4, Outcome.bind_ok]
    have hcells : live m2 a' = some (over (List.replicate N none) 0 (xs.map some)) := by rw [h5]; simp [upd]
    cases hd : v.data with
    | none =>
      obtain ⟨rfl, rfl⟩ := hv.of_none hd
      simp only [Vec.empty, Mem.freeOld, Mem.freeIf, destroy_zero, Outcome.bind_ok, free_none, ne_eq, not_true_eq_false, false_and, ite_self, Outcome.pure_eq]
      refine ⟨m2, _, rfl, holds_some hcells (by rw [length_new (by omega)]; exact hnN) (by simp only [Vec.empty] at hn; omega) rfl (Nat.zero_le _)
        rfl, ?_, Nat.le_refl _, rfl⟩
      rw [h5, rest_upd]
      funext b
      rw [h3]
      unfold rest upd
      by_cases hb : b = a'
      · subst hb; simp [h2]
      · simp [hb]
    | some a =>
      obtain ⟨cs, c1, c2, c3, c4⟩ := hv.cells a hd
      have hne : a ≠ a' := by intro h; rw [h, h2] at c1; cases c1
      have c5 : live m2 a = some cs := by rw [h5, h3]; simp [upd, hne, c1]
      obtain ⟨m3, d1, d2⟩ := destroy_live (e := e) c5 0 v.size (by omega) (.inr (by rw [List.drop_zero, c4]; exact all_some xs))
      rw [d1, Outcome.bind_ok]
      obtain ⟨m4, f1, f2⟩ := free_live (m := m3) (a := a) (cs := over cs 0 (List.replicate v.size none)) (by rw [d2]; simp [upd])
      have hf : m3.freeOld dev v = .ok m4 := by
        unfold Mem.freeOld Mem.freeIf
        rw [hd, if_pos (show some a ≠ none ∧ v.cap ≠ 0 from ⟨by simp, by omega⟩), f1, ite_self]
      rw [hf, Outcome.bind_ok]
      refine ⟨m4, _, rfl, holds_some (cs := over (List.replicate N none) 0 (xs.map some)) ?_ (by rw [length_new (by omega)]; exact hnN) (by omega) hsz
        (by omega) (take_new hsz), ?_, Nat.le_refl _, rfl⟩
      · rw [f2, d2]; simp [upd, hne.symm, hcells]
      · funext b
        rw [f2, d2, h5, h3]
        unfold rest upd
        simp only [Option.some.injEq, hd]
        by_cases e1 : a' = b
        · subst e1
          rw [if_pos rfl, if_neg hne, h2]
        · rw [if_neg e1]
          by_cases e2 : b = a
          · subst e2; simp
          · have e1' : b ≠ a' := fun h => e1 h.symm
            have e2' : a ≠ b := fun h => e2 h.symm
            simp [e2, e1', e2']

/-- Elements are added behind the last one. -/
theorem append_cells (hv : Holds (live m) v xs) (zs : List α) (hc : v.size + zs.length ≤ v.cap) (hz : zs ≠ []) :
    ∃ m', m.write v.data v.size zs = .ok m' ∧ Holds (live m') { v with size := v.size + zs.length } (xs ++ zs) ∧
      rest (live m') v = rest (live m) v := by
  have hpos : 0 < zs.length := by cases zs with | nil => exact absurd rfl hz | cons a l => simp
  cases hd : v.data with
  | none =>
    have := hv.null hd
    omega
  | some a =>
    obtain ⟨cs, c1, c2, c3, c4⟩ := hv.cells a hd
    obtain ⟨m', w1, w2⟩ := write_live c1 v.size zs (by omega)
    refine ⟨m', w1, ?_, ?_⟩
    · have := holds_some (h := live m') (a := a) (c := v.cap) (s := v.size + zs.length) (cs := over cs v.size (zs.map some)) (xs := xs ++ zs)
        (by rw [w2]; simp [upd]) (by rw [over_length _ _ _ (by rw [List.length_map]; omega)]; exact c2) c3
        (by rw [List.length_append, hv.size]) hc (by
          have := take_over_end cs (zs.map some) v.size (by omega)
          rw [List.length_map] at this
          rw [this, c4, List.map_append])
      cases v
      simp only at hd
      subst hd
      exact this
    · rw [w2]
      have : v = ⟨some a, v.cap, v.size⟩ := by cases v; simp only at hd; subst hd; rfl
      rw [this, rest_upd, rest_some]

/-- The last elements are destroyed. -/
theorem cut_cells (hv : Holds (live m) v xs) (n : Nat) (hn : n ≤ v.size) :
    ∃ m', m.destroy e v.data n (v.size - n) = .ok m' ∧ Holds (live m') { v with size := n } (xs.take n) ∧ rest (live m') v = rest (live m) v := by
  have hsz := hv.size
  have hle := hv.le
  cases hd : v.data with
  | none =>
    obtain ⟨rfl, rfl⟩ := hv.of_none hd
    have : n = 0 := by simp only [Vec.empty] at hn; omega
    subst this
    exact ⟨m, rfl, by rw [List.take_nil]; exact Holds.empty _, rfl⟩
  | some a =>
    obtain ⟨cs, c1, c2, c3, c4⟩ := hv.cells a hd
    rw [hsz] at c4
    obtain ⟨m', w1, w2⟩ := destroy_live (e := e) c1 n (v.size - n) (by omega) (.inr (by
      rw [range_of_take c4 n (v.size - n) (by omega)]; exact all_some _))
    refine ⟨m', w1, ?_, ?_⟩
    · have := holds_some (h := live m') (a := a) (c := v.cap) (s := n) (cs := over cs n (List.replicate (v.size - n) none)) (xs := xs.take n)
        (by rw [w2]; simp [upd]) (by rw [over_length _ _ _ (by rw [List.length_replicate]; omega)]; exact c2) c3
        (by rw [List.length_take]; omega) (by omega) (by
          rw [take_over_before _ _ _ _ (by omega) (Nat.le_refl _), List.map_take, ← c4, List.take_take, Nat.min_eq_left (by omega)])
      cases v
      simp only at hd
      subst hd
      exact this
    · rw [w2]
      have : v = ⟨some a, v.cap, v.size⟩ := by cases v; simp only at hd; subst hd; rfl
      rw [this, rest_upd, rest_some]

theorem rest_size (h : Nat → Option (List (Option α))) (v : Vec) (n : Nat) : rest h { v with size := n } = rest h v := rfl

theorem resize_does (dev : Bool) (n : Nat) (hv : Holds (live m) v xs) (hb : 0 < e.bytes)
    (ht : dev = true → e.trivial = true ∨ xs = [] ∨ n ≤ xs.length) :
    ∃ m' v', resize e m dev v n = .ok (m', v') ∧ Holds (live m') v' (xs.take n ++ List.replicate (n - xs.length) e.default) ∧
      rest (live m') v' = rest (live m) v ∧ v'.size = n := by
  have hsz := hv.size
  unfold resize
  by_cases h1 : n = v.size
  · rw [if_pos h1]
    refine ⟨m, v, rfl, ?_, rfl, h1.symm⟩
    rw [h1, hsz, List.take_length, Nat.sub_self, List.replicate_zero, List.append_nil]
    exact hv
  · rw [if_neg h1]
    by_cases h2 : n > v.size
    · rw [if_pos h2]
      obtain ⟨m1, v1, r1, r2, r3, r4, r5⟩ := reserve_does (e := e) dev n hv hb (by
        intro hd
        rcases ht hd with h | h | h
        · exact .inl h
        · exact .inr h
        · omega)
      rw [r1, Outcome.bind_ok]
      simp only
      obtain ⟨m2, w1, w2, w3⟩ := append_cells r2 (List.replicate (n - v.size) e.default) (by rw [List.length_replicate]; omega)
        (by intro h; have := congrArg List.length h; simp only [List.length_replicate, List.length_nil] at this; omega)
      rw [r5] at w1
      rw [w1, Outcome.bind_ok]
      refine ⟨m2, _, rfl, ?_, (rest_size _ _ _).trans (w3.trans r3), rfl⟩
      rw [List.length_replicate, r5, Nat.add_sub_cancel' (by omega)] at w2
      rw [List.take_of_length_le (by omega), ← hsz]
      exact w2
    · rw [if_neg h2]
      obtain ⟨m1, w1, w2, w3⟩ := cut_cells (e := e) hv n (by omega)
      rw [w1, Outcome.bind_ok]
      refine ⟨m1, _, rfl, ?_, (rest_size _ _ _).trans w3, rfl⟩
      rw [show n - xs.length = 0 by omega, List.replicate_zero, List.append_nil]
      exact w2

theorem clear_does (hv : Holds (live m) v xs) : ∃ m', clear e m v = .ok (m', { v with size := 0 }) ∧ Holds (live m') { v with size := 0 } [] ∧
    rest (live m') v = rest (live m) v := by
  unfold clear
  by_cases h : v.size = 0
  · rw [if_pos h]
    have hx : xs = [] := List.eq_nil_of_length_eq_zero (by rw [← hv.size]; exact h)
    subst hx
    have : v = { v with size := 0 } := by cases v; simp only at h; subst h; rfl
    exact ⟨m, by rw [← this], by rw [← this]; exact hv, rfl⟩
  · rw [if_neg h]
    obtain ⟨m1, w1, w2, w3⟩ := cut_cells (e := e) hv 0 (Nat.zero_le _)
    rw [Nat.sub_zero] at w1
    rw [w1, Outcome.bind_ok]
    exact ⟨m1, rfl, by rwa [List.take_zero] at w2, w3⟩

/-- The block of a vector is freed. -/
theorem free_holds (hv : Holds (live m) v xs) : ∃ m', m.free v.data = .ok m' ∧ live m' = rest (live m) v := by
  cases hd : v.data with
  | none =>
    obtain ⟨rfl, rfl⟩ := hv.of_none hd
    exact ⟨m, rfl, (rest_empty _).symm⟩
  | some a =>
    obtain ⟨cs, c1, _⟩ := hv.cells a hd
    obtain ⟨m', f1, f2⟩ := free_live c1
    refine ⟨m', f1, ?_⟩
    rw [f2]
    funext b
    unfold rest upd
    rw [hd]
    simp only [Option.some.injEq]
    by_cases h : b = a
    · subst h; simp
    · rw [if_neg h, if_neg (fun h' => h h'.symm)]

theorem destruct_does (hv : Holds (live m) v xs) : ∃ m', destruct e m v = .ok m' ∧ live m' = rest (live m) v := by
  unfold destruct
  by_cases h : v.data = none ∨ v.cap = 0
  · rw [if_pos h]
    have hd : v.data = none := by
      rcases h with h | h
      · exact h
      · cases hd : v.data with
        | none => rfl
        | some a => obtain ⟨_, _, _, c, _⟩ := hv.cells a hd; omega
    obtain ⟨rfl, rfl⟩ := hv.of_none hd
    exact ⟨m, rfl, (rest_empty _).symm⟩
  · rw [if_neg h]
    obtain ⟨m1, w1, w2, w3⟩ := cut_cells (e := e) hv 0 (Nat.zero_le _)
    rw [Nat.sub_zero] at w1
    rw [w1, Outcome.bind_ok]
    obtain ⟨m2, f1, f2⟩ := free_holds w2
    exact ⟨m2, f1, f2.trans ((rest_size _ _ _).trans w3)⟩

/-! ## New vectors -/

/-- A new vector of `c` cells with elements `xs`. -/
theorem new_vec (dev : Bool) (c : Nat) (hc : c ≠ 0) (hx : xs.length ≤ c) (ht : dev = true → e.trivial = true ∨ xs = []) :
    ∃ m1 a, m.alloc c = (m1, some a) ∧ (∀ b cs, live m b = some cs → live m1 b = some cs) ∧ ∃ m2,
      m1.fill e dev (some a) 0 xs = .ok m2 ∧
      Holds (live m2) ⟨some a, c, xs.length⟩ xs ∧ rest (live m2) ⟨some a, c, xs.length⟩ = live m ∧
      (∀ b cs, live m b = some cs → live m2 b = some cs) := by
  obtain ⟨m1, a, h1, h2, h3⟩ := alloc_pos m hc
  obtain ⟨m2, h4, h5⟩ := into_new (m := m1) (e := e) dev (a := a) (n := c) (xs := xs) (by rw [h3]; simp [upd]) hx ht
  have keep : ∀ b cs, live m b = some cs → b ≠ a := by intro b cs hb h; rw [h, h2] at hb; cases hb
  refine ⟨m1, a, h1, ?_, m2, h4, ?_, ?_, ?_⟩
  · intro b cs hb; rw [h3]; simp [upd, keep b cs hb, hb]
  · exact holds_some (cs := over (List.replicate c none) 0 (xs.map some)) (by rw [h5]; simp [upd]) (by rw [length_new hx]; exact Nat.le_refl _)
      (by omega) rfl hx (take_new rfl)
  · rw [h5, rest_upd, h3]
    funext b
    unfold upd
    by_cases hb : b = a
    · subst hb; simp [h2]
    · simp [hb]
  · intro b cs hb; rw [h5, h3]; simp [upd, keep b cs hb, hb]

theorem keeps_holds {m1 : Mem α} (hk : ∀ b cs, live m b = some cs → live m1 b = some cs) (hv : Holds (live m) v xs) : Holds (live m1) v xs :=
  hv.congr (fun a ha => by obtain ⟨cs, c, _⟩ := hv.cells a ha; rw [c, hk a cs c])

theorem make_does (n : Nat) : Does m .empty (make e m n) (List.replicate n e.default) := by
  unfold make
  by_cases h : n = 0
  · rw [if_pos h]
    subst h
    exact ⟨m, _, rfl, Holds.empty _, rfl⟩
  · rw [if_neg h]
    obtain ⟨m1, a, h1, _, m2, h2, h3, h4, _⟩ := new_vec (e := e) (m := m) (xs := List.replicate n e.default) false n h
      (by rw [List.length_replicate]; exact Nat.le_refl _) (by intro h; cases h)
    have h2' : m1.write (some a) 0 (List.replicate n e.default) = .ok m2 := h2
    rw [h1]
    simp only [h2', Outcome.bind_ok, Outcome.pure_eq]
    rw [List.length_replicate] at h3 h4
    exact ⟨m2, _, rfl, h3, by rw [rest_empty]; exact h4⟩

theorem ofList_does (xs : List α) : Does m .empty (ofList m xs) xs := by
  unfold ofList
  by_cases h : xs = []
  · rw [if_pos h]
    subst h
    exact ⟨m, _, rfl, Holds.empty _, rfl⟩
  · rw [if_neg h]
    have h0 : xs.length ≠ 0 := fun hh => h (List.eq_nil_of_length_eq_zero hh)
    cases xs with
    | nil => exact absurd rfl h
    | cons x l =>
      obtain ⟨m1, a, h1, _, m2, h2, h3, h4, _⟩ := new_vec (e := ⟨true, 1, x⟩) (m := m) (xs := x :: l) false (x :: l).length h0
        (Nat.le_refl _) (by intro h; cases h)
      have h2' : m1.write (some a) 0 (x :: l) = .ok m2 := h2
      rw [h1]
      simp only [h2', Outcome.bind_ok, Outcome.pure_eq]
      exact ⟨m2, _, rfl, h3, by rw [rest_empty]; exact h4⟩

theorem ofArray_does (dev : Bool) (xs : List α) (hb : 0 < e.bytes) : Does m .empty (ofArray e m dev xs) xs := by
  unfold ofArray
  obtain ⟨m1, v1, r1, r2, r3, r4, r5⟩ := reserve_does (e := e) dev xs.length (Holds.empty (live m)) hb (fun _ => .inr rfl)
  rw [r1, Outcome.bind_ok]
  simp only
  by_cases h : xs = []
  · subst h
    rw [write_nil, Outcome.bind_ok]
    have : { v1 with size := List.length ([] : List α) } = v1 := by cases v1; simp only [Vec.empty] at r5; subst r5; rfl
    exact ⟨m1, _, rfl, by rw [this]; exact r2, r3⟩
  · obtain ⟨m2, w1, w2, w3⟩ := append_cells r2 xs (by rw [r5]; simp only [Vec.empty]; omega) h
    rw [r5] at w1 w2
    have w1' : m1.write v1.data 0 xs = .ok m2 := w1
    rw [w1', Outcome.bind_ok]
    have h0 : ({ v1 with size := Vec.empty.size + xs.length } : Vec) = { v1 with size := xs.length } := by simp [Vec.empty]
    rw [h0, List.nil_append] at w2
    exact ⟨m2, _, rfl, w2, (rest_size _ _ _).trans (w3.trans r3)⟩

theorem copy_does (dev : Bool) (ho : Holds (live m) o ys) (ht : dev = true → e.trivial = true ∨ ys = []) : Does m .empty (copy e m dev o) ys := by
  unfold copy
  cases hd : o.data with
  | none =>
    obtain ⟨rfl, rfl⟩ := ho.of_none hd
    refine ⟨m, .empty, ?_, Holds.empty _, rfl⟩
    simp only [Vec.empty, alloc_zero, read_zero, Outcome.bind_ok, Mem.fill, assign_nil, write_nil, ite_self, Outcome.pure_eq]
  | some a0 =>
    obtain ⟨cs, _, _, c3, _⟩ := ho.cells a0 hd
    obtain ⟨m1, a, h1, hk, m2, h2, h3, h4, _⟩ := new_vec (e := e) (m := m) (xs := ys) dev o.cap (by omega)
      (by rw [← ho.size]; exact ho.le) ht
    have hr := read_holds (keeps_holds hk ho) 0 o.size (by rw [ho.size]; omega)
    rw [List.drop_zero, ho.size, List.take_length, hd, ← ho.size] at hr
    rw [h1]
    simp only [hr, Outcome.bind_ok, h2, Outcome.pure_eq]
    rw [← ho.size] at h3 h4
    exact ⟨m2, _, rfl, h3, by rw [rest_empty]; exact h4⟩

theorem extract_does (ho : Holds (live m) o ys) (hne : ys ≠ []) : Does m .empty (extract m o) ys := by
  have h0 : o.size ≠ 0 := by rw [ho.size]; exact fun h => hne (List.eq_nil_of_length_eq_zero h)
  have hle := ho.le
  unfold extract
  rw [if_neg h0]
  cases ys with
  | nil => exact absurd rfl hne
  | cons y l =>
    obtain ⟨m1, a, h1, hk, m2, h2, h3, h4, _⟩ := new_vec (e := ⟨true, 1, y⟩) (m := m) (xs := y :: l) false o.cap (by omega)
      (by rw [← ho.size]; exact ho.le) (by intro h; cases h)
    have h2' : m1.write (some a) 0 (y :: l) = .ok m2 := h2
    have hr := read_holds (keeps_holds hk ho) 0 o.size (by rw [ho.size]; omega)
    rw [List.drop_zero, ho.size, List.take_length, ← ho.size] at hr
    rw [h1]
    simp only [hr, Outcome.bind_ok, h2', Outcome.pure_eq]
    rw [← ho.size] at h3 h4
    exact ⟨m2, _, rfl, h3, by rw [rest_empty]; exact h4⟩

/-! ## Changing a vector -/

theorem rest_keep {m1 : Mem α} {w : Vec} (hk : rest (live m1) w = live m) {x : Nat} {cs : List (Option α)} (hx : live m x = some cs) :
    w.data ≠ some x ∧ live m1 x = some cs := by
  have := congrFun hk x
  rw [hx] at this
  unfold rest at this
  split at this
  · cases this
  · rename_i h; exact ⟨h, this⟩

theorem assign_does (hv : Holds (live m) v xs) (ho : Holds (live m) o ys) :
    Does m v (assign e m v o) ys := by
  have hcc : ∀ m' : Mem α, m'.freeIf (v.cap ≠ 0) v.data = m'.free v.data := by
    intro m'
    unfold Mem.freeIf
    by_cases h : v.cap ≠ 0
    · rw [if_pos h]
    · rw [if_neg h]
      have hn : v.data = none := by
        cases hd : v.data with
        | none => rfl
        | some a => obtain ⟨_, _, _, c, _⟩ := hv.cells a hd; omega
      rw [hn]; rfl
  unfold assign
  by_cases h0 : o.size = 0
  · have hy : ys = [] := List.eq_nil_of_length_eq_zero (by rw [← ho.size]; exact h0)
    subst hy
    rw [h0]
    simp only [alloc_zero, read_zero, Outcome.bind_ok, write_nil]
    obtain ⟨m1, c1, c2, c3⟩ := clear_does (e := e) hv
    rw [c1, Outcome.bind_ok]
    simp only [hcc]
    obtain ⟨m2, f1, f2⟩ := free_holds c2
    have f1' : m1.free v.data = .ok m2 := f1
    rw [f1', Outcome.bind_ok]
    exact ⟨m2, ⟨none, 0, 0⟩, rfl, Holds.empty _, by
      show rest (live m2) .empty = _
      rw [rest_empty, f2, rest_size, c3]⟩
  · obtain ⟨m1, a, h1, hk, m2, h2, h3, h4, h5⟩ := new_vec (e := e) (m := m) (xs := ys) false o.size h0
      (by rw [ho.size]; exact Nat.le_refl _) (by intro h; cases h)
    have h2' : m1.write (some a) 0 ys = .ok m2 := h2
    have hr := read_holds (keeps_holds hk ho) 0 o.size (by rw [ho.size]; omega)
    rw [List.drop_zero, ho.size, List.take_length, ← ho.size] at hr
    rw [h1]
    simp only [hr, Outcome.bind_ok, h2']
    obtain ⟨m3, c1, c2, c3⟩ := clear_does (e := e) (keeps_holds h5 hv)
    rw [c1, Outcome.bind_ok]
    simp only [hcc]
    obtain ⟨m4, f1, f2⟩ := free_holds c2
    have f1' : m3.free v.data = .ok m4 := f1
    rw [f1', Outcome.bind_ok]
    rw [← ho.size] at h3 h4
    have hlive : live m4 = rest (live m2) v := by rw [f2, rest_size, c3]
    have hva : v.data ≠ some a := by
      intro hva
      obtain ⟨cs, c, _⟩ := hv.cells a hva
      exact (rest_keep h4 c).1 rfl
    refine ⟨m4, ⟨some a, o.size, o.size⟩, rfl, ?_, ?_⟩
    · refine h3.congr (fun b hb => ?_)
      cases hb
      rw [hlive]; unfold rest; rw [if_neg hva]
    · funext b
      rw [hlive, ← h4]
      unfold rest
      by_cases e1 : v.data = some b
      · simp [e1]
      · simp [e1]

theorem moveAssign_does (hv : Holds (live m) v xs) (ho : Holds (live m) o ys) (hd : ∀ a, v.data = some a → o.data ≠ some a) :
    ∃ m', moveAssign e m v o = .ok (m', o) ∧ Holds (live m') o ys ∧ live m' = rest (live m) v := by
  unfold moveAssign
  obtain ⟨m1, c1, c2, c3⟩ := clear_does (e := e) hv
  rw [c1, Outcome.bind_ok]
  simp only
  obtain ⟨m2, f1, f2⟩ := free_holds c2
  have f1' : m1.free v.data = .ok m2 := f1
  rw [f1', Outcome.bind_ok]
  have hl : live m2 = rest (live m) v := by rw [f2, rest_size, c3]
  refine ⟨m2, rfl, ho.congr (fun a ha => ?_), hl⟩
  rw [hl]
  unfold rest
  rw [if_neg (fun h => hd a h ha)]

theorem assignList_does (hv : Holds (live m) v xs) (ys : List α) (hb : 0 < e.bytes) (ht : e.trivial = true ∨ ys = []) : Does m v (assignList e m v ys) ys := by
  unfold assignList
  obtain ⟨m1, c1, c2, c3⟩ := clear_does (e := e) hv
  rw [c1, Outcome.bind_ok]
  simp only
  obtain ⟨m2, v2, r1, r2, r3, r4, r5⟩ := reserve_does (e := e) false ys.length c2 hb (by intro h; cases h)
  rw [r1, Outcome.bind_ok]
  simp only [Mem.copyBits]
  have r5' : v2.size = 0 := r5
  by_cases h : ys = []
  · subst h
    rw [write_nil, ite_self, Outcome.bind_ok]
    have : { v2 with size := List.length ([] : List α) } = v2 := by cases v2; simp only at r5'; subst r5'; rfl
    exact ⟨m2, _, rfl, by rw [this]; exact r2, by rw [rest_size, r3, rest_size, c3]⟩
  · obtain ⟨m3, w1, w2, w3⟩ := append_cells r2 ys (by rw [r5']; omega) h
    rw [r5'] at w1 w2
    rw [if_pos (ht.resolve_right h), w1, Outcome.bind_ok]
    rw [Nat.zero_add, List.nil_append] at w2
    exact ⟨m3, _, rfl, w2, by rw [rest_size, w3, r3, rest_size, c3]⟩

/-- Elements of the vector are replaced. -/
theorem replace_cells {a : Nat} {cs : List (Option α)} (hv : Holds (live m) v xs) (hd : v.data = some a) (hc : live m a = some cs) (off : Nat)
    (zs : List α) (hl : off + zs.length ≤ v.size) {m' : Mem α} (hm : live m' = upd (live m) a (some (over cs off (zs.map some)))) :
    Holds (live m') v (xs.take off ++ zs ++ xs.drop (off + zs.length)) ∧ rest (live m') v = rest (live m) v := by
  have hsz := hv.size
  have hle := hv.le
  obtain ⟨cs', c1, c2, c3, c4⟩ := hv.cells a hd
  rw [hc, Option.some.injEq] at c1
  subst c1
  have hvv : v = ⟨some a, v.cap, v.size⟩ := by cases v; simp only at hd; subst hd; rfl
  constructor
  · rw [hvv]
    refine holds_some (cs := over cs off (zs.map some)) (by rw [hm]; simp [upd]) (by rw [over_length _ _ _ (by rw [List.length_map]; omega)]; exact c2)
      c3 (by simp only [List.length_append, List.length_take, List.length_drop]; omega) hle ?_
    unfold over
    rw [List.take_append, List.take_of_length_le (by
      simp only [List.length_append, List.length_take, List.length_map]; omega), List.map_append, List.map_append, List.map_take, List.map_drop, ← c4,
      List.take_take, Nat.min_eq_left (by omega), List.drop_take]
    congr 2
    · simp only [List.length_append, List.length_take, List.length_map]
      omega
    · rw [List.length_map]
  · rw [hm, hvv, rest_upd, rest_some]

theorem set_does (dev : Bool) (k : Nat) (x : α) (hv : Holds (live m) v xs) :
    ∃ m', set e m dev v k x = .ok (m', decide (k < xs.length)) ∧ Holds (live m') v (xs.set k x) ∧ rest (live m') v = rest (live m) v := by
  have hsz := hv.size
  have hle := hv.le
  unfold set
  by_cases h : k ≥ v.size
  · rw [if_pos h]
    refine ⟨m, ?_, ?_, rfl⟩
    · have : decide (k < xs.length) = false := decide_eq_false (by omega)
      rw [this]
    · rw [List.set_eq_of_length_le (by omega)]; exact hv
  · rw [if_neg h]
    cases hd : v.data with
    | none => obtain ⟨rfl, rfl⟩ := hv.of_none hd; simp [Vec.empty] at h
    | some a =>
      obtain ⟨cs, c1, c2, c3, c4⟩ := hv.cells a hd
      rw [hsz] at c4
      have hw : ∃ m', m.fill e dev (some a) k [x] = .ok m' ∧
          live m' = upd (live m) a (some (over cs k ([x].map some))) := by
        cases dev with
        | false => exact write_live c1 k [x] (by rw [List.length_singleton]; omega)
        | true => exact assign_live c1 k [x] (by rw [List.length_singleton]; omega) (.inr (by
            rw [List.length_singleton, range_of_take c4 k 1 (by omega)]; exact all_some _))
      obtain ⟨m', w1, w2⟩ := hw
      rw [w1, Outcome.bind_ok]
      have := replace_cells hv hd c1 k [x] (by rw [List.length_singleton]; omega) w2
      refine ⟨m', ?_, ?_, this.2⟩
      · rw [decide_eq_true (by omega)]; rfl
      · rw [List.set_eq_take_append_cons_drop, if_pos (by omega)]
        have h1 := this.1
        rw [List.append_assoc] at h1
        exact h1

theorem push_does (dev : Bool) (x : α) (hv : Holds (live m) v xs) (hb : 0 < e.bytes) (ht : dev = true → e.trivial = true ∨ xs = []) :
    Does m v (push e m dev v x) (xs ++ [x]) := by
  have hle := hv.le
  have hr : ∃ m1 v1, grow e m dev v = .ok (m1, v1) ∧
      Holds (live m1) v1 xs ∧ rest (live m1) v1 = rest (live m) v ∧ v.size + 1 ≤ v1.cap ∧ v1.size = v.size := by
    unfold grow
    by_cases h : v.size = v.cap
    · rw [if_pos h]
      obtain ⟨m1, v1, r1, r2, r3, r4, r5⟩ := reserve_does (e := e) dev ((v.size + 1) * 2) hv hb ht
      exact ⟨m1, v1, r1, r2, r3, by omega, r5⟩
    · rw [if_neg h]
      exact ⟨m, v, rfl, hv, rfl, by omega, rfl⟩
  obtain ⟨m1, v1, r1, r2, r3, r4, r5⟩ := hr
  unfold push
  rw [r1, Outcome.bind_ok]
  simp only
  cases dev with
  | true =>
    rw [if_pos rfl]
    obtain ⟨m2, w1, w2, w3⟩ := append_cells r2 [x] (by rw [r5]; exact r4) (by simp)
    rw [w1, Outcome.bind_ok]
    exact ⟨m2, _, rfl, w2, (rest_size _ _ _).trans (w3.trans r3)⟩
  | false =>
    rw [if_neg (by simp)]
    obtain ⟨m2, v2, s1, s2, s3, s4⟩ := resize_does (e := e) false (v1.size + 1) r2 hb (by intro h; cases h)
    rw [s1, Outcome.bind_ok]
    simp only
    obtain ⟨m3, t1, t2, t3⟩ := set_does (e := e) false (v2.size - 1) x s2
    rw [t1, Outcome.bind_ok]
    refine ⟨m3, v2, rfl, ?_, t3.trans (s3.trans r3)⟩
    have h1 := r2.size
    rw [s4, h1, List.take_of_length_le (by omega), Nat.add_sub_cancel_left, Nat.add_sub_cancel] at t2
    rw [List.set_append_right _ _ (Nat.le_refl _), Nat.sub_self] at t2
    exact t2

theorem pop_does (hv : Holds (live m) v xs) :
    ∃ v', pop e m v = .ok (v', xs.getLastD e.default) ∧ Holds (live m) v' xs.dropLast ∧ rest (live m) v' = rest (live m) v := by
  have hsz := hv.size
  unfold pop
  by_cases h : v.size = 0
  · rw [if_pos h]
    have : xs = [] := List.eq_nil_of_length_eq_zero (by omega)
    subst this
    exact ⟨v, rfl, hv, rfl⟩
  · rw [if_neg h, read_holds hv (v.size - 1) 1 (by omega), Outcome.bind_ok]
    have hne : xs ≠ [] := by intro hx; subst hx; exact h hsz
    refine ⟨{ v with size := v.size - 1 }, ?_, ⟨?_, Nat.le_trans (Nat.sub_le _ _) hv.le, hv.null, ?_⟩, rest_size _ _ _⟩
    · rw [Outcome.pure_eq]
      have : (xs.drop (v.size - 1)).take 1 = [xs.getLast hne] := by
        rw [hsz]
        conv in (List.drop _ _) => rw [← List.dropLast_concat_getLast hne]
        rw [List.drop_append_of_le_length (by rw [List.length_dropLast]; simp), List.drop_of_length_le (by rw [List.length_dropLast]; simp)]
        rfl
      rw [this]
      simp [List.getLastD_eq_getLast?, List.getLast?_eq_some_getLast hne]
    · simp only [List.length_dropLast, hsz]
    · intro a ha
      obtain ⟨cs, c1, c2, c3, c4⟩ := hv.cells a ha
      refine ⟨cs, c1, c2, c3, ?_⟩
      rw [List.dropLast_eq_take, List.map_take, ← c4, List.take_take, ← hsz]
      congr 1
      simp only
      omega

theorem erase_does (dev : Bool) (a b : Nat) (hv : Holds (live m) v xs) (hb : 0 < e.bytes) (ht : dev = false → e.trivial = true ∨ b ≤ a ∨ xs.length ≤ a ∨ xs.length ≤ b) :
    Does m v (erase e m dev v a b) (if a < b then xs.take a ++ xs.drop b else xs) := by
  have hsz := hv.size
  have hle := hv.le
  unfold erase
  by_cases h1 : a ≥ v.size
  · rw [if_pos h1]
    refine ⟨m, v, rfl, ?_, rfl⟩
    split
    · rw [List.take_of_length_le (by omega), List.drop_of_length_le (by omega), List.append_nil]; exact hv
    · exact hv
  · rw [if_neg h1]
    by_cases h2 : b ≤ a
    · rw [if_pos h2, if_neg (by omega)]
      exact ⟨m, v, rfl, hv, rfl⟩
    · rw [if_neg h2, if_pos (show a < b by omega)]
      by_cases h3 : b ≥ v.size
      · rw [if_pos h3, Nat.min_eq_right h3, show v.size - (v.size - a) = a by omega]
        obtain ⟨m', v', r1, r2, r3, _⟩ := resize_does (e := e) dev a hv hb (fun _ => .inr (.inr (by omega)))
        refine ⟨m', v', r1, ?_, r3⟩
        rw [List.drop_of_length_le (by omega)]
        rwa [show a - xs.length = 0 by omega, List.replicate_zero] at r2
      · rw [if_neg h3, show v.size - (v.size - a) + (v.size - b) = a + (v.size - b) by omega]
        obtain ⟨blk, hd⟩ : ∃ blk, v.data = some blk := by
          cases hd : v.data with
          | none => obtain ⟨rfl, rfl⟩ := hv.of_none hd; simp [Vec.empty] at h1
          | some blk => exact ⟨blk, rfl⟩
        obtain ⟨cs, c1, c2, c3, c4⟩ := hv.cells blk hd
        rw [hsz] at c4
        have htail : ((xs.drop b).take (v.size - b)) = xs.drop b := List.take_of_length_le (by rw [List.length_drop]; omega)
        have hlen : (xs.drop b).length = v.size - b := by rw [List.length_drop]; omega
        have hcut : (xs.take a ++ xs.drop b ++ xs.drop (a + (xs.drop b).length)).take (a + (v.size - b)) = xs.take a ++ xs.drop b := by
          have : (xs.take a ++ xs.drop b).length = a + (v.size - b) := by
            rw [List.length_append, List.length_take, hlen]; omega
          rw [← this, List.take_left']
          rfl
        cases dev with
        | true =>
          rw [if_pos rfl, read_holds hv b (v.size - b) (by omega), Outcome.bind_ok, htail, hd]
          obtain ⟨m1, w1, w2⟩ := assign_live (e := e) c1 a (xs.drop b) (by omega) (.inr (by
            rw [range_of_take c4 a _ (by omega)]; exact all_some _))
          rw [w1, Outcome.bind_ok]
          obtain ⟨p1, p2⟩ := replace_cells hv hd c1 a (xs.drop b) (by omega) w2
          have hl : (xs.take a ++ xs.drop b ++ xs.drop (a + (xs.drop b).length)).length = v.size := p1.size.symm
          obtain ⟨m', v', r1, r2, r3, _⟩ := resize_does (e := e) true (a + (v.size - b)) p1 hb (fun _ => .inr (.inr (by rw [hl]; omega)))
          refine ⟨m', v', r1, ?_, r3.trans p2⟩
          rw [hl, show a + (v.size - b) - v.size = 0 by omega, List.replicate_zero, List.append_nil, hcut] at r2
          exact r2
        | false =>
          have htr : e.trivial = true := by
            rcases ht rfl with h | h | h | h
            · exact h
            · omega
            · omega
            · omega
          rw [if_neg (by simp)]
          obtain ⟨m1, q, h4, hk, m2, h5, h6, h7, h8⟩ := new_vec (e := e) (m := m) (xs := xs.drop b) false (v.size - b) (by omega)
            (by omega) (by intro h; cases h)
          have h5' : m1.write (some q) 0 (xs.drop b) = .ok m2 := h5
          rw [h4]
          simp only
          rw [read_holds (keeps_holds hk hv) b (v.size - b) (by omega), Outcome.bind_ok, htail, h5', Outcome.bind_ok, hd]
          have c5 := (rest_keep h7 c1).2
          have hne : q ≠ blk := fun h => (rest_keep h7 c1).1 (by rw [h])
          obtain ⟨m3, d1, d2⟩ := destroy_live (e := e) c5 a (v.size - a) (by omega) (.inl htr)
          rw [d1, Outcome.bind_ok]
          have hq3 : Holds (live m3) ⟨some q, v.size - b, (xs.drop b).length⟩ (xs.drop b) := h6.congr (fun x hx => by
            cases hx; rw [d2]; simp [upd, hne])
          have hrd := read_holds hq3 0 (v.size - b) (by omega)
          simp only [List.drop_zero] at hrd
          rw [hrd, Outcome.bind_ok, htail]
          have c6 : live m3 blk = some (over cs a (List.replicate (v.size - a) none)) := by rw [d2]; simp [upd]
          obtain ⟨m4, w1, w2⟩ := write_live c6 a (xs.drop b) (by
            rw [over_length _ _ _ (by rw [List.length_replicate]; omega)]; omega)
          rw [w1, Outcome.bind_ok]
          -- the cells behind the tail are empty now
          have hA : (over (over cs a (List.replicate (v.size - a) none)) a ((xs.drop b).map some)).take (a + (v.size - b)) =
              (xs.take a ++ xs.drop b).map some := by
            have := take_over_end (over cs a (List.replicate (v.size - a) none)) ((xs.drop b).map some) a (by
              rw [over_length _ _ _ (by rw [List.length_replicate]; omega)]; omega)
            rw [List.length_map, hlen] at this
            rw [this, take_over_before _ _ _ _ (by omega) (Nat.le_refl _), List.map_append, List.map_take, ← c4, List.take_take,
              Nat.min_eq_left (by omega)]
          have c7 : live m4 blk = some (over (over cs a (List.replicate (v.size - a) none)) a ((xs.drop b).map some)) := by rw [w2]; simp [upd]
          have hlen2 : (over (over cs a (List.replicate (v.size - a) none)) a ((xs.drop b).map some)).length = cs.length := by
            rw [over_length _ _ _ (by rw [over_length _ _ _ (by rw [List.length_replicate]; omega), List.length_map]; omega),
              over_length _ _ _ (by rw [List.length_replicate]; omega)]
          unfold resize
          rw [if_neg (by omega), if_neg (by omega), hd]
          obtain ⟨m5, e1, e2⟩ := destroy_live (e := e) c7 (a + (v.size - b)) (v.size - (a + (v.size - b))) (by rw [hlen2]; omega) (.inl htr)
          rw [e1]
          simp only [Outcome.bind_ok, Outcome.pure_eq]
          have hq5 : Holds (live m5) ⟨some q, v.size - b, (xs.drop b).length⟩ (xs.drop b) := hq3.congr (fun x hx => by
            cases hx; rw [e2, w2]; simp [upd, hne])
          obtain ⟨cq, g1, g2, _, _⟩ := hq5.cells q rfl
          obtain ⟨m6, i1, i2⟩ := destroy_live (e := e) g1 0 (v.size - b) (by simp only at g2; omega) (.inl htr)
          rw [i1, Outcome.bind_ok]
          obtain ⟨m7, j1, j2⟩ := free_live (m := m6) (a := q) (cs := over cq 0 (List.replicate (v.size - b) none)) (by rw [i2]; simp [upd])
          rw [j1, Outcome.bind_ok]
          refine ⟨m7, ⟨some blk, v.cap, a + (v.size - b)⟩, rfl, ?_, ?_⟩
          · refine holds_some (cs := over (over (over cs a (List.replicate (v.size - a) none)) a ((xs.drop b).map some)) (a + (v.size - b))
              (List.replicate (v.size - (a + (v.size - b))) none)) ?_ ?_ c3 ?_ (by omega) ?_
            · rw [j2, i2, e2]; simp [upd, hne.symm]
            · rw [over_length _ _ _ (by rw [List.length_replicate, hlen2]; omega), hlen2]; exact c2
            · rw [List.length_append, List.length_take, hlen]; omega
            · rw [take_over_before _ _ _ _ (by rw [hlen2]; omega) (Nat.le_refl _), hA]
          · rw [rest_some]
            have hvv : v = ⟨some blk, v.cap, v.size⟩ := by cases v; simp only at hd; subst hd; rfl
            rw [hvv, rest_some]
            funext y
            by_cases ey : y = blk
            · simp [ey]
            · rw [if_neg ey, if_neg ey, j2, i2, e2, w2, d2]
              have := congrFun h7 y
              unfold rest at this
              simp only [Option.some.injEq] at this
              unfold upd
              by_cases eq : y = q
              · subst eq
                rw [if_pos rfl] at this ⊢
                exact this
              · rw [if_neg (fun h => eq h.symm)] at this
                simp [eq, ey, this]

end Knp.CuVec
