import Verif.Lemmas.CudaVectorOps

/-! # Programs on vectors in device memory -/

namespace Knp.CuVec
open Knp Knp.Spec

variable {α : Type}

/-- The vector with a number. -/
def vecOf (vs : List (Option Vec)) (i : Nat) : Option Vec := (vs[i]?).join

/-- A function with one value replaced. -/
def fset {β : Type} (f : Nat → Option β) (i : Nat) (x : Option β) : Nat → Option β := fun j => if j = i then x else f j

/-- Every vector holds its list, no block belongs to two vectors, and every block belongs to a vector. -/
structure GoodF (h : Nat → Option (List (Option α))) (f : Nat → Option Vec) (c : Nat → Option (List α)) : Prop where
  here : ∀ i xs, c i = some xs → ∃ v, f i = some v ∧ Holds h v xs
  there : ∀ i v, f i = some v → ∃ xs, c i = some xs
  apart : ∀ i j v w a, f i = some v → f j = some w → v.data = some a → w.data = some a → i = j
  owned : ∀ a cs, h a = some cs → ∃ i v, f i = some v ∧ v.data = some a

/-- The heap without the block of a vector that may not exist. -/
def restO (h : Nat → Option (List (Option α))) : Option Vec → Nat → Option (List (Option α))
  | none => h
  | some v => rest h v

theorem restO_some {h : Nat → Option (List (Option α))} {o : Option Vec} {a : Nat} {cs : List (Option α)} (hh : restO h o a = some cs) :
    h a = some cs ∧ ∀ v, o = some v → v.data ≠ some a := by
  cases o with
  | none => exact ⟨hh, fun _ e => by cases e⟩
  | some v =>
    have hh : (if v.data = some a then none else h a) = some cs := hh
    split at hh
    · cases hh
    · rename_i hn
      exact ⟨hh, fun w e => by cases e; exact hn⟩

theorem restO_of {h : Nat → Option (List (Option α))} {o : Option Vec} {a : Nat} {cs : List (Option α)} (hh : h a = some cs)
    (ho : ∀ v, o = some v → v.data ≠ some a) : restO h o a = some cs := by
  cases o with
  | none => exact hh
  | some v => show (if v.data = some a then none else h a) = some cs; rw [if_neg (ho v rfl)]; exact hh

theorem GoodF.held {h : Nat → Option (List (Option α))} {f : Nat → Option Vec} {c : Nat → Option (List α)} (g : GoodF h f c) {i : Nat} {v : Vec}
    (hv : f i = some v) : ∃ xs, c i = some xs ∧ Holds h v xs := by
  obtain ⟨xs, hx⟩ := g.there i v hv
  obtain ⟨w, hw, hh⟩ := g.here i xs hx
  rw [hv] at hw
  cases hw
  exact ⟨xs, hx, hh⟩

/-- A vector is changed or created. -/
theorem GoodF.put {h h' : Nat → Option (List (Option α))} {f : Nat → Option Vec} {c : Nat → Option (List α)} (g : GoodF h f c) (i : Nat)
    {v' : Vec} {xs' : List α} (hh : Holds h' v' xs') (hr : rest h' v' = restO h (f i)) : GoodF h' (fset f i (some v')) (fset c i (some xs')) := by
  -- blocks of the other vectors are where they were
  have keep : ∀ j v a, j ≠ i → f j = some v → v.data = some a → h' a = h a ∧ v'.data ≠ some a := by
    intro j v a hj hv ha
    obtain ⟨xs, _, hx⟩ := g.held hv
    obtain ⟨cs, hc, _⟩ := hx.cells a ha
    have h1 := restO_of (o := f i) hc (by
      intro w hw hwa
      exact hj (g.apart j i v w a hv hw ha hwa))
    rw [← hr] at h1
    unfold rest at h1
    split at h1
    · cases h1
    · rename_i hn; exact ⟨h1.trans hc.symm, hn⟩
  constructor
  · intro j xs hx
    unfold fset at hx ⊢
    by_cases e : j = i
    · rw [if_pos e] at hx ⊢
      cases hx
      exact ⟨v', rfl, hh⟩
    · rw [if_neg e] at hx ⊢
      obtain ⟨v, hv, hvx⟩ := g.here j xs hx
      exact ⟨v, hv, hvx.congr (fun a ha => (keep j v a e hv ha).1)⟩
  · intro j v hv
    unfold fset at hv ⊢
    by_cases e : j = i
    · rw [if_pos e]; exact ⟨_, rfl⟩
    · rw [if_neg e] at hv ⊢; exact g.there j v hv
  · intro j k v w a hv hw ha hb
    unfold fset at hv hw
    by_cases ej : j = i
    · by_cases ek : k = i
      · rw [ej, ek]
      · rw [if_pos ej] at hv
        rw [if_neg ek] at hw
        cases hv
        exact absurd ha (keep k w a ek hw hb).2
    · rw [if_neg ej] at hv
      by_cases ek : k = i
      · rw [if_pos ek] at hw
        cases hw
        exact absurd hb (keep j v a ej hv ha).2
      · rw [if_neg ek] at hw
        exact g.apart j k v w a hv hw ha hb
  · intro a cs ha
    by_cases hd : v'.data = some a
    · exact ⟨i, v', by unfold fset; rw [if_pos rfl], hd⟩
    · have h1 : rest h' v' a = some cs := by unfold rest; rw [if_neg hd]; exact ha
      rw [hr] at h1
      obtain ⟨h2, h3⟩ := restO_some h1
      obtain ⟨j, v, hv, hva⟩ := g.owned a cs h2
      refine ⟨j, v, ?_, hva⟩
      unfold fset
      rw [if_neg]
      · exact hv
      · intro e
        rw [e] at hv
        exact h3 v hv hva

/-- A vector is destroyed. -/
theorem GoodF.kill {h : Nat → Option (List (Option α))} {f : Nat → Option Vec} {c : Nat → Option (List α)} (g : GoodF h f c) (i : Nat)
    {v : Vec} (hv : f i = some v) : GoodF (rest h v) (fset f i none) (fset c i none) := by
  constructor
  · intro j xs hx
    unfold fset at hx ⊢
    by_cases e : j = i
    · rw [if_pos e] at hx; cases hx
    · rw [if_neg e] at hx ⊢
      obtain ⟨w, hw, hh⟩ := g.here j xs hx
      refine ⟨w, hw, hh.congr (fun a ha => ?_)⟩
      unfold rest
      rw [if_neg]
      intro hva
      exact e (g.apart j i w v a hw hv ha hva)
  · intro j w hw
    unfold fset at hw ⊢
    by_cases e : j = i
    · rw [if_pos e] at hw; cases hw
    · rw [if_neg e] at hw ⊢; exact g.there j w hw
  · intro j k w u a hw hu ha hb
    unfold fset at hw hu
    by_cases ej : j = i
    · rw [if_pos ej] at hw; cases hw
    · by_cases ek : k = i
      · rw [if_pos ek] at hu; cases hu
      · rw [if_neg ej] at hw
        rw [if_neg ek] at hu
        exact g.apart j k w u a hw hu ha hb
  · intro a cs ha
    unfold rest at ha
    split at ha
    · cases ha
    · rename_i hn
      obtain ⟨j, w, hw, hwa⟩ := g.owned a cs ha
      refine ⟨j, w, ?_, hwa⟩
      unfold fset
      rw [if_neg]
      · exact hw
      · intro e
        rw [e, hv] at hw
        cases hw
        exact hn hwa

/-- The block of a vector goes to another one, which has none. -/
theorem GoodF.give {h : Nat → Option (List (Option α))} {f : Nat → Option Vec} {c : Nat → Option (List α)} (g : GoodF h f c) (i j : Nat)
    {o : Vec} {ys : List α} (ho : f i = some o) (hy : c i = some ys) (hj : f j = none) :
    GoodF h (fset (fset f i (some .empty)) j (some o)) (fset (fset c i (some [])) j (some ys)) := by
  have hoy : Holds h o ys := by
    obtain ⟨zs, hz, hh⟩ := g.held ho
    rw [hy] at hz; cases hz; exact hh
  constructor
  · intro k xs hx
    unfold fset at hx ⊢
    by_cases ek : k = j
    · rw [if_pos ek] at hx ⊢; cases hx; exact ⟨o, rfl, hoy⟩
    · rw [if_neg ek] at hx ⊢
      by_cases ei : k = i
      · rw [if_pos ei] at hx ⊢; cases hx; exact ⟨_, rfl, Holds.empty _⟩
      · rw [if_neg ei] at hx ⊢; exact g.here k xs hx
  · intro k w hw
    unfold fset at hw ⊢
    by_cases ek : k = j
    · rw [if_pos ek]; exact ⟨_, rfl⟩
    · rw [if_neg ek] at hw ⊢
      by_cases ei : k = i
      · rw [if_pos ei]; exact ⟨_, rfl⟩
      · rw [if_neg ei] at hw ⊢; exact g.there k w hw
  · -- the old number of the vector with a number now
    have old : ∀ k w a, fset (fset f i (some .empty)) j (some o) k = some w → w.data = some a →
        (k = j ∧ w = o) ∨ (k ≠ j ∧ k ≠ i ∧ f k = some w) := by
      intro k w a hw ha
      unfold fset at hw
      by_cases ek : k = j
      · rw [if_pos ek] at hw; cases hw; exact .inl ⟨ek, rfl⟩
      · rw [if_neg ek] at hw
        by_cases ei : k = i
        · rw [if_pos ei] at hw; cases hw; cases ha
        · rw [if_neg ei] at hw; exact .inr ⟨ek, ei, hw⟩
    intro k l w u a hw hu ha hb
    rcases old k w a hw ha with ⟨hk, hwo⟩ | ⟨hk, hki, hkw⟩
    · rcases old l u a hu hb with ⟨hl, huo⟩ | ⟨hl, hli, hlu⟩
      · rw [hk, hl]
      · subst hwo
        exact absurd (g.apart i l w u a ho hlu ha hb) (fun h => hli h.symm)
    · rcases old l u a hu hb with ⟨hl, huo⟩ | ⟨hl, hli, hlu⟩
      · subst huo
        exact absurd (g.apart i k u w a ho hkw hb ha) (fun h => hki h.symm)
      · exact g.apart k l w u a hkw hlu ha hb
  · intro a cs ha
    obtain ⟨k, w, hw, hwa⟩ := g.owned a cs ha
    by_cases ei : k = i
    · rw [ei, ho] at hw
      cases hw
      exact ⟨j, o, by unfold fset; rw [if_pos rfl], hwa⟩
    · refine ⟨k, w, ?_, hwa⟩
      unfold fset
      rw [if_neg, if_neg ei]
      · exact hw
      · intro e; rw [e, hj] at hw; cases hw

/-- The memory and the vectors of a program agree with lists. -/
structure Good (s : State α) (ls : List (Option (List α))) : Prop where
  len : s.vecs.length = ls.length
  good : GoodF (live s.mem) (vecOf s.vecs) (contents ls)

theorem fset_append {β : Type} (l : List (Option β)) (x : Option β) : (fun i => ((l ++ [x])[i]?).join) = fset (fun i => (l[i]?).join) l.length x := by
  funext i
  unfold fset
  rw [List.getElem?_append]
  split
  · rename_i h; rw [if_neg (by omega)]
  · split
    · rename_i h; subst h; simp
    · rename_i h1 h2
      show _ = (l[i]?).join
      rw [List.getElem?_eq_none (l := l) (by omega), List.getElem?_eq_none (by rw [List.length_singleton]; omega)]

theorem fset_set {β : Type} (l : List (Option β)) (i : Nat) (x : Option β) (hi : i < l.length) :
    (fun j => ((l.set i x)[j]?).join) = fset (fun j => (l[j]?).join) i x := by
  funext j
  unfold fset
  rw [List.getElem?_set]
  by_cases e : i = j
  · subst e; simp [hi]
  · rw [if_neg e, if_neg (fun h => e h.symm)]

theorem contents_lt {ls : List (Option (List α))} {i : Nat} {xs : List α} (h : contents ls i = some xs) : i < ls.length := by
  unfold contents at h
  rcases Nat.lt_or_ge i ls.length with h1 | h1
  · exact h1
  · rw [List.getElem?_eq_none h1] at h; cases h

theorem contents_end {ls : List (Option (List α))} : contents ls ls.length = none := by
  unfold contents; rw [List.getElem?_eq_none (Nat.le_refl _)]; rfl

theorem vec_eq (s : State α) (i : Nat) {v : Vec} (h : vecOf s.vecs i = some v) : s.vec i = .ok v := by
  unfold vecOf at h
  unfold State.vec
  cases hg : s.vecs[i]? with
  | none => rw [hg] at h; cases h
  | some x => rw [hg] at h; cases x with
    | none => cases h
    | some w => cases h; rfl

variable {s : State α} {ls : List (Option (List α))}

theorem Good.vec (g : Good s ls) {i : Nat} {xs : List α} (h : contents ls i = some xs) :
    ∃ v, s.vec i = .ok v ∧ vecOf s.vecs i = some v ∧ Holds (live s.mem) v xs := by
  obtain ⟨v, hv, hh⟩ := g.good.here i xs h
  exact ⟨v, vec_eq s i hv, hv, hh⟩

theorem Good.add (g : Good s ls) {m' : Mem α} {v' : Vec} {xs : List α} (hh : Holds (live m') v' xs) (hr : rest (live m') v' = rest (live s.mem) .empty) :
    Good (s.add (m', v')).1 (ls ++ [some xs]) := by
  constructor
  · simp only [State.add, List.length_append, g.len, List.length_singleton]
  · have h1 : vecOf (s.vecs ++ [some v']) = fset (vecOf s.vecs) s.vecs.length (some v') := fset_append _ _
    have h2 : contents (ls ++ [some xs]) = fset (contents ls) ls.length (some xs) := fset_append _ _
    show GoodF (live m') (vecOf (s.vecs ++ [some v'])) _
    rw [h1, h2, g.len]
    refine g.good.put ls.length hh ?_
    have h3 : vecOf s.vecs ls.length = none := by
      unfold vecOf; rw [List.getElem?_eq_none (by rw [g.len]; exact Nat.le_refl _)]; rfl
    rw [h3, hr, rest_empty]
    rfl

theorem Good.put (g : Good s ls) {i : Nat} {v : Vec} (hv : vecOf s.vecs i = some v) {m' : Mem α} {v' : Vec} {xs : List α}
    (hh : Holds (live m') v' xs) (hr : rest (live m') v' = rest (live s.mem) v) : Good (s.put i (m', v')).1 (ls.set i (some xs)) := by
  have hi : i < ls.length := by
    obtain ⟨ys, hy⟩ := g.good.there i v hv
    exact contents_lt hy
  constructor
  · simp only [State.put, List.length_set, g.len]
  · have h1 : vecOf (s.vecs.set i (some v')) = fset (vecOf s.vecs) i (some v') := fset_set _ _ _ (by rw [g.len]; exact hi)
    have h2 : contents (ls.set i (some xs)) = fset (contents ls) i (some xs) := fset_set _ _ _ hi
    show GoodF (live m') (vecOf (s.vecs.set i (some v'))) _
    rw [h1, h2]
    refine g.good.put i hh ?_
    rw [hv, hr]
    rfl

theorem vecs_same {i : Nat} {v : Vec} (hv : vecOf s.vecs i = some v) : (⟨s.mem, s.vecs.set i (some v)⟩ : State α) = s := by
  have : s.vecs.set i (some v) = s.vecs := by
    apply List.ext_getElem?
    intro j
    rw [List.getElem?_set]
    by_cases e : i = j
    · subst e
      unfold vecOf at hv
      cases hg : s.vecs[i]? with
      | none => rw [hg] at hv; cases hv
      | some x =>
        rw [hg] at hv
        cases x with
        | none => cases hv
        | some w =>
          cases hv
          rw [if_pos rfl, if_pos]
          rcases Nat.lt_or_ge i s.vecs.length with h | h
          · exact h
          · rw [List.getElem?_eq_none h] at hg; cases hg
    · rw [if_neg e]
  rw [this]

/-- A step that is allowed does what lists do. -/
theorem step_good (e : Elem α) (hb : 0 < e.bytes) (g : Good s ls) (op : Op α) {r : List (Option (List α)) × Ret α} (hw : Works e.trivial ls op)
    (hl : listStep e.default ls op = some r) : ∃ s', step e s op = .ok (s', r.2) ∧ Good s' r.1 := by
  cases op with
  | make n =>
    cases hl
    obtain ⟨m', v', h1, h2, h3⟩ := make_does (e := e) (m := s.mem) n
    exact ⟨_, by simp only [step, h1, Outcome.bind_ok]; rfl, g.add h2 h3⟩
  | ofList xs =>
    cases hl
    obtain ⟨m', v', h1, h2, h3⟩ := ofList_does (m := s.mem) xs
    exact ⟨_, by simp only [step, h1, Outcome.bind_ok]; rfl, g.add h2 h3⟩
  | ofArray dev xs =>
    cases hl
    obtain ⟨m', v', h1, h2, h3⟩ := ofArray_does (e := e) (m := s.mem) dev xs hb
    exact ⟨_, by simp only [step, h1, Outcome.bind_ok]; rfl, g.add h2 h3⟩
  | copy dev i =>
    unfold listStep at hl
    obtain ⟨xs, hx, rfl⟩ := Option.map_eq_some_iff.1 hl
    obtain ⟨v, hv, hf, hh⟩ := g.vec hx
    obtain ⟨m', v', h1, h2, h3⟩ := copy_does (e := e) dev hh (by
      intro hd
      rcases hw hd with h | h
      · exact .inl h
      · rw [hx] at h; cases h; exact .inr rfl)
    exact ⟨_, by simp only [step, hv, h1, Outcome.bind_ok]; rfl, g.add h2 h3⟩
  | moveNew i =>
    unfold listStep at hl
    obtain ⟨xs, hx, rfl⟩ := Option.map_eq_some_iff.1 hl
    obtain ⟨v, hv, hf, hh⟩ := g.vec hx
    refine ⟨_, by simp only [step, hv, Outcome.bind_ok]; rfl, ⟨?_, ?_⟩⟩
    · simp only [List.length_append, List.length_set, g.len, List.length_singleton]
    · have hi := contents_lt hx
      have h1 : vecOf (s.vecs.set i (some .empty) ++ [some v]) = fset (fset (vecOf s.vecs) i (some .empty)) ls.length (some v) := by
        have := fset_append (s.vecs.set i (some Vec.empty)) (some v)
        rw [List.length_set, g.len, fset_set _ _ _ (by rw [g.len]; exact hi)] at this
        exact this
      have h2 : contents (ls.set i (some []) ++ [some xs]) = fset (fset (contents ls) i (some [])) ls.length (some xs) := by
        have := fset_append (ls.set i (some ([] : List α))) (some xs)
        rw [List.length_set, fset_set _ _ _ hi] at this
        exact this
      show GoodF (live s.mem) (vecOf (s.vecs.set i (some .empty) ++ [some v])) _
      rw [h1, h2]
      refine g.good.give i ls.length hf hx ?_
      unfold vecOf; rw [List.getElem?_eq_none (by rw [g.len]; exact Nat.le_refl _)]; rfl
  | extract i =>
    unfold listStep at hl
    obtain ⟨xs, hx, rfl⟩ := Option.map_eq_some_iff.1 hl
    obtain ⟨v, hv, hf, hh⟩ := g.vec hx
    obtain ⟨m', v', h1, h2, h3⟩ := extract_does hh (by intro h; subst h; exact hw hx)
    exact ⟨_, by simp only [step, hv, h1, Outcome.bind_ok]; rfl, g.add h2 h3⟩
  | assign i j =>
    unfold listStep at hl
    obtain ⟨xs, hx, hl⟩ := Option.bind_eq_some_iff.1 hl
    obtain ⟨ys, hy, rfl⟩ := Option.map_eq_some_iff.1 hl
    obtain ⟨v, hv, hf, hh⟩ := g.vec hx
    obtain ⟨w, hw', hwf, hwh⟩ := g.vec hy
    by_cases e1 : i = j
    · refine ⟨s, by simp only [step, hv, hw', if_pos e1, Outcome.bind_ok]; rfl, ?_⟩
      subst e1
      have := g.put (m' := s.mem) hwf hwh rfl
      have h2 : (s.put i (s.mem, w)).1 = s := vecs_same hwf
      rw [h2] at this
      exact this
    · obtain ⟨m', v', h1, h2, h3⟩ := assign_does (e := e) hh hwh
      exact ⟨_, by simp only [step, hv, hw', if_neg e1, h1, Outcome.bind_ok]; rfl, g.put hf h2 h3⟩
  | moveAssign i j =>
    unfold listStep at hl
    obtain ⟨xs, hx, hl⟩ := Option.bind_eq_some_iff.1 hl
    obtain ⟨ys, hy, rfl⟩ := Option.map_eq_some_iff.1 hl
    obtain ⟨v, hv, hf, hh⟩ := g.vec hx
    obtain ⟨w, hw', hwf, hwh⟩ := g.vec hy
    by_cases e1 : i = j
    · refine ⟨s, by simp only [step, hv, hw', if_pos e1, Outcome.bind_ok]; rfl, ?_⟩
      show Good s (if i = j then ls else _)
      rw [if_pos e1]
      exact g
    · obtain ⟨m', h1, h2, h3⟩ := moveAssign_does (e := e) hh hwh (by
        intro a ha ha'
        exact e1 (g.good.apart i j v w a hf hwf ha ha'))
      refine ⟨_, by simp only [step, hv, hw', if_neg e1, h1, Outcome.bind_ok]; rfl, ?_⟩
      show Good _ (if i = j then ls else _)
      rw [if_neg e1]
      have hi := contents_lt hx
      have hj := contents_lt hy
      constructor
      · simp only [List.length_set, g.len]
      · have p1 : vecOf ((s.vecs.set j (some .empty)).set i (some w)) = fset (fset (fset (vecOf s.vecs) i none) j (some .empty)) i (some w) := by
          have := fset_set (s.vecs.set j (some Vec.empty)) i (some w) (by rw [List.length_set, g.len]; exact hi)
          rw [fset_set s.vecs j (some Vec.empty) (by rw [g.len]; exact hj)] at this
          refine this.trans ?_
          funext k; unfold fset vecOf
          by_cases h : k = i
          · simp [h]
          · simp [h]
        have p2 : contents ((ls.set j (some [])).set i (some ys)) = fset (fset (fset (contents ls) i none) j (some [])) i (some ys) := by
          have := fset_set (ls.set j (some ([] : List α))) i (some ys) (by rw [List.length_set]; exact hi)
          rw [fset_set ls j (some []) hj] at this
          refine this.trans ?_
          funext k; unfold fset contents
          by_cases h : k = i
          · simp [h]
          · simp [h]
        show GoodF (live m') (vecOf ((s.vecs.set j (some .empty)).set i (some w))) _
        rw [p1, p2, h3]
        have hji : j ≠ i := fun h => e1 h.symm
        exact (g.good.kill i hf).give j i (by unfold fset; rw [if_neg hji]; exact hwf) (by unfold fset; rw [if_neg hji]; exact hy)
          (by unfold fset; rw [if_pos rfl])
  | assignList i ys =>
    unfold listStep at hl
    obtain ⟨xs, hx, rfl⟩ := Option.map_eq_some_iff.1 hl
    obtain ⟨v, hv, hf, hh⟩ := g.vec hx
    obtain ⟨m', v', h1, h2, h3⟩ := assignList_does (e := e) hh ys hb hw
    exact ⟨_, by simp only [step, hv, h1, Outcome.bind_ok]; rfl, g.put hf h2 h3⟩
  | clear i =>
    unfold listStep at hl
    obtain ⟨xs, hx, rfl⟩ := Option.map_eq_some_iff.1 hl
    obtain ⟨v, hv, hf, hh⟩ := g.vec hx
    obtain ⟨m', h1, h2, h3⟩ := clear_does (e := e) hh
    exact ⟨_, by simp only [step, hv, h1, Outcome.bind_ok]; rfl, g.put hf h2 h3⟩
  | set dev i k x =>
    unfold listStep at hl
    obtain ⟨xs, hx, rfl⟩ := Option.map_eq_some_iff.1 hl
    obtain ⟨v, hv, hf, hh⟩ := g.vec hx
    obtain ⟨m', h1, h2, h3⟩ := set_does (e := e) dev k x hh
    refine ⟨⟨m', s.vecs⟩, by simp only [step, hv, h1, Outcome.bind_ok]; rfl, ?_⟩
    have := g.put hf h2 h3
    have h4 : (s.put i (m', v)).1 = ⟨m', s.vecs⟩ := by
      have := congrArg State.vecs (vecs_same hf)
      simp only at this
      simp only [State.put, this]
    rw [h4] at this
    exact this
  | push dev i x =>
    unfold listStep at hl
    obtain ⟨xs, hx, rfl⟩ := Option.map_eq_some_iff.1 hl
    obtain ⟨v, hv, hf, hh⟩ := g.vec hx
    obtain ⟨m', v', h1, h2, h3⟩ := push_does (e := e) dev x hh hb (by
      intro hd
      rcases hw hd with h | h
      · exact .inl h
      · rw [hx] at h; cases h; exact .inr rfl)
    exact ⟨_, by simp only [step, hv, h1, Outcome.bind_ok]; rfl, g.put hf h2 h3⟩
  | pushOwn i k => exact absurd hw (by intro h; exact h)
  | pop i =>
    unfold listStep at hl
    obtain ⟨xs, hx, rfl⟩ := Option.map_eq_some_iff.1 hl
    obtain ⟨v, hv, hf, hh⟩ := g.vec hx
    obtain ⟨v', h1, h2, h3⟩ := pop_does (e := e) hh
    exact ⟨_, by simp only [step, hv, h1, Outcome.bind_ok]; rfl, g.put (m' := s.mem) hf h2 h3⟩
  | reserve dev i n =>
    unfold listStep at hl
    obtain ⟨xs, hx, rfl⟩ := Option.map_eq_some_iff.1 hl
    obtain ⟨v, hv, hf, hh⟩ := g.vec hx
    obtain ⟨m', v', h1, h2, h3, _⟩ := reserve_does (e := e) dev n hh hb (by
      intro hd
      rcases hw hd with h | h
      · exact .inl h
      · rw [hx] at h; cases h; exact .inr rfl)
    refine ⟨_, by simp only [step, hv, h1, Outcome.bind_ok]; rfl, ?_⟩
    have := g.put hf h2 h3
    have h4 : ls.set i (some xs) = ls := by
      have h5 := fset_set ls i (some xs) (contents_lt hx)
      apply List.ext_getElem?
      intro j
      rw [List.getElem?_set]
      by_cases ej : i = j
      · subst ej
        rw [if_pos rfl, if_pos (contents_lt hx)]
        unfold contents at hx
        cases hg : ls[i]? with
        | none => rw [hg] at hx; cases hx
        | some y => rw [hg] at hx; exact congrArg some hx.symm
      · rw [if_neg ej]
    rw [h4] at this
    exact this
  | resize dev i n =>
    unfold listStep at hl
    obtain ⟨xs, hx, rfl⟩ := Option.map_eq_some_iff.1 hl
    obtain ⟨v, hv, hf, hh⟩ := g.vec hx
    obtain ⟨m', v', h1, h2, h3, _⟩ := resize_does (e := e) dev n hh hb (by
      intro hd
      rcases hw hd with h | h
      · exact .inl h
      · exact .inr (h xs hx))
    exact ⟨_, by simp only [step, hv, h1, Outcome.bind_ok]; rfl, g.put hf h2 h3⟩
  | erase dev i a b =>
    unfold listStep at hl
    obtain ⟨xs, hx, rfl⟩ := Option.map_eq_some_iff.1 hl
    obtain ⟨v, hv, hf, hh⟩ := g.vec hx
    obtain ⟨m', v', h1, h2, h3⟩ := erase_does (e := e) dev a b hh hb (by
      intro hd
      rcases hw hd with h | h
      · exact .inl h
      · exact .inr (h xs hx))
    exact ⟨_, by simp only [step, hv, h1, Outcome.bind_ok]; rfl, g.put hf h2 h3⟩
  | destruct i =>
    unfold listStep at hl
    obtain ⟨xs, hx, rfl⟩ := Option.map_eq_some_iff.1 hl
    obtain ⟨v, hv, hf, hh⟩ := g.vec hx
    obtain ⟨m', h1, h2⟩ := destruct_does (e := e) hh
    refine ⟨_, by simp only [step, hv, h1, Outcome.bind_ok]; rfl, ⟨?_, ?_⟩⟩
    · simp only [List.length_set, g.len]
    · have hi := contents_lt hx
      have p1 : vecOf (s.vecs.set i none) = fset (vecOf s.vecs) i none := fset_set _ _ _ (by rw [g.len]; exact hi)
      have p2 : contents (ls.set i none) = fset (contents ls) i none := fset_set _ _ _ hi
      show GoodF (live m') (vecOf (s.vecs.set i none)) _
      rw [p1, p2, h2]
      exact g.good.kill i hf
  | toStd i =>
    unfold listStep at hl
    obtain ⟨xs, hx, rfl⟩ := Option.map_eq_some_iff.1 hl
    obtain ⟨v, hv, hf, hh⟩ := g.vec hx
    refine ⟨s, ?_, g⟩
    simp only [step, hv, Outcome.bind_ok]
    unfold toStd
    rw [read_holds hh 0 v.size (by rw [hh.size]; omega), Outcome.bind_ok, hh.size, List.drop_zero, List.take_length]
    rfl
  | copyAt i k =>
    unfold listStep at hl
    obtain ⟨xs, hx, hl⟩ := Option.bind_eq_some_iff.1 hl
    obtain ⟨x, hxk, rfl⟩ := Option.map_eq_some_iff.1 hl
    obtain ⟨v, hv, hf, hh⟩ := g.vec hx
    refine ⟨s, ?_, g⟩
    have hk : k < xs.length := by
      rcases Nat.lt_or_ge k xs.length with h | h
      · exact h
      · rw [List.getElem?_eq_none h] at hxk; cases hxk
    simp only [step, hv, Outcome.bind_ok]
    rw [read_holds hh k 1 (by omega), Outcome.bind_ok]
    rw [List.getElem?_eq_getElem hk, Option.some.injEq] at hxk
    rw [List.drop_eq_getElem_cons hk, hxk]
    rfl

/-- A history of allowed steps. -/
theorem run_good (e : Elem α) (hb : 0 < e.bytes) : ∀ (ops : List (Op α)) (s : State α) (ls : List (Option (List α))), Good s ls →
    WorksAll e.trivial e.default ls ops → ∀ r, listRun e.default ls ops = some r → ∃ s', run e s ops = .ok (s', r.2) ∧ Good s' r.1 := by
  intro ops
  induction ops with
  | nil => intro s ls g _ r hr; cases hr; exact ⟨s, rfl, g⟩
  | cons op ops ih =>
    intro s ls g hw r hr
    unfold listRun at hr
    obtain ⟨q, hq, hr⟩ := Option.bind_eq_some_iff.1 hr
    obtain ⟨p, hp, rfl⟩ := Option.map_eq_some_iff.1 hr
    obtain ⟨s1, h1, g1⟩ := step_good e hb g op hw.1 hq
    obtain ⟨s2, h2, g2⟩ := ih s1 q.1 g1 (hw.2 q hq) p hp
    refine ⟨s2, ?_, g2⟩
    unfold run
    rw [h1, Outcome.bind_ok]
    simp only
    rw [h2]
    rfl

theorem good_init : Good (State.init : State α) [] := by
  refine ⟨rfl, ⟨?_, ?_, ?_, ?_⟩⟩
  · intro i xs h; unfold contents at h; simp at h
  · intro i v h; unfold vecOf State.init at h; simp at h
  · intro i j v w a h; unfold vecOf State.init at h; simp at h
  · intro a cs h; unfold live State.init at h; simp at h

end Knp.CuVec
