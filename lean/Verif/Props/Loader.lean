import Verif.Model.Loader

/-!
# C172: loading backends

Which backend `load` gives, after any history of calls and of changes to the files.
-/

namespace Knp.Props
open Knp Knp.Libs

/-- What a path leads to after some events. -/
def contentAfter (files : Files) (path : String) : List Event → Option (Option Creator)
  | [] => files path
  | .load _ :: es => contentAfter files path es
  | .change p c :: es => contentAfter (fun q => if q = p then c else files q) path es

/-- The creator the loader once found at this path: the one that was there at the first `load` of the path that found one. -/
def firstFound (files : Files) (path : String) : List Event → Option Creator
  | [] => none
  | .load p :: es => if p = path then
      match files path with
      | some (some c) => some c
      | _ => firstFound files path es
    else firstFound files path es
  | .change p c :: es => firstFound (fun q => if q = p then c else files q) path es

/-- The creator `load` uses after some events: the first one found, otherwise the one at the path now. -/
def usedBy (files : Files) (path : String) (es : List Event) : Option Creator :=
  match firstFound files path es with
  | some c => some c
  | none => match contentAfter files path es with
    | some (some c) => some c
    | _ => none

private theorem make_files (s : State) (p : String) : (makeCreator s p).1.files = s.files ∧ (makeCreator s p).1.made = s.made := by
  unfold makeCreator
  split
  · exact ⟨rfl, rfl⟩
  · split <;> exact ⟨rfl, rfl⟩

private theorem load_parts (s : State) (p : String) : (load s p).1.files = s.files ∧ (load s p).1.creators = (makeCreator s p).1.creators := by
  have h1 := (make_files s p).1
  unfold load
  revert h1
  rcases makeCreator s p with ⟨s', c | e | _⟩ <;> intro h1
  · dsimp only at h1 ⊢
    split <;> exact ⟨h1, rfl⟩
  · exact ⟨h1, rfl⟩
  · exact ⟨h1, rfl⟩

private theorem files_run : ∀ (es : List Event) (s : State) (path : String), (run s es).files path = contentAfter s.files path es
  | [], _, _ => rfl
  | .load p :: es, s, path => by
    show (run (load s p).1 es).files path = _
    rw [files_run es, (load_parts s p).1]
    rfl
  | .change p c :: es, s, path => by
    show (run { s with files := fun q => if q = p then c else s.files q } es).files path = _
    rw [files_run es]
    rfl

private theorem lookup_make (s : State) (p path : String) : (makeCreator s p).1.creators.lookup path =
    match s.creators.lookup path with
    | some c => some c
    | none => if p = path then (match s.files path with | some (some c) => some c | _ => none) else none := by
  unfold makeCreator
  by_cases hp : p = path
  · subst hp
    rw [if_pos rfl]
    cases h : s.creators.lookup p with
    | some c => simp only [h]
    | none =>
      rcases h2 : s.files p with _ | _ | c
      · simp only [h]
      · simp only [h]
      · simp only [List.lookup_cons_self]
  · rw [if_neg hp]
    have key : ∀ c, ((p, c) :: s.creators).lookup path = s.creators.lookup path := by
      intro c
      rw [List.lookup_cons]
      have : (path == p) = false := by simpa using fun h => hp h.symm
      rw [this]
    cases h : s.creators.lookup path with
    | some c =>
      split
      · exact h
      · split
        · exact (key _).trans h
        · exact h
    | none =>
      split
      · exact h
      · split
        · exact (key _).trans h
        · exact h

private theorem creators_run : ∀ (es : List Event) (s : State) (path : String), (run s es).creators.lookup path =
    match s.creators.lookup path with
    | some c => some c
    | none => firstFound s.files path es
  | [], s, path => by
    show s.creators.lookup path = _
    cases s.creators.lookup path <;> rfl
  | .load p :: es, s, path => by
    show (run (load s p).1 es).creators.lookup path = _
    rw [creators_run es, (load_parts s p).1, (load_parts s p).2, lookup_make]
    cases s.creators.lookup path with
    | some c => rfl
    | none =>
      simp only [firstFound]
      by_cases hp : p = path
      · rw [if_pos hp, if_pos hp]
        rcases s.files path with _ | _ | c <;> rfl
      · rw [if_neg hp, if_neg hp]
  | .change p c :: es, s, path => by
    show (run { s with files := fun q => if q = p then c else s.files q } es).creators.lookup path = _
    rw [creators_run es]
    rfl

private theorem used_make (files : Files) (es : List Event) (path : String) :
    (∀ c, usedBy files path es = some c → (makeCreator (run (start files) es) path).2 = .ok c) ∧
    (usedBy files path es = none → (makeCreator (run (start files) es) path).2.isThrow = true ∧
      (makeCreator (run (start files) es) path).1 = run (start files) es) := by
  have h1 := creators_run es (start files) path
  have h2 := files_run es (start files) path
  have h1 : (run (start files) es).creators.lookup path = firstFound files path es := h1
  have h2 : (run (start files) es).files path = contentAfter files path es := h2
  unfold usedBy makeCreator
  rw [h1, h2]
  cases firstFound files path es with
  | some c => exact ⟨fun c' h => (by cases h; rfl), (fun h => by cases h)⟩
  | none =>
    rcases contentAfter files path es with _ | _ | c
    · exact ⟨(fun c' h => by cases h), fun _ => ⟨rfl, rfl⟩⟩
    · exact ⟨(fun c' h => by cases h), fun _ => ⟨rfl, rfl⟩⟩
    · exact ⟨fun c' h => (by cases h; rfl), (fun h => by cases h)⟩

/-- C172, after any history: `load` of a path calls the `create_knp_backend` that was first found there - by this or an earlier `load` - whatever the
path leads to now.  If that gives a backend, it is a new one; if it gives none or throws, or nothing was ever found, `load` throws. -/
theorem C172_load (files : Files) (es : List Event) (path : String) :
    match usedBy files path es with
    | none => (load (run (start files) es) path).2.isThrow = true
    | some c => match c.creates with
      | .backend => (load (run (start files) es) path).2 = .ok (c.library, (run (start files) es).made)
      | _ => (load (run (start files) es) path).2.isThrow = true := by
  obtain ⟨h1, h2⟩ := used_make files es path
  cases hu : usedBy files path es with
  | none =>
    have h2 := (h2 hu).1
    simp only
    unfold load
    revert h2
    rcases makeCreator (run (start files) es) path with ⟨s', c | e | _⟩
    · intro h2; cases h2
    · exact fun _ => rfl
    · intro h2; cases h2
  | some c =>
    have h1 := h1 c hu
    have hm := (make_files (run (start files) es) path).2
    simp only
    unfold load
    revert h1 hm
    rcases makeCreator (run (start files) es) path with ⟨s', c' | e | _⟩
    · intro h1 hm
      simp only [Outcome.ok.injEq] at h1
      subst h1
      simp only at hm ⊢
      cases hc : c'.creates
      · simp only [hm]
      · rfl
      · rfl
    · intro h1; cases h1
    · intro h1; cases h1

private theorem made_step (s : State) (p : String) : s.made ≤ (load s p).1.made ∧ ∀ l n, (load s p).2 = .ok (l, n) → n = s.made ∧ (load s p).1.made = s.made + 1 := by
  have hm := (make_files s p).2
  unfold load
  revert hm
  rcases makeCreator s p with ⟨s', c | e | _⟩
  · intro hm
    simp only at hm ⊢
    cases c.creates
    · simp only [Outcome.ok.injEq, Prod.mk.injEq]
      refine ⟨by omega, fun l n h => ⟨by omega, by omega⟩⟩
    · exact ⟨by simp only; omega, fun l n h => (by cases h)⟩
    · exact ⟨by simp only; omega, fun l n h => (by cases h)⟩
  · intro hm
    exact ⟨by simp only at hm ⊢; omega, fun l n h => (by cases h)⟩
  · intro hm
    exact ⟨by simp only at hm ⊢; omega, fun l n h => (by cases h)⟩

private theorem made_run : ∀ (es : List Event) (s : State), s.made ≤ (run s es).made
  | [], _ => Nat.le_refl _
  | .load p :: es, s => Nat.le_trans (made_step s p).1 (made_run es _)
  | .change p c :: es, s => made_run es { s with files := fun q => if q = p then c else s.files q }

/-- C172: no two successful calls of `load`, of the same path or of different ones, give the same backend. -/
theorem C172_distinct (files : Files) (es fs : List Event) (p q : String) (b b' : Nat × Nat)
    (h1 : (load (run (start files) es) p).2 = .ok b) (h2 : (load (run (start files) (es ++ .load p :: fs)) q).2 = .ok b') : b ≠ b' := by
  have e1 := (made_step _ p).2 b.1 b.2 h1
  have e2 := (made_step _ q).2 b'.1 b'.2 h2
  have hrun : run (start files) (es ++ .load p :: fs) = run (load (run (start files) es) p).1 fs := by
    simp [run, List.foldl_append, exec]
  rw [hrun] at e2
  have := made_run fs (load (run (start files) es) p).1
  intro hb
  have := congrArg Prod.snd hb
  omega

/-- C172: `is_backend` looks at what the path leads to now; it answers `false` only for a library without the function and throws if there is no
library.  If the path was never loaded, `true` means that `load` finds a creator and anything else that it throws. -/
theorem C172_is_backend (files : Files) (es : List Event) (path : String) :
    (isBackend (run (start files) es) path =
      match contentAfter files path es with
      | none => .throw "boost::dll"
      | some l => .ok l.isSome) ∧
    (firstFound files path es = none → (isBackend (run (start files) es) path = .ok true ↔ ∃ c, usedBy files path es = some c)) := by
  have h2 : (run (start files) es).files path = contentAfter files path es := files_run es (start files) path
  unfold isBackend usedBy
  rw [h2]
  refine ⟨rfl, fun hf => ?_⟩
  rw [hf]
  rcases contentAfter files path es with _ | _ | c
  · exact ⟨(fun h => by cases h), fun ⟨c, h⟩ => (by cases h)⟩
  · exact ⟨(fun h => by cases h), fun ⟨c, h⟩ => (by cases h)⟩
  · exact ⟨fun _ => ⟨c, rfl⟩, fun _ => rfl⟩

/-- C172: a `load` that throws because nothing is found leaves no trace: afterwards the loader is as before. -/
theorem C172_failed_load (files : Files) (es : List Event) (path : String) (h : usedBy files path es = none) :
    run (start files) (es ++ [.load path]) = run (start files) es := by
  have := ((used_make files es path).2 h).2
  have h1 := ((used_make files es path).2 h).1
  have e : run (start files) (es ++ [.load path]) = (load (run (start files) es) path).1 := by simp [run, List.foldl_append, exec]
  rw [e]
  unfold load
  revert this h1
  rcases makeCreator (run (start files) es) path with ⟨s', c | e | _⟩
  · intro _ h1; cases h1
  · exact fun h _ => h
  · exact fun h _ => h

namespace LoaderEx

def good : Creator := ⟨7, .backend⟩
def bad : Creator := ⟨3, .null⟩
/-- Nothing is there at first. -/
def none' : Files := fun _ => none
/-- A library that gives no backend is loaded, then replaced by one that does. -/
def fixed : List Event := [.load "x", .change "x" (some (some bad)), .load "x", .change "x" (some (some good))]

example : usedBy none' "x" [.change "x" (some (some good))] = some good := by decide +kernel
example : (load (run (start none') [.change "x" (some (some good)), .load "x", .change "x" none]) "x").2 = .ok (7, 1) := by decide +kernel
example : usedBy none' "x" [.load "x"] = none := by decide +kernel
example : firstFound none' "x" [.load "x", .change "x" (some none)] = none := by decide +kernel

end LoaderEx

/-- C172, refuted in full: `load` does not always use the library that is at the path, although `is_backend` does.  After a library that gives no
backend was replaced by one that does, `is_backend` says yes and `load` still throws, while the same library is loaded from another path. -/
theorem C172_replaced_refuted : isBackend (run (start LoaderEx.none') LoaderEx.fixed) "x" = .ok true ∧
    (∃ c, contentAfter LoaderEx.none' "x" LoaderEx.fixed = some (some c) ∧ c.creates = .backend) ∧
    (load (run (start LoaderEx.none') LoaderEx.fixed) "x").2.isThrow = true ∧
    (load (run (start LoaderEx.none') (.change "./x" (some (some LoaderEx.good)) :: LoaderEx.fixed)) "./x").2 = .ok (7, 0) := by
  refine ⟨by decide +kernel, ⟨LoaderEx.good, by decide +kernel, rfl⟩, by decide +kernel, by decide +kernel⟩

end Knp.Props
