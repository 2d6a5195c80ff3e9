import Verif.Model.Names
import Verif.Props.Tag

/-! # C153: names of network objects -/

namespace Knp.Props
open Knp Knp.Names

/-- A call that sets the name, by `set_name` or by writing the tag. -/
def sets : Names.Op → Bool
  | .setName _ => true
  | .tags (.write n _) => n == "name"
  | .tags _ => false

/-- A call that reads the tag through `get_tags()` of an object that can be changed. -/
def reads : Names.Op → Bool
  | .tags (.read n) => n == "name"
  | .tags (.readTyped _ n) => n == "name"
  | _ => false

/-- The name a program gave an object last. -/
def lastName (ops : List Names.Op) : Option Nat := (ops.filterMap (fun o => match o with | .setName n => some n | _ => none)).getLast?

/-- **C153.**  The name of an object whose name tag nobody writes directly is the one set last, or the UID if none was set. -/
def C153_statement : Prop :=
  ∀ (ops : List Names.Op) (uid : Nat), (∀ n v, Names.Op.tags (.write n v) ∈ ops → n ≠ "name") →
    getName (ops.foldl Names.step TagMap.mkEmpty) uid = .ok ((lastName ops).getD uid)

theorem name_kept (m : TagMap) (o : Names.Op) (h : sets o = false) (hr : reads o = false ∨ (m.find "name").isSome) :
    (Names.step m o).find "name" = m.find "name" := by
  have key : ∀ n, n = "name" → (m.find "name").isSome → some ((m.find n).getD .empty) = m.find "name" := by
    intro n hn hs
    subst hn
    cases hx : m.find "name" with
    | none => rw [hx] at hs; cases hs
    | some v => rfl
  cases o with
  | setName v => cases h
  | tags o =>
    cases o with
    | write n v =>
      have hn : "name" ≠ n := by intro e; subst e; simp [sets] at h
      show (m.assign n v).find "name" = _
      rw [find_assign, if_neg hn]
    | read n =>
      show (m.touch n).find "name" = _
      rw [find_touch]
      by_cases e : "name" = n
      · rw [if_pos e]
        rcases hr with hr | hr
        · simp [reads, e.symm] at hr
        · exact key n e.symm hr
      · rw [if_neg e]
    | readTyped t n =>
      show (m.touch n).find "name" = _
      rw [find_touch]
      by_cases e : "name" = n
      · rw [if_pos e]
        rcases hr with hr | hr
        · simp [reads, e.symm] at hr
        · exact key n e.symm hr
      · rw [if_neg e]

theorem name_kept_run : ∀ (ops : List Names.Op) (m : TagMap), (∀ o ∈ ops, sets o = false) → ((∀ o ∈ ops, reads o = false) ∨ (m.find "name").isSome) →
    (ops.foldl Names.step m).find "name" = m.find "name" := by
  intro ops
  induction ops with
  | nil => intro m _ _; rfl
  | cons o ops ih =>
    intro m h hr
    have h1 := name_kept m o (h o List.mem_cons_self) (hr.imp (fun h => h o List.mem_cons_self) id)
    rw [List.foldl_cons, ih _ (fun o ho => h o (List.mem_cons_of_mem _ ho))
      (hr.imp (fun h o ho => h o (List.mem_cons_of_mem _ ho)) (fun h => by rw [h1]; exact h)), h1]

/-- A name that was set is the name until another one is set, whatever else is done with the tags. -/
theorem C153_named_partial (m : TagMap) (pre post : List Names.Op) (n uid : Nat) (h : ∀ o ∈ post, sets o = false) :
    getName ((pre ++ .setName n :: post).foldl Names.step m) uid = .ok n := by
  rw [List.foldl_append, List.foldl_cons]
  generalize pre.foldl Names.step m = m1
  have h0 : (setName m1 n).find "name" = some (.value stringType n) := by
    show (m1.assign "name" _).find "name" = _
    rw [find_assign, if_pos rfl]
  have h1 : (post.foldl Names.step (Names.step m1 (.setName n))).find "name" = some (.value stringType n) := by
    rw [name_kept_run post _ h (.inr (by show ((setName m1 n).find "name").isSome = true; rw [h0]; rfl))]
    exact h0
  unfold getName TagMap.exists TagMap.getTypedConst TagMap.getConst
  rw [h1]
  simp [TagMap.anyCast]

/-- Without a name the UID is the name, as long as the tag is not read. -/
theorem C153_unnamed_partial (ops : List Names.Op) (uid : Nat) (h : ∀ o ∈ ops, sets o = false ∧ reads o = false) :
    getName (ops.foldl Names.step TagMap.mkEmpty) uid = .ok uid := by
  have h1 := name_kept_run ops TagMap.mkEmpty (fun o ho => (h o ho).1) (.inl fun o ho => (h o ho).2)
  unfold getName TagMap.exists
  rw [h1]
  rfl

/-- Reading the tag of an object without a name makes its name unreadable: `get_name` throws from then on. -/
theorem C153_read (ops : List Names.Op) (uid : Nat) (h : ∀ o ∈ ops, sets o = false) (hr : ∃ o ∈ ops, reads o = true) :
    getName (ops.foldl Names.step TagMap.mkEmpty) uid = .throw "bad_any_cast" := by
  have main : ∀ (ops : List Names.Op) (m : TagMap), (∀ o ∈ ops, sets o = false) → (∃ o ∈ ops, reads o = true) → m.find "name" = none →
      (ops.foldl Names.step m).find "name" = some .empty := by
    intro ops
    induction ops with
    | nil => rintro m _ ⟨o, ho, _⟩ _; cases ho
    | cons o ops ih =>
      intro m h hr hm
      rw [List.foldl_cons]
      have hs := h o List.mem_cons_self
      cases hro : reads o with
      | false =>
        apply ih _ (fun o ho => h o (List.mem_cons_of_mem _ ho))
        · obtain ⟨o', ho', hr'⟩ := hr
          rcases List.mem_cons.1 ho' with e | e
          · subst e; rw [hro] at hr'; cases hr'
          · exact ⟨o', e, hr'⟩
        · rw [name_kept m o hs (.inl hro), hm]
      | true =>
        have h2 : (Names.step m o).find "name" = some .empty := by
          cases o with
          | setName v => cases hs
          | tags o =>
            cases o with
            | write n v => cases hro
            | read n =>
              have e : n = "name" := by simpa [reads] using hro
              subst e
              show (m.touch "name").find "name" = _
              rw [find_touch, if_pos rfl, hm]; rfl
            | readTyped t n =>
              have e : n = "name" := by simpa [reads] using hro
              subst e
              show (m.touch "name").find "name" = _
              rw [find_touch, if_pos rfl, hm]; rfl
        rw [name_kept_run ops _ (fun o ho => h o (List.mem_cons_of_mem _ ho)) (.inr (by rw [h2]; rfl)), h2]
  unfold getName TagMap.exists TagMap.getTypedConst TagMap.getConst
  rw [main ops _ h hr rfl]
  rfl

theorem C153_names_refuted : ¬ C153_statement := by
  intro h
  have := h [.tags (.read "name")] 5 (by intro n v hm; simp at hm)
  rw [C153_read _ 5 (by decide) ⟨_, List.mem_cons_self, by decide⟩] at this
  cases this

/-- The visualizer shows the name if there is one, and the UID whenever there is no name or the name is empty; it never throws. -/
theorem C153_shown (m : TagMap) (uid uid' : Nat) :
    (∀ n, m.exists "name" = true → getName m uid = .ok n → n ≠ 0 → shownName m uid' = n) ∧
      ((m.exists "name" = false ∨ getName m uid = .ok 0 ∧ m.exists "name" = true ∨ ∃ w, getName m uid = .throw w) → shownName m uid' = uid') := by
  have hf := find_touch m "name" "name"
  rw [if_pos rfl] at hf
  have hr : (m.getRef "name").2 = (m.find "name").getD .empty := by
    show ((m.touch "name").find "name").getD .empty = _
    rw [hf]; rfl
  unfold shownName getName TagMap.exists TagMap.getTypedConst TagMap.getConst
  rw [hr]
  cases m.find "name" with
  | none => simp
  | some v =>
    cases v with
    | empty => simp [TagMap.anyCast]
    | value t x =>
      by_cases ht : t = stringType
      · subst ht
        constructor
        · intro n _ h hn
          have hx : x = n := by simpa [TagMap.anyCast] using h
          subst hx
          simp [hn]
        · rintro (h | ⟨h, _⟩ | ⟨w, h⟩)
          · cases h
          · have hx : x = 0 := by simpa [TagMap.anyCast] using h
            subst hx; simp
          · simp [TagMap.anyCast] at h
      · constructor
        · intro n _ h; simp [TagMap.anyCast, ht] at h
        · intro _; simp [ht]

example : getName (([.tags (.write "x" .empty), .setName 4, .tags (.read "name"), .tags (.readTyped 2 "name")] : List Names.Op).foldl Names.step TagMap.mkEmpty) 9 = .ok 4 ∧
    getName (([.tags (.read "x"), .tags (.readTyped 2 "name")] : List Names.Op).foldl Names.step TagMap.mkEmpty) 9 = .throw "bad_any_cast" ∧
    getName (([.tags (.read "x")] : List Names.Op).foldl Names.step TagMap.mkEmpty) 9 = .ok 9 := by
  refine ⟨by decide, by decide, by decide⟩

end Knp.Props
