import Verif.Model.Tag

/-! # C20: tags -/

namespace Knp.Props
open Knp Knp.TagMap

theorem find_touch (m : TagMap) (n n' : String) :
    (m.touch n).find n' =
      if n' = n then some ((m.find n).getD .empty) else m.find n' := by
  unfold touch
  cases h : m.find n with
  | some v =>
    simp only [Option.getD_some]
    split
    · rename_i he; rw [he, h]
    · rfl
  | none =>
    simp only [Option.getD_none]
    simp only [TagMap.find, Option.map_eq_none_iff] at h ⊢
    rw [List.find?_append]
    split
    · rename_i he; subst he
      rw [h]; simp
    · rename_i he
      have : ¬ (n == n') = true := by simp; exact fun hh => he hh.symm
      simp [List.find?_cons, this]

theorem find_assign (m : TagMap) (n n' : String) (v : AnyVal) :
    (m.assign n v).find n' = if n' = n then some v else m.find n' := by
  have hgen : ∀ l : List (String × AnyVal),
      (l.map (fun e => if e.1 == n then (e.1, v) else e)).find? (fun e => e.1 == n') =
        (l.find? (fun e => e.1 == n')).map (fun e => if e.1 == n then (e.1, v) else e) := by
    intro l
    induction l with
    | nil => rfl
    | cons e l ih =>
      rw [List.map_cons, List.find?_cons, List.find?_cons]
      have : ((if e.1 == n then (e.1, v) else e).1 == n') = (e.1 == n') := by
        split <;> rfl
      rw [this]
      cases h : (e.1 == n') with
      | true => rfl
      | false => exact ih
  have ht := find_touch m n n'
  unfold assign TagMap.find at *
  simp only [hgen]
  generalize hfd : (m.touch n).entries.find? (fun e => e.1 == n') = r at ht
  cases r with
  | none =>
    simp only [Option.map_none] at ht ⊢
    split at ht
    · cases ht
    · rename_i h; simp only [h, if_false]; exact ht
  | some e =>
    have hname : e.1 = n' := by
      have := List.find?_some hfd
      simpa using this
    simp only [Option.map_some] at ht ⊢
    by_cases h : n' = n
    · simp [h, hname]
    · have : ¬ e.1 = n := by rw [hname]; exact h
      simp only [h, if_false] at ht ⊢
      simp only [beq_iff_eq, this, if_false]
      exact ht

/-- C20: read-after-write and frame: after `tags[n] = v`, the tag `n` exists and reads as `v` (both
through the const and the non-const accessor), a typed read of the right type returns the value, one
of another type throws, and every other tag is as before. -/
theorem C20_write_read (m : TagMap) (n : String) (v : AnyVal) :
    (m.assign n v).exists n = true ∧
    (m.assign n v).getConst n = .ok v ∧
    ((m.assign n v).getRef n).2 = v ∧
    (∀ t x, v = .value t x → (m.assign n v).getTypedConst t n = .ok x) ∧
    (∀ t t' x, v = .value t x → t' ≠ t →
      (m.assign n v).getTypedConst t' n = .throw "bad_any_cast") ∧
    (∀ n', n' ≠ n → (m.assign n v).exists n' = m.exists n' ∧
      (m.assign n v).getConst n' = m.getConst n') := by
  have hf := find_assign m n n v
  simp only [if_true] at hf
  refine ⟨by simp [TagMap.exists, hf], by simp [getConst, hf], ?_, ?_, ?_, ?_⟩
  · simp [getRef, find_touch, hf]
  · intro t x hv; subst hv; simp [getTypedConst, getConst, hf, anyCast]
  · intro t t' x hv hne; subst hv
    simp [getTypedConst, getConst, hf, anyCast, hne.symm]
  · intro n' hne
    have h2 := find_assign m n n' v
    simp only [hne, if_false] at h2
    simp [TagMap.exists, getConst, h2]

/-- C20: the const accessors throw exactly for missing tags / wrong types, and (being const) never
change the map. -/
theorem C20_const_read_errors (m : TagMap) (n : String) (t : Nat) :
    (m.getConst n = .throw "out_of_range" ↔ m.exists n = false) ∧
    (m.exists n = true → ∃ v, m.getConst n = .ok v) ∧
    (m.exists n = false → m.getTypedConst t n = .throw "out_of_range") := by
  unfold getTypedConst getConst TagMap.exists
  cases h : m.find n <;> simp

/-- C20, full statement about failed reads: no read that throws changes which tags exist. -/
def C20_failed_read_statement : Prop :=
  ∀ (m : TagMap) (t : Nat) (n : String) (w : String), (m.getTyped t n).2 = .throw w →
    ∀ n', (m.getTyped t n).1.exists n' = m.exists n'

/-- C20 fails for the non-const typed read: reading a missing tag throws *and* creates an (empty) tag
of that name. -/
theorem C20_failed_read_refuted : ¬ C20_failed_read_statement := by
  intro h
  have := h mkEmpty 0 "x" "bad_any_cast" (by decide) "x"
  exact absurd this (by decide)

/-- C20: what non-const reads do change: nothing but possibly creating the empty tag that was asked
for (so all previously existing tags keep their values). -/
theorem C20_read_frame_partial (m : TagMap) (t : Nat) (n n' : String)
    (h : n' ≠ n ∨ m.exists n' = true) :
    (m.getTyped t n).1.getConst n' = m.getConst n' ∧ (m.getRef n).1.getConst n' = m.getConst n' := by
  have hf := find_touch m n n'
  have hkey : (m.touch n).find n' = m.find n' := by
    rw [hf]
    split
    · rename_i he
      subst he
      rcases h with h | h
      · exact absurd rfl h
      · simp only [TagMap.exists] at h
        cases h2 : m.find n' with
        | none => rw [h2] at h; cases h
        | some v => rfl
    · rfl
  constructor
  · simp [getTyped, getRef, getConst, hkey]
  · simp [getRef, getConst, hkey]

/-- C20 over histories: after any sequence of reads and writes, a tag that was ever written holds
the last value written to it. -/
theorem C20_last_write_wins (ops : List TagMap.Op) (rest : List TagMap.Op) (m : TagMap) (n : String)
    (v : AnyVal) (hno : ∀ o ∈ rest, ∀ v', o ≠ .write n v') :
    ((ops ++ .write n v :: rest).foldl TagMap.step m).getConst n = .ok v := by
  rw [List.foldl_append, List.foldl_cons]
  generalize ops.foldl TagMap.step m = m1
  have hbase : (TagMap.step m1 (.write n v)).find n = some v := by
    have := find_assign m1 n n v
    simpa [TagMap.step] using this
  generalize TagMap.step m1 (.write n v) = m2 at hbase
  clear m1 m ops
  have : (rest.foldl TagMap.step m2).find n = some v := by
    induction rest generalizing m2 with
    | nil => exact hbase
    | cons o rest ih =>
      rw [List.foldl_cons]
      refine ih (fun o ho => hno o (List.mem_cons_of_mem _ ho)) _ ?_
      cases o with
      | read n1 =>
        simp only [TagMap.step, getRef, find_touch]
        split
        · rename_i h; subst h; simp [hbase]
        · exact hbase
      | readTyped t n1 =>
        simp only [TagMap.step, getTyped, getRef, find_touch]
        split
        · rename_i h; subst h; simp [hbase]
        · exact hbase
      | write n1 v1 =>
        have hne : n ≠ n1 := by
          intro h; subst h
          exact hno _ (by simp) v1 rfl
        simp only [TagMap.step, find_assign, hne, if_false]
        exact hbase
  simp [getConst, this]

example : (([TagMap.Op.write "a" (.value 1 5)] ++
      TagMap.Op.write "a" (.value 1 6) :: [.read "a", .write "b" .empty, .readTyped 0 "a"]).foldl
        TagMap.step mkEmpty).getTypedConst 1 "a" = .ok 6 := by decide

end Knp.Props
