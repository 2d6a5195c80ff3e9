import Verif.Model.Projection

/-! Helper lemmas about the projection model. -/

namespace Knp.Projection
variable {P : Type}

theorem generateLoop_eq (gen : SynapseGenerator P) (n i : Nat) (acc : List (Synapse P)) :
    generateLoop gen n i acc = acc ++ (List.range' i n).filterMap gen := by
  induction n generalizing i acc with
  | zero => simp [generateLoop]
  | succ n ih =>
    rw [List.range'_succ]
    cases h : gen i with
    | none => simp [generateLoop, h, ih]
    | some s => simp [generateLoop, h, ih]

/-- positions (from `i` on) of the elements satisfying `f` -/
def posFrom (f : Synapse P → Bool) : Nat → List (Synapse P) → List Nat
  | _, [] => []
  | i, s :: ss => if f s then i :: posFrom f (i + 1) ss else posFrom f (i + 1) ss

/-- the key tested by a search criterion -/
def key (c : Search) (n : Nat) (s : Synapse P) : Bool :=
  match c with
  | .byPresynaptic => s.src == n
  | .byPostsynaptic => s.dst == n

theorem lookup_indexFrom (l : List (Synapse P)) (i n : Nat) (c : Search) :
    lookup (indexFrom i l) n c = posFrom (key c n) i l := by
  induction l generalizing i with
  | nil => cases c <;> rfl
  | cons s ss ih =>
    have := ih (i + 1)
    cases c <;> simp only [lookup, indexFrom, posFrom, key, List.filter_cons] at this ⊢ <;>
      split <;> simp_all

theorem mem_posFrom (f : Synapse P → Bool) (l : List (Synapse P)) (i j : Nat) :
    j ∈ posFrom f i l ↔ ∃ k s, j = i + k ∧ l[k]? = some s ∧ f s = true := by
  induction l generalizing i with
  | nil => simp [posFrom]
  | cons a l ih =>
    have key : (j ∈ posFrom f (i + 1) l) ↔ ∃ k s, j = i + (k + 1) ∧ l[k]? = some s ∧ f s = true := by
      rw [ih]
      constructor
      · rintro ⟨k, s, h1, h2, h3⟩; exact ⟨k, s, by omega, h2, h3⟩
      · rintro ⟨k, s, h1, h2, h3⟩; exact ⟨k, s, by omega, h2, h3⟩
    have split0 : (∃ k s, j = i + k ∧ (a :: l)[k]? = some s ∧ f s = true) ↔
        ((j = i ∧ f a = true) ∨ ∃ k s, j = i + (k + 1) ∧ l[k]? = some s ∧ f s = true) := by
      constructor
      · rintro ⟨k, s, h1, h2, h3⟩
        cases k with
        | zero => left; simp at h2; subst h2; exact ⟨by omega, h3⟩
        | succ k => right; exact ⟨k, s, h1, by simpa using h2, h3⟩
      · rintro (⟨h1, h2⟩ | ⟨k, s, h1, h2, h3⟩)
        · exact ⟨0, a, by omega, by simp, h2⟩
        · exact ⟨k + 1, s, h1, by simpa using h2, h3⟩
    rw [split0, ← key]
    by_cases hf : f a = true
    · simp [posFrom, hf]
    · simp [posFrom, hf]

theorem posFrom_ge (f : Synapse P → Bool) (l : List (Synapse P)) (i j : Nat)
    (h : j ∈ posFrom f i l) : i ≤ j := by
  rw [mem_posFrom] at h
  obtain ⟨k, s, h1, _⟩ := h
  omega

theorem posFrom_sorted (f : Synapse P → Bool) (l : List (Synapse P)) (i : Nat) :
    (posFrom f i l).Pairwise (· < ·) := by
  induction l generalizing i with
  | nil => simp [posFrom]
  | cons a l ih =>
    unfold posFrom
    split
    · refine List.pairwise_cons.2 ⟨?_, ih _⟩
      intro b hb
      have := posFrom_ge f l (i + 1) b hb
      omega
    · exact ih _

theorem posFrom_nodup (f : Synapse P → Bool) (l : List (Synapse P)) (i : Nat) :
    (posFrom f i l).Nodup :=
  (posFrom_sorted f l i).imp (by intro a b h; omega)

theorem posFrom_sort (f : Synapse P → Bool) (l : List (Synapse P)) (i : Nat) :
    sortBy (fun a b => decide (a ≤ b)) (posFrom f i l) = posFrom f i l := by
  apply sortBy_of_sorted
  exact (posFrom_sorted f l i).imp (by intro a b h; simp; omega)

theorem removeByIndex_posFrom (f : Synapse P → Bool) (l acc : List (Synapse P)) (c : Nat) :
    removeByIndex (posFrom f (acc.length + c) l) c (acc ++ l)
      = .ok (acc ++ l.filter (fun s => !f s)) := by
  induction l generalizing acc c with
  | nil => simp [posFrom, removeByIndex]
  | cons s ss ih =>
    unfold posFrom
    by_cases hf : f s = true
    · simp only [hf, if_true]
      unfold removeByIndex
      have h1 : c ≤ acc.length + c ∧ acc.length + c - c < (acc ++ s :: ss).length := by
        constructor
        · omega
        · simp only [List.length_append, List.length_cons]; omega
      rw [if_pos h1]
      have h2 : acc.length + c - c = acc.length := by omega
      rw [h2]
      have h3 : (acc ++ s :: ss).eraseIdx acc.length = acc ++ ss := by
        rw [List.eraseIdx_append_of_length_le (Nat.le_refl _)]; simp
      rw [h3]
      have h4 := ih acc (c + 1)
      rw [← Nat.add_assoc] at h4
      rw [h4]
      simp [hf]
    · have hf' : f s = false := by simpa using hf
      simp only [hf', Bool.false_eq_true, if_false]
      have h4 := ih (acc ++ [s]) c
      have e1 : (acc ++ [s]).length + c = acc.length + c + 1 := by simp; omega
      rw [e1] at h4
      simp only [List.append_assoc, List.singleton_append] at h4
      rw [h4]
      simp [hf']

theorem removePostsynaptic_synapses (p : Projection P) (n : Nat) :
    ∃ ix, p.removePostsynaptic n =
      .ok ({ p with synapses := p.synapses.filter (fun s => !(s.dst == n)), index := ix },
        p.synapses.length - (p.synapses.filter (fun s => !(s.dst == n))).length) ∧
      (p.fresh = true →
        ix = (posFrom (key .byPostsynaptic n) 0 p.synapses).foldl eraseKey0
          (indexFrom 0 p.synapses)) := by
  unfold removePostsynaptic findSynapses reindex
  simp only [Bool.false_eq_true, if_false]
  rw [lookup_indexFrom, posFrom_sort]
  have h := removeByIndex_posFrom (key (P := P) .byPostsynaptic n) p.synapses [] 0
  simp only [List.length_nil, Nat.zero_add, List.nil_append] at h
  rw [h]
  refine ⟨_, rfl, ?_⟩
  intro hf
  simp [hf]

theorem posFrom_nil_of_filter (f : Synapse P → Bool) (l : List (Synapse P)) (i : Nat)
    (h : l.length ≤ (l.filter (fun s => !f s)).length) : posFrom f i l = [] := by
  induction l generalizing i with
  | nil => rfl
  | cons a l ih =>
    have hl := List.length_filter_le (fun s => !f s) l
    unfold posFrom
    by_cases hf : f a = true
    · simp [hf] at h; omega
    · have hf' : f a = false := by simpa using hf
      simp [hf'] at h ⊢
      exact ih _ h

end Knp.Projection
