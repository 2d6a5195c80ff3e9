import Verif.Model.Population
import Mathlib.Data.List.Perm.Subperm
import Mathlib.Algebra.BigOperators.Group.List.Basic
import Mathlib.Data.List.Nodup
import Mathlib.Data.List.Range

/-! # C05, C80: the neuron container -/

namespace Knp.Props
open Knp Knp.Population
variable {N : Type}

/-- C05, full statement: for every list of distinct valid positions, `remove_neurons` deletes exactly
the neurons at these positions. -/
def C05_statement (N : Type) : Prop :=
  ∀ (p : Population N) (ids : List Nat), ids.Nodup → (∀ i ∈ ids, i < p.neurons.length) →
    ∃ p', p.removeNeurons ids = .ok p' ∧
      p'.neurons = (p.neurons.zipIdx.filter (fun x => decide (x.2 ∉ ids))).map Prod.fst

/-- C05 is false of the code for unsorted lists: asking to remove neurons 2 and 1 (in that order) of
three silently deletes neurons 2 and 0. -/
theorem C05_remove_neurons_refuted : ¬ C05_statement Nat := by
  intro h
  obtain ⟨p', h1, h2⟩ := h ⟨[10, 11, 12]⟩ [2, 1] (by decide) (by decide)
  have h3 : p' = ⟨[11]⟩ := by
    have : (Population.mk [10, 11, 12]).removeNeurons [2, 1] = .ok ⟨[11]⟩ := by rfl
    rw [this] at h1
    exact (Outcome.ok.inj h1).symm
  subst h3
  exact absurd h2 (by decide)

/-- … and for a descending list it can leave the language altogether. -/
theorem C05_remove_neurons_ub : (Population.mk [10, 11, 12]).removeNeurons [1, 0] = .ub := by rfl

private theorem removeLoop_ascending (l acc : List N) (shift : Nat) (ids : List Nat)
    (hs : ids.Pairwise (· < ·)) (hlo : ∀ i ∈ ids, acc.length + shift ≤ i)
    (hhi : ∀ i ∈ ids, i < acc.length + shift + l.length) :
    removeLoop ids shift ⟨acc ++ l⟩ =
      .ok ⟨acc ++ ((l.zipIdx (acc.length + shift)).filter
        (fun x => decide (x.2 ∉ ids))).map Prod.fst⟩ := by
  induction l generalizing acc shift ids with
  | nil =>
    cases ids with
    | nil => simp [removeLoop]
    | cons i is =>
      have h1 := hlo i (by simp)
      have h2 := hhi i (by simp)
      simp at h2; omega
  | cons a l ih =>
    cases ids with
    | nil =>
      rw [List.filter_eq_self.2 (by simp)]
      simp [removeLoop]
    | cons i is =>
      have hp := List.pairwise_cons.1 hs
      by_cases hi : i = acc.length + shift
      · have h1 : shift ≤ i := by omega
        have h2 : i - shift = acc.length := by omega
        unfold removeLoop
        rw [if_pos h1, h2]
        have h3 : acc.length < (acc ++ a :: l).length := by simp
        simp only [removeNeuron, if_pos h3]
        have h4 : (acc ++ a :: l).eraseIdx acc.length = acc ++ l := by
          rw [List.eraseIdx_append_of_length_le (Nat.le_refl _)]; simp
        rw [h4]
        have h5 := ih acc (shift + 1) is hp.2
          (by intro j hj; have := hp.1 j hj; omega)
          (by intro j hj; have := hhi j (List.mem_cons_of_mem _ hj); simp at this; omega)
        rw [h5]
        rw [List.zipIdx_cons]
        rw [List.filter_cons_of_neg (by simp [hi])]
        have e : acc.length + (shift + 1) = acc.length + shift + 1 := by omega
        rw [e]
        congr 3
        congr 1
        apply List.filter_congr
        intro x hx
        have hx' := List.le_snd_of_mem_zipIdx hx
        have : x.2 ≠ i := by omega
        simp [this]
      · have hgt : acc.length + shift + 1 ≤ i := by
          have := hlo i (by simp); omega
        have h5 := ih (acc ++ [a]) shift (i :: is) hs
          (by
            intro j hj
            have hj' : i ≤ j := by
              rcases List.mem_cons.1 hj with rfl | hj
              · exact Nat.le_refl _
              · exact Nat.le_of_lt (hp.1 j hj)
            simp; omega)
          (by intro j hj; have := hhi j hj; simp at this ⊢; omega)
        have e : acc ++ [a] ++ l = acc ++ a :: l := by simp
        rw [e] at h5
        rw [h5]
        rw [List.zipIdx_cons]
        have hnot : acc.length + shift ∉ i :: is := by
          intro hmem
          have : i ≤ acc.length + shift := by
            rcases List.mem_cons.1 hmem with h | h
            · omega
            · exact Nat.le_of_lt (hp.1 _ h)
          omega
        rw [List.filter_cons_of_pos (by simpa using hnot)]
        have e2 : (acc ++ [a]).length + shift = acc.length + shift + 1 := by simp; omega
        rw [e2]
        simp

/-- C05 for strictly ascending index lists (the only lists the code handles in general): exactly the
listed neurons go, the others keep their order.
Missing from the full statement: lists that are not ascending. -/
theorem C05_remove_neurons_partial (p : Population N) (ids : List Nat)
    (hs : ids.Pairwise (· < ·)) (hv : ∀ i ∈ ids, i < p.neurons.length) :
    ∃ p', p.removeNeurons ids = .ok p' ∧
      p'.neurons = (p.neurons.zipIdx.filter (fun x => decide (x.2 ∉ ids))).map Prod.fst := by
  have h := removeLoop_ascending p.neurons [] 0 ids hs (by simp) (by simpa using hv)
  refine ⟨_, h, ?_⟩
  simp

example : (Population.mk [10, 11, 12, 13]).removeNeurons [0, 2, 3] = .ok ⟨[11]⟩ := by rfl

private theorem removeLoop_outcome (ids : List Nat) (s : Nat) (p : Population N) :
    ((∃ p', removeLoop ids s p = .ok p') ↔ ∀ k i, ids[k]? = some i → s + k ≤ i ∧ i < s + p.neurons.length) ∧
    ((¬ ∃ p', removeLoop ids s p = .ok p') → removeLoop ids s p = .ub) := by
  induction ids generalizing s p with
  | nil => simp [removeLoop]
  | cons a ids ih =>
    unfold removeLoop
    by_cases h1 : s ≤ a
    · rw [if_pos h1]
      by_cases h2 : a - s < p.neurons.length
      · simp only [removeNeuron, if_pos h2]
        have := ih (s + 1) ⟨p.neurons.eraseIdx (a - s)⟩
        refine ⟨this.1.trans ?_, this.2⟩
        have hl : (p.neurons.eraseIdx (a - s)).length = p.neurons.length - 1 := by
          rw [List.length_eraseIdx_of_lt h2]
        simp only [hl]
        constructor
        · intro h k i hk
          cases k with
          | zero => simp at hk; subst hk; omega
          | succ k => have := h k i (by simpa using hk); omega
        · intro h k i hk
          have := h (k + 1) i (by simpa using hk)
          omega
      · simp only [removeNeuron, if_neg h2]
        refine ⟨⟨(fun ⟨_, h⟩ => by cases h), (fun h => ?_)⟩, (fun _ => trivial)⟩
        have := h 0 a rfl
        omega
    · rw [if_neg h1]
      refine ⟨⟨(fun ⟨_, h⟩ => by cases h), (fun h => ?_)⟩, (fun _ => rfl)⟩
      have := h 0 a rfl
      omega

/-- C05, exactly when the call is defined: every index is valid and none is smaller than its place in the list.  Otherwise the behaviour is
undefined; it never throws. -/
theorem C05_defined (p : Population N) (ids : List Nat) :
    ((∃ p', p.removeNeurons ids = .ok p') ↔ ∀ k i, ids[k]? = some i → k ≤ i ∧ i < p.neurons.length) ∧
    ((¬ ∃ p', p.removeNeurons ids = .ok p') → p.removeNeurons ids = .ub) := by
  simpa [removeNeurons] using removeLoop_outcome ids 0 p

private theorem removeLoop_map {M : Type} (f : N → M) (ids : List Nat) (s : Nat) (l : List N) :
    removeLoop ids s ⟨l.map f⟩ = match removeLoop ids s ⟨l⟩ with
      | .ok p' => .ok ⟨p'.neurons.map f⟩
      | .throw w => .throw w
      | .ub => .ub := by
  induction ids generalizing s l with
  | nil => simp [removeLoop]
  | cons a ids ih =>
    unfold removeLoop
    by_cases h1 : s ≤ a
    · rw [if_pos h1, if_pos h1]
      by_cases h2 : a - s < l.length
      · have h3 : a - s < (l.map f).length := by simpa using h2
        simp only [removeNeuron, if_pos h2, if_pos h3]
        rw [← ih, List.eraseIdx_map]
      · have h3 : ¬ a - s < (l.map f).length := by simpa using h2
        simp only [removeNeuron, if_neg h2, if_neg h3]
    · rw [if_neg h1, if_neg h1]

private theorem sum_eraseIdx (l : List Nat) (k : Nat) (h : k < l.length) : l.sum = (l.eraseIdx k).sum + l[k] := by
  induction l generalizing k with
  | nil => simp at h
  | cons a l ih =>
    cases k with
    | zero => simp; omega
    | succ k =>
      have := ih k (by simpa using h)
      simp [this]; omega

/-- What the loop erases is never above what the list says, and it is what the list says only if the list ascends. -/
private theorem removeLoop_sum (ids : List Nat) (s : Nat) (l r : List Nat) (hb : ∀ k v, l[k]? = some v → v ≤ k + s)
    (h : removeLoop ids s ⟨l⟩ = .ok ⟨r⟩) :
    l.length = r.length + ids.length ∧ l.sum ≤ r.sum + ids.sum ∧
    (l.sum = r.sum + ids.sum → ids.Pairwise (· < ·) ∧ ∀ i, ids.head? = some i → s ≤ i ∧ l[i - s]? = some i) := by
  induction ids generalizing s l with
  | nil => simp [removeLoop] at h; subst h; simp
  | cons a ids ih =>
    unfold removeLoop at h
    by_cases h1 : s ≤ a
    · rw [if_pos h1] at h
      by_cases h2 : a - s < l.length
      · simp only [removeNeuron, if_pos h2] at h
        have hsum := sum_eraseIdx l (a - s) h2
        have hlen := List.length_eraseIdx_of_lt h2
        have hv : l[a - s] ≤ a := by
          have := hb (a - s) _ (List.getElem?_eq_getElem h2)
          omega
        have hb' : ∀ k v, (l.eraseIdx (a - s))[k]? = some v → v ≤ k + (s + 1) := by
          intro k v hk
          rw [List.getElem?_eraseIdx] at hk
          split at hk
          · have := hb _ _ hk; omega
          · have := hb _ _ hk; omega
        obtain ⟨i1, i2, i3⟩ := ih (s + 1) _ hb' h
        refine ⟨by simp; omega, by simp; omega, ?_⟩
        intro he
        simp only [List.sum_cons] at he
        obtain ⟨j1, j2⟩ := i3 (by omega)
        have hva : l[a - s] = a := by omega
        refine ⟨?_, by intro i hi; simp at hi; subst hi; exact ⟨h1, by rw [List.getElem?_eq_getElem h2, hva]⟩⟩
        refine List.pairwise_cons.2 ⟨?_, j1⟩
        cases ids with
        | nil => simp
        | cons b ids =>
          obtain ⟨k1, k2⟩ := j2 b rfl
          have hab : a < b := by
            by_contra hc
            rw [List.getElem?_eraseIdx, if_pos (by omega)] at k2
            have := hb _ _ k2
            omega
          intro i hi
          rcases List.mem_cons.1 hi with rfl | hi
          · exact hab
          · exact Nat.lt_trans hab ((List.pairwise_cons.1 j1).1 i hi)
      · simp only [removeNeuron, if_neg h2] at h
        cases h
    · rw [if_neg h1] at h
      cases h

private theorem map_range_getElem? (l : List N) : (List.range l.length).map (fun i => l[i]?) = l.map some := by
  apply List.ext_getElem?
  intro k
  by_cases h : k < l.length
  · simp [h]
  · simp [h]

/-- C05, exactly when the call does what it is asked to: of distinguishable neurons, precisely those listed go if and only if the list is
strictly ascending and its indexes are valid. -/
theorem C05_exact (p : Population N) (hp : p.neurons.Nodup) (ids : List Nat) :
    p.removeNeurons ids = .ok ⟨(p.neurons.zipIdx.filter (fun x => decide (x.2 ∉ ids))).map Prod.fst⟩ ↔
      (ids.Pairwise (· < ·) ∧ ∀ i ∈ ids, i < p.neurons.length) := by
  constructor
  · intro h
    have hdef := (C05_defined p ids).1.1 ⟨_, h⟩
    have hv : ∀ i ∈ ids, i < p.neurons.length := by
      intro i hi
      obtain ⟨k, hk⟩ := List.mem_iff_getElem?.1 hi
      exact (hdef k i hk).2
    refine ⟨?_, hv⟩
    obtain ⟨xs⟩ := p
    simp only at hp hv h
    -- the loop on positions
    have hm := removeLoop_map (fun i => xs[i]?) ids 0 (List.range xs.length)
    rw [map_range_getElem?, removeLoop_map] at hm
    unfold removeNeurons at h
    rw [h] at hm
    simp only at hm
    cases hr : removeLoop ids 0 ⟨List.range xs.length⟩ with
    | ok q =>
      obtain ⟨r⟩ := q
      rw [hr] at hm
      simp only [Outcome.ok.injEq, Population.mk.injEq] at hm
      obtain ⟨l1, l2, l3⟩ := removeLoop_sum ids 0 _ r (by
        intro k v hk
        have := List.getElem?_eq_some_iff.1 hk
        obtain ⟨_, h2⟩ := this
        simp at h2; omega) hr
      -- what is kept, in positions
      have hz : ((xs.zipIdx.filter (fun x => decide (x.2 ∉ ids))).map Prod.fst).map some
          = ((List.range xs.length).filter (fun i => decide (i ∉ ids))).map (fun i => xs[i]?) := by
        have e : xs.zipIdx.map Prod.snd = List.range xs.length := by
          rw [List.zipIdx_map_snd, List.range_eq_range']
        rw [← e, List.filter_map, List.map_map, List.map_map]
        apply List.map_congr_left
        intro x hx
        have hx' := (List.mem_filter.1 hx).1
        have := List.mem_zipIdx_iff_getElem?.1 hx'
        simp [this]
      rw [hz] at hm
      have hsub : ∀ i ∈ r, i < xs.length := by
        intro i hi
        have : xs[i]? ∈ (r.map (fun i => xs[i]?)) := List.mem_map.2 ⟨i, hi, rfl⟩
        rw [← hm] at this
        obtain ⟨j, hj, hji⟩ := List.mem_map.1 this
        have hj' := List.mem_range.1 (List.mem_filter.1 hj).1
        simp only [List.getElem?_eq_getElem hj'] at hji
        exact (List.getElem?_eq_some_iff.1 hji.symm).1
      have hinj : ∀ (u v : List Nat), (∀ i ∈ u, i < xs.length) → (∀ i ∈ v, i < xs.length) →
          u.map (fun i => xs[i]?) = v.map (fun i => xs[i]?) → u = v := by
        intro u
        induction u with
        | nil => intro v _ _ he; simpa using he.symm
        | cons a u ih =>
          intro v hu hv' he
          cases v with
          | nil => simp at he
          | cons b v =>
            simp only [List.map_cons, List.cons.injEq] at he
            have ha := hu a (by simp)
            have hb := hv' b (by simp)
            have hab : a = b := by
              have h0 := he.1
              rw [List.getElem?_eq_getElem ha, List.getElem?_eq_getElem hb] at h0
              exact (List.Nodup.getElem_inj_iff hp).1 (Option.some.inj h0)
            rw [hab, ih v (fun i hi => hu i (by simp [hi])) (fun i hi => hv' i (by simp [hi])) he.2]
      have hreq := hinj _ r (fun i hi => List.mem_range.1 (List.mem_filter.1 hi).1) hsub hm
      subst hreq
      -- as many go as are listed, so exactly these
      have hpart := List.filter_append_perm (fun i => decide (i ∉ ids)) (List.range xs.length)
      have hplen := hpart.length_eq
      have hpsum := hpart.sum_eq
      have hnd : ((List.range xs.length).filter (fun i => !decide (i ∉ ids))).Nodup := List.nodup_range.filter _
      have hss : ((List.range xs.length).filter (fun i => !decide (i ∉ ids))) ⊆ ids := by
        intro i hi
        have := (List.mem_filter.1 hi).2
        simpa using this
      rw [List.length_append] at hplen
      rw [List.sum_append] at hpsum
      have hperm := (List.subperm_of_subset hnd hss).perm_of_length_le (by omega)
      have := hperm.sum_eq
      exact (l3 (by omega)).1
    | throw w => rw [hr] at hm; cases hm
    | ub => rw [hr] at hm; cases hm
  · rintro ⟨hs, hv⟩
    obtain ⟨p', h1, h2⟩ := C05_remove_neurons_partial p ids hs hv
    rw [h1, ← h2]

/-! Which of three neurons may go: `[1, 2]` works, `[2, 1]` is defined but takes others, `[1, 0]` is not defined. -/
example : (∀ k i, [2, 1][k]? = some i → k ≤ i ∧ i < 3) ∧ ¬ ([2, 1] : List Nat).Pairwise (· < ·) := by
  refine ⟨?_, by decide⟩
  intro k i h
  rcases k with _ | _ | k
  · simp at h; omega
  · simp at h; omega
  · simp at h
example : ¬ ∀ k i, [1, 0][k]? = some i → k ≤ i ∧ i < 3 := fun h => absurd (h 1 0 rfl).1 (by decide)
example : (Population.mk [10, 11, 12]).removeNeurons [1, 2] = .ok ⟨[10]⟩ := by rfl

private theorem addLoop_eq (gen : Nat → Option N) (n i : Nat) (acc : List N) :
    addLoop gen n i acc = acc ++ (List.range' i n).filterMap gen := by
  induction n generalizing i acc with
  | zero => simp [addLoop]
  | succ n ih =>
    rw [List.range'_succ]
    cases h : gen i with
    | none => simp [addLoop, h, ih]
    | some s => simp [addLoop, h, ih]

/-- C80: `add_neurons` appends exactly what the generator yields for 0,…,k-1, in order, after the
existing neurons. -/
theorem C80_add_neurons (p : Population N) (gen : Nat → Option N) (k : Nat) :
    (p.addNeurons gen k).neurons = p.neurons ++ (List.range k).filterMap gen := by
  simp [addNeurons, addLoop_eq, List.range_eq_range']

/-- C80: constructed population. -/
theorem C80_construct (gen : Nat → Option N) (k : Nat) :
    (Population.mk' gen k).neurons = (List.range k).filterMap gen := by
  simp [mk', C80_add_neurons]

/-- C80: writing one neuron's parameters and reading back; other neurons are untouched; both are
defined exactly for valid positions. -/
theorem C80_get_set (p : Population N) (i : Nat) (x : N) :
    (p.set i x = .ub ↔ p.neurons.length ≤ i) ∧
    ∀ p', p.set i x = .ok p' → p'.get i = .ok x ∧ ∀ j, j ≠ i → p'.get j = p.get j := by
  unfold Population.set
  by_cases h : i < p.neurons.length
  · rw [if_pos h]
    refine ⟨⟨fun hh => (by cases hh), fun hh => (by omega)⟩, ?_⟩
    intro p' hp
    simp only [Outcome.ok.injEq] at hp
    subst hp
    refine ⟨by simp [Population.get, h], ?_⟩
    intro j hj
    simp [Population.get, List.getElem?_set_ne (Ne.symm hj)]
  · rw [if_neg h]
    refine ⟨⟨fun _ => (by omega), fun _ => rfl⟩, ?_⟩
    intro p' hp; cases hp

example : ∃ p', (Population.mk [10, 11, 12]).set 1 7 = .ok p' ∧ p'.get 1 = .ok 7 := ⟨_, rfl, rfl⟩

end Knp.Props
