import Verif.Lemmas.Projection
import Verif.Spec.Projection

/-! # C01–C04: the synapse container -/

namespace Knp.Props
open Knp Knp.Projection Knp.Spec
variable {P : Type}

/-! ## C01 -/

/-- C01 in full: after any history on a constructed projection every lookup is exact. -/
def C01_statement (P : Type) : Prop :=
  ∀ (p0 : Projection P) (st : Cache), Constructed p0 st →
  ∀ (ops : List (Op P)) (p : Projection P) (outs : List Out), p0.run ops = .ok (p, outs) →
  ∀ n c, ExactLookup p.synapses n c (p.findSynapses n c).2

private def w (s t : Nat) : Synapse Unit := ⟨(), s, t⟩

/-- C01 does not hold of the code: a projection generated with the synapses
0→0, 1→1, 2→1 (its cache is warm), then `remove_postsynaptic_neuron_synapses(0)`;
afterwards the lookup by target 1 answers with positions of the old contents. -/
theorem C01_lookup_refuted : ¬ C01_statement Unit := by
  intro h
  have h1 := h (mkGenerated (fun i => [w 0 0, w 1 1, w 2 1][i]?) 3) .warm (.generated _ _)
    [.removePost 0]
    { synapses := [w 1 1, w 2 1], index := [⟨1, 1, 1⟩, ⟨2, 1, 2⟩], fresh := true, locked := true }
    [.count 1] (by rfl) 1 .byPostsynaptic
  have h2 := (h1.2 2).1 (by decide)
  obtain ⟨s, hs, _⟩ := h2
  simp at hs

private theorem indexFrom_set_params (l : List (Synapse P)) (k i : Nat) (q : P)
    (h : i < l.length) :
    indexFrom k (l.set i { l[i] with params := q }) = indexFrom k l := by
  induction l generalizing k i with
  | nil => simp at h
  | cons a l ih =>
    cases i with
    | zero => simp [indexFrom]
    | succ i =>
      simp only [List.set_cons_succ, indexFrom, List.getElem_cons_succ]
      rw [ih]

private def Inv (st : Cache) (p : Projection P) : Prop :=
  match st with
  | .cold => p.fresh = false
  | .warm => p.fresh = true ∧ p.index = indexFrom 0 p.synapses
  | .stale => p.fresh = true

private theorem inv_step (st : Cache) (p p' : Projection P) (o : Op P) (out : Out)
    (hi : Inv st p) (h : p.step o = .ok (p', out)) : Inv (st.next o out) p' := by
  cases o with
  | find n c =>
    simp only [step, findSynapses, reindex, Outcome.ok.injEq, Prod.mk.injEq] at h
    obtain ⟨rfl, rfl⟩ := h
    cases st <;> simp_all [Inv, Cache.next]
  | add g k =>
    simp only [step, addSynapses, Outcome.ok.injEq, Prod.mk.injEq] at h
    obtain ⟨rfl, rfl⟩ := h
    simp [Inv, Cache.next]
  | clear =>
    simp only [step, clear, Outcome.ok.injEq, Prod.mk.injEq] at h
    obtain ⟨rfl, rfl⟩ := h
    cases st <;> simp_all [Inv, Cache.next, indexFrom]
  | removeSynapse i =>
    simp only [step, removeSynapse] at h
    by_cases hlt : i < p.synapses.length
    · simp only [if_pos hlt, Outcome.ok.injEq, Prod.mk.injEq] at h
      obtain ⟨rfl, rfl⟩ := h
      simp [Inv, Cache.next]
    · simp [if_neg hlt] at h
  | removeIf f =>
    simp only [step, removeSynapseIf, Outcome.ok.injEq, Prod.mk.injEq] at h
    obtain ⟨rfl, rfl⟩ := h
    simp [Inv, Cache.next]
  | removePre n =>
    simp only [step, removePresynaptic, removeSynapseIf, Outcome.ok.injEq, Prod.mk.injEq] at h
    obtain ⟨rfl, rfl⟩ := h
    simp [Inv, Cache.next]
  | removePost n =>
    obtain ⟨ix, hr, hix⟩ := removePostsynaptic_synapses p n
    simp only [step, hr, Outcome.ok.injEq, Prod.mk.injEq] at h
    obtain ⟨rfl, rfl⟩ := h
    cases hk : p.synapses.length - (p.synapses.filter (fun s => !(s.dst == n))).length with
    | zero =>
      have hle := List.length_filter_le (fun s => !(s.dst == n)) p.synapses
      have hpos := posFrom_nil_of_filter (key (P := P) .byPostsynaptic n) p.synapses 0
        (by unfold key; simp only; omega)
      have heq : p.synapses.filter (fun s => !(s.dst == n)) = p.synapses := by
        apply List.Sublist.eq_of_length List.filter_sublist
        omega
      rw [hpos] at hix
      rw [heq]
      cases st
      · simpa [Inv, Cache.next] using hi
      · exact ⟨hi.1, hix hi.1⟩
      · exact ⟨hi, hix hi⟩
    | succ m =>
      cases st <;> simp_all [Inv, Cache.next]
  | setSynapse i s =>
    simp only [step, setSynapse] at h
    by_cases hlt : i < p.synapses.length
    · simp only [if_pos hlt, Outcome.ok.injEq, Prod.mk.injEq] at h
      obtain ⟨rfl, rfl⟩ := h
      cases st <;> simp_all [Inv, Cache.next]
    · simp [if_neg hlt] at h
  | setParams i q =>
    simp only [step, setParams] at h
    by_cases hlt : i < p.synapses.length
    · simp only [dif_pos hlt, Outcome.ok.injEq, Prod.mk.injEq] at h
      obtain ⟨rfl, rfl⟩ := h
      cases st <;> simp_all [Inv, Cache.next, indexFrom_set_params]
    · simp [dif_neg hlt] at h
  | lock =>
    simp only [step, setLock, Outcome.ok.injEq, Prod.mk.injEq] at h
    obtain ⟨rfl, rfl⟩ := h
    cases st <;> simp_all [Inv, Cache.next]
  | unlock =>
    simp only [step, setLock, Outcome.ok.injEq, Prod.mk.injEq] at h
    obtain ⟨rfl, rfl⟩ := h
    cases st <;> simp_all [Inv, Cache.next]

private theorem inv_run (ops : List (Op P)) (st : Cache) (p p' : Projection P) (outs : List Out)
    (hi : Inv st p) (h : p.run ops = .ok (p', outs)) : Inv (st.track ops outs) p' := by
  induction ops generalizing st p outs with
  | nil =>
    simp only [run, Outcome.ok.injEq, Prod.mk.injEq] at h
    obtain ⟨rfl, rfl⟩ := h
    simpa [Cache.track] using hi
  | cons o os ih =>
    simp only [run] at h
    cases h1 : p.step o with
    | throw w => simp [h1] at h
    | ub => simp [h1] at h
    | ok r =>
      obtain ⟨p1, out⟩ := r
      rw [h1] at h
      cases h2 : p1.run os with
      | throw w => simp [h2] at h
      | ub => simp [h2] at h
      | ok r2 =>
        obtain ⟨p2, outs2⟩ := r2
        simp only [h2, Outcome.ok.injEq, Prod.mk.injEq] at h
        obtain ⟨rfl, rfl⟩ := h
        exact ih _ _ _ (inv_step st p p1 o out hi h1) h2

private theorem exact_of_inv (st : Cache) (p : Projection P) (hi : Inv st p) (hs : st ≠ .stale)
    (n : Nat) (c : Search) : ExactLookup p.synapses n c (p.findSynapses n c).2 := by
  have hl : (p.findSynapses n c).2 = posFrom (key c n) 0 p.synapses := by
    rw [← lookup_indexFrom]
    unfold findSynapses reindex
    cases st with
    | cold => simp_all [Inv]
    | warm => simp_all [Inv]
    | stale => exact absurd rfl hs
  rw [hl]
  refine ⟨posFrom_nodup _ _ _, ?_⟩
  intro i
  rw [mem_posFrom]
  constructor
  · rintro ⟨k, s, h1, h2, h3⟩
    rw [Nat.zero_add] at h1
    subst h1
    refine ⟨s, h2, ?_⟩
    cases c <;> simpa [key] using h3
  · rintro ⟨s, h2, h3⟩
    refine ⟨i, s, by omega, h2, ?_⟩
    cases c <;> simpa [key] using h3

/-- C01, the part that holds: after any history the lookup is exact unless the history ended in the
`stale` situation, i.e. synapses were removed by target neuron (at least one), or endpoints were
edited in place, while the cache was warm, with no add/remove/clear since.
Missing from the full statement: exactly the histories that end `stale`
(`C01_lookup_refuted` shows they can fail). -/
theorem C01_lookup_exact_partial (p0 : Projection P) (st : Cache) (hc : Constructed p0 st)
    (ops : List (Op P)) (p : Projection P) (outs : List Out) (hrun : p0.run ops = .ok (p, outs))
    (hok : st.track ops outs ≠ .stale) (n : Nat) (c : Search) :
    ExactLookup p.synapses n c (p.findSynapses n c).2 := by
  refine exact_of_inv _ p (inv_run ops st p0 p outs ?_ hrun) hok n c
  cases hc with
  | empty => simp [Inv, mkEmpty]
  | generated gen k => simp [Inv, mkGenerated, reindex]

-- The hypotheses are met by a history that also goes through the dangerous call and recovers.
example : ∃ p outs, (mkGenerated (fun i => [w 0 0, w 1 1, w 2 1][i]?) 3).run
      [.removePost 0, .add (fun _ => some (w 7 1)) 2, .find 1 .byPostsynaptic, .setParams 0 ()]
        = .ok (p, outs)
    ∧ Cache.track .warm [.removePost 0, .add (fun _ => some (w 7 1)) 2,
        .find 1 .byPostsynaptic, .setParams 0 ()] outs ≠ .stale
    ∧ (p.findSynapses 1 .byPostsynaptic).2 = [0, 1, 2, 3] := by
  exact ⟨_, _, rfl, by decide, by decide⟩

/-! ## C02 -/

/-- C02: `remove_postsynaptic_neuron_synapses(n)` always returns (no UB, no exception), removes
exactly the synapses with target `n`, keeps the rest in order and reports the number removed –
whatever the lookup cache looks like. -/
theorem C02_remove_by_target (p : Projection P) (n : Nat) :
    ∃ p' k, p.removePostsynaptic n = .ok (p', k) ∧
      p'.synapses = p.synapses.filter (fun s => decide (s.dst ≠ n)) ∧
      k = p.synapses.countP (fun s => decide (s.dst = n)) ∧
      p'.locked = p.locked := by
  obtain ⟨ix, hr, _⟩ := removePostsynaptic_synapses p n
  refine ⟨_, _, hr, ?_, ?_, rfl⟩
  · simp only
    congr 1
    funext s
    by_cases h : s.dst = n <;> simp [h]
  · have h1 : (fun s : Synapse P => !(s.dst == n)) = fun s => !(decide (s.dst = n)) := by
      funext s; by_cases h : s.dst = n <;> simp [h]
    rw [h1, ← List.countP_eq_length_filter]
    have := List.length_eq_countP_add_countP (l := p.synapses) (fun s => decide (s.dst = n))
    simp only [decide_eq_true_eq] at this
    have h2 : List.countP (fun a => decide ¬a.dst = n) p.synapses
        = List.countP (fun s => !decide (s.dst = n)) p.synapses := by
      congr 1; funext s; simp
    omega

example : (Projection.removePostsynaptic
    { synapses := [w 0 5, w 1 1, w 2 5], index := [], fresh := true, locked := false } 5).isOk = true := by
  decide

/-! ## C03 -/

/-- C03: `remove_synapse_if` is an exact, order-preserving filter and reports the number removed. -/
theorem C03_remove_if (p : Projection P) (pred : Synapse P → Bool) :
    (p.removeSynapseIf pred).1.synapses = p.synapses.filter (fun s => !pred s) ∧
    (p.removeSynapseIf pred).2 = p.synapses.countP pred := by
  refine ⟨rfl, ?_⟩
  unfold removeSynapseIf
  simp only
  rw [← List.countP_eq_length_filter]
  have := List.length_eq_countP_add_countP (l := p.synapses) pred
  have h2 : List.countP (fun a => decide ¬pred a = true) p.synapses
      = List.countP (fun s => !pred s) p.synapses := by
    congr 1; funext s; cases pred s <;> simp
  omega

/-- C03: `remove_presynaptic_neuron_synapses(n)` keeps exactly the synapses with another source. -/
theorem C03_remove_by_source (p : Projection P) (n : Nat) :
    (p.removePresynaptic n).1.synapses = p.synapses.filter (fun s => decide (s.src ≠ n)) ∧
    (p.removePresynaptic n).2 = p.synapses.countP (fun s => decide (s.src = n)) := by
  have h := C03_remove_if p (fun s => s.src == n)
  unfold removePresynaptic
  refine ⟨?_, ?_⟩
  · rw [h.1]; congr 1; funext s; by_cases hs : s.src = n <;> simp [hs]
  · rw [h.2]; congr 1

/-- C03: `remove_synapse(i)` removes exactly position `i`, and is undefined exactly outside the
vector. -/
theorem C03_remove_at (p : Projection P) (i : Nat) :
    (∀ p', p.removeSynapse i = .ok p' →
        (∀ j, j < i → p'.synapses[j]? = p.synapses[j]?) ∧
        (∀ j, i ≤ j → p'.synapses[j]? = p.synapses[j + 1]?) ∧
        p'.synapses.length + 1 = p.synapses.length) ∧
    (p.removeSynapse i = .ub ↔ p.synapses.length ≤ i) := by
  unfold removeSynapse
  by_cases h : i < p.synapses.length
  · rw [if_pos h]
    refine ⟨?_, ?_⟩
    · intro p' hp
      simp only [Outcome.ok.injEq] at hp
      subst hp
      refine ⟨?_, ?_, ?_⟩
      · intro j hj; simp only [List.getElem?_eraseIdx]; simp [hj]
      · intro j hj; simp only [List.getElem?_eraseIdx]; simp [Nat.not_lt.2 hj]
      · simp only [List.length_eraseIdx]; simp only [if_pos h]; omega
    · constructor
      · intro hh; cases hh
      · intro hh; omega
  · rw [if_neg h]
    refine ⟨?_, ?_⟩
    · intro p' hp; cases hp
    · constructor
      · intro _; omega
      · intro _; rfl

example : ∃ p', (Projection.mk [w 0 1, w 1 1, w 2 1] [] true true).removeSynapse 1 = .ok p' ∧
    p'.synapses = [w 0 1, w 2 1] := by
  exact ⟨_, rfl, rfl⟩

/-! ## C04 -/

/-- C04: `add_synapses` appends exactly what the generator yields for 0,…,k-1, in that order, and
returns how many that was. -/
theorem C04_add_synapses (p : Projection P) (gen : SynapseGenerator P) (k : Nat) :
    (p.addSynapses gen k).1.synapses = p.synapses ++ (List.range k).filterMap gen ∧
    (p.addSynapses gen k).2 = ((List.range k).filter (fun i => (gen i).isSome)).length := by
  unfold addSynapses
  simp only [generateLoop_eq, List.range_eq_range']
  refine ⟨trivial, ?_⟩
  rw [List.length_append, Nat.add_sub_cancel_left, List.length_filterMap_eq_countP,
    List.countP_eq_length_filter]

/-- C04: a projection built from a generator contains exactly the yielded synapses. -/
theorem C04_construct (gen : SynapseGenerator P) (k : Nat) :
    (mkGenerated gen k).synapses = (List.range k).filterMap gen ∧
    (mkGenerated gen k).locked = true := by
  unfold mkGenerated reindex
  simp [generateLoop_eq, List.range_eq_range']

example : (mkGenerated (fun i => if i % 2 = 0 then some (w i (i + 1)) else none) 5).synapses
    = [w 0 1, w 2 3, w 4 5] := by decide

end Knp.Props
