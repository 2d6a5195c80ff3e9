import Verif.Spec.Stdp
import Mathlib.Algebra.BigOperators.Group.List.Basic
import Mathlib.Tactic.Ring
import Mathlib.Tactic.Linarith
import Mathlib.Tactic.LinearCombination

/-! Helper lemmas for `Verif/Props/Stdp.lean`. -/

namespace Knp.Lemmas.Stdp
open Knp Knp.Neurons Knp.Stdp Knp.Spec

variable {B F N : Type}

theorem getAt_setAt (ps : List (RProj F)) (r r' : Ref) (s : RSyn F) :
    getAt (setAt ps r s) r' = if r = r' then (getAt ps r).map (fun _ => s) else getAt ps r' := by
  obtain ⟨i, k⟩ := r
  obtain ⟨i', k'⟩ := r'
  simp only [getAt, setAt, List.getElem?_modify]
  by_cases hi : i = i'
  · subst hi
    rcases hp : ps[i]? with _ | p
    · simp
    · by_cases hk : k = k'
      · subst hk
        rcases hs : p.syns[k]? with _ | s0
        · simpa [hs] using List.getElem?_eq_none_iff.1 hs
        · obtain ⟨hlt, _⟩ := List.getElem?_eq_some_iff.1 hs
          simp [hs, List.getElem?_set_self hlt]
      · simp [hk, List.getElem?_set_ne hk]
  · simp [hi]

/-- Everything about the projections but the synapses' contents. -/
def shapeOf (ps : List (RProj F)) : List (UID × UID × Bool × (Nat → List Nat) × Nat) :=
  ps.map (fun p => (p.uid, p.post, p.locked, p.find, p.syns.length))

theorem shape_setAt (ps : List (RProj F)) (r : Ref) (s : RSyn F) : shapeOf (setAt ps r s) = shapeOf ps := by
  apply List.ext_getElem?
  intro i
  simp only [shapeOf, setAt, List.getElem?_map, List.getElem?_modify]
  by_cases hi : r.1 = i
  · rcases ps[i]? with _ | p <;> simp [hi]
  · simp [hi]

theorem each_ind {f : N → RSyn F → N × RSyn F} {refs : List Ref} (P : N × List (RProj F) → Prop)
    (hstep : ∀ st r s, r ∈ refs → getAt st.2 r = some s → P st → P ((f st.1 s).1, setAt st.2 r (f st.1 s).2))
    (st : N × List (RProj F)) (h : P st) : P (each f refs st) := by
  unfold each
  induction refs generalizing st with
  | nil => exact h
  | cons r rs ih =>
    simp only [List.foldl_cons]
    apply ih
    · intro st' r' s hr; exact hstep st' r' s (List.mem_cons_of_mem _ hr)
    · unfold eachStep
      rcases hg : getAt st.2 r with _ | s
      · exact h
      · exact hstep st r s (List.mem_cons_self ..) hg h

/-- The frame of a call: the projections keep their shape, synapses outside `refs` are untouched, the others keep
their wiring. -/
structure Frame (refs : List Ref) (ps ps' : List (RProj F)) : Prop where
  shape : shapeOf ps' = shapeOf ps
  outside : ∀ r, r ∉ refs → getAt ps' r = getAt ps r
  wiring : ∀ r s, getAt ps r = some s → ∃ s', getAt ps' r = some s' ∧ SameWiring s s'

theorem SameWiring.refl (s : RSyn F) : SameWiring s s := by simp [SameWiring]

theorem SameWiring.trans {a b c : RSyn F} (h : SameWiring a b) (h' : SameWiring b c) : SameWiring a c := by
  unfold SameWiring at *
  obtain ⟨h1, h2, h3, h4, h5, h6, h7, h8, h9⟩ := h
  obtain ⟨g1, g2, g3, g4, g5, g6, g7, g8, g9⟩ := h'
  exact ⟨g1.trans h1, g2.trans h2, g3.trans h3, g4.trans h4, g5.trans h5, g6.trans h6, g7.trans h7, g8.trans h8,
    g9.trans h9⟩

theorem Frame.refl (refs : List Ref) (ps : List (RProj F)) : Frame refs ps ps :=
  ⟨rfl, fun _ _ => rfl, fun _ s h => ⟨s, h, SameWiring.refl s⟩⟩

theorem Frame.trans {refs : List Ref} {a b c : List (RProj F)} (h : Frame refs a b) (h' : Frame refs b c) :
    Frame refs a c := by
  refine ⟨h'.shape.trans h.shape, fun r hr => (h'.outside r hr).trans (h.outside r hr), ?_⟩
  intro r s hs
  obtain ⟨s1, h1, w1⟩ := h.wiring r s hs
  obtain ⟨s2, h2, w2⟩ := h'.wiring r s1 h1
  exact ⟨s2, h2, SameWiring.trans w1 w2⟩

theorem Frame.mono {refs refs' : List Ref} {a b : List (RProj F)} (h : Frame refs a b) (hs : ∀ r ∈ refs, r ∈ refs') :
    Frame refs' a b :=
  ⟨h.shape, fun r hr => h.outside r (fun hm => hr (hs r hm)), h.wiring⟩

theorem frame_setAt {refs : List Ref} {ps : List (RProj F)} {r : Ref} {s s' : RSyn F} (hr : r ∈ refs)
    (hg : getAt ps r = some s) (hw : SameWiring s s') : Frame refs ps (setAt ps r s') := by
  refine ⟨shape_setAt ps r s', ?_, ?_⟩
  · intro r' hr'
    rw [getAt_setAt, if_neg]
    rintro rfl; exact hr' hr
  · intro r' s0 h0
    rw [getAt_setAt]
    by_cases h : r = r'
    · subst h
      rw [hg] at h0 ⊢
      cases h0
      exact ⟨s', by simp, hw⟩
    · exact ⟨s0, by simp [h, h0], SameWiring.refl s0⟩

theorem each_frame {f : N → RSyn F → N × RSyn F} (hf : ∀ n s, SameWiring s (f n s).2) (refs : List Ref)
    (st : N × List (RProj F)) : Frame refs st.2 (each f refs st).2 := by
  refine each_ind (P := fun st' => Frame refs st.2 st'.2) ?_ st (Frame.refl _ _)
  intro st' r s hr hg h
  exact h.trans (frame_setAt hr hg (hf _ _))

/-- `each` visits every reference: a property of the produced synapses that later visits keep holds afterwards at
every reference. -/
theorem each_post {f : N → RSyn F → N × RSyn F} {Q : RSyn F → Prop} (hq : ∀ n s, Q (f n s).2)
    (refs : List Ref) (st : N × List (RProj F)) (r : Ref) (hr : r ∈ refs) (s : RSyn F)
    (hg : getAt (each f refs st).2 r = some s) : Q s := by
  unfold each at hg
  induction refs generalizing st with
  | nil => cases hr
  | cons r0 rs ih =>
    simp only [List.foldl_cons] at hg
    by_cases hin : r ∈ rs
    · exact ih _ hin hg
    · have hr0 : r = r0 := by
        rcases List.mem_cons.1 hr with h | h
        · exact h
        · exact absurd h hin
      subst hr0
      have hout : getAt (each f rs (eachStep f st r)).2 r = getAt (eachStep f st r).2 r := by
        refine each_ind (P := fun st' => getAt st'.2 r = getAt (eachStep f st r).2 r) ?_ _ rfl
        intro st' r' s' hr' _ h
        rw [getAt_setAt, if_neg]
        · exact h
        · rintro rfl; exact hin hr'
      have hg' : getAt (eachStep f st r).2 r = some s := hout.symm.trans hg
      unfold eachStep at hg'
      rcases h0 : getAt st.2 r with _ | s0
      · rw [h0] at hg'; simp only at hg'; rw [h0] at hg'; cases hg'
      · rw [h0] at hg'
        simp only at hg'
        rw [getAt_setAt, if_pos rfl, h0] at hg'
        simp only [Option.map_some, Option.some.injEq] at hg'
        subst hg'
        exact hq _ _

/-- If the neuron part of the body never changes the neuron, `each` keeps the neuron. -/
theorem each_fst {f : N → RSyn F → N × RSyn F} {R : N → Prop} (hf : ∀ n s, R n → R (f n s).1) (refs : List Ref)
    (st : N × List (RProj F)) (h : R st.1) : R (each f refs st).1 := by
  refine each_ind (P := fun st' => R st'.1) ?_ st h
  intro st' r s _ _ h
  exact hf _ _ h

section
variable [Field F]

theorem sum_set {α : Type} (g : α → F) (l : List α) (k : Nat) (a b : α) (h : l[k]? = some a) :
    ((l.set k b).map g).sum = (l.map g).sum + (g b - g a) := by
  induction l generalizing k with
  | nil => simp at h
  | cons x xs ih =>
    cases k with
    | zero =>
      simp at h; subst h
      simp; ring
    | succ k =>
      simp at h
      rw [List.set_cons_succ, List.map_cons, List.sum_cons, ih k h, List.map_cons, List.sum_cons]; ring

theorem sum_modify {α : Type} (g : α → F) (l : List α) (k : Nat) (a : α) (m : α → α) (h : l[k]? = some a) :
    ((l.modify k m).map g).sum = (l.map g).sum + (g (m a) - g a) := by
  have : l.modify k m = l.set k (m a) := by
    apply List.ext_getElem?
    intro i
    rw [List.getElem?_modify, List.getElem?_set]
    obtain ⟨hk, hka⟩ := List.getElem?_eq_some_iff.1 h
    by_cases hi : k = i
    · subst hi; simp [hk, hka]
    · simp [hi]
  rw [this, sum_set g l k a (m a) h]

/-- The reference points at a synapse of a working projection that ends in `i`. -/
def Hits (uid : UID) (i : Nat) (ps : List (RProj F)) (r : Ref) : Prop :=
  ∃ p s, ps[r.1]? = some p ∧ Trains uid p ∧ p.syns[r.2]? = some s ∧ s.target = i

theorem held_setAt {uid : UID} {i : Nat} {ps : List (RProj F)} {r : Ref} (h : Hits uid i ps r) {s s' : RSyn F}
    (hg : getAt ps r = some s) (ht : s'.target = s.target) (j : Nat) :
    held uid (setAt ps r s') j = held uid ps j + (if i = j then s'.rule.resource - s.rule.resource else 0) := by
  obtain ⟨p, s0, hp, hw, hs, hti⟩ := h
  have : s0 = s := by
    simp only [getAt, hp, Option.bind_some] at hg
    exact Option.some.inj (hs.symm.trans hg)
  subst this
  unfold held setAt
  rw [sum_modify _ _ _ _ _ hp]
  congr 1
  have hw' : Trains uid { p with syns := p.syns.set r.2 s' } := hw
  rw [if_pos hw', if_pos hw]
  unfold heldBy
  simp only
  rw [sum_set (fun s : RSyn F => if s.target = j then s.rule.resource else 0) _ _ _ _ hs]
  simp only [ht, hti]
  by_cases hj : i = j
  · simp [hj]
  · simp [hj]

theorem hits_setAt {uid : UID} {i : Nat} {ps : List (RProj F)} {r r' : Ref} (h : Hits uid i ps r)
    {s s' : RSyn F} (hg : getAt ps r' = some s) (ht : s'.target = s.target) : Hits uid i (setAt ps r' s') r := by
  obtain ⟨p, s0, hp, hw, hs, hti⟩ := h
  unfold Hits setAt
  by_cases hi : r'.1 = r.1
  · refine ⟨{ p with syns := p.syns.set r'.2 s' }, if r'.2 = r.2 then s' else s0, ?_, hw, ?_, ?_⟩
    · simp [List.getElem?_modify, hi, hp]
    · simp only [List.getElem?_set]
      by_cases hk : r'.2 = r.2
      · simp only [hk, if_true]
        obtain ⟨hlt, _⟩ := List.getElem?_eq_some_iff.1 hs
        simp [hlt]
      · simp [hk, hs]
    · by_cases hk : r'.2 = r.2
      · simp only [hk, if_true]
        simp only [getAt, hi, hp, hk, Option.bind_some, hs, Option.some.injEq] at hg
        rw [ht, ← hg, hti]
      · simp [hk, hti]
  · exact ⟨p, s0, by simp [List.getElem?_modify, hi, hp], hw, hs, hti⟩

theorem hits_getAt {uid : UID} {i : Nat} {ps : List (RProj F)} {r : Ref} (h : Hits uid i ps r) :
    ∃ s, getAt ps r = some s ∧ s.target = i := by
  obtain ⟨p, s, hp, _, hs, ht⟩ := h
  exact ⟨s, by simp [getAt, hp, hs], ht⟩

/-- A loop whose body moves resource between the neuron and the synapse keeps the neuron's total and everybody else's
holdings. -/
theorem each_total {f : Res B F → RSyn F → Res B F × RSyn F} {uid : UID} {i : Nat} {refs : List Ref}
    (hf : ∀ n s, (f n s).1.rule.free + (f n s).2.rule.resource = n.rule.free + s.rule.resource)
    (ht : ∀ n s, (f n s).2.target = s.target)
    (st : Res B F × List (RProj F)) (hh : ∀ r ∈ refs, Hits uid i st.2 r) :
    ((each f refs st).1.rule.free + held uid (each f refs st).2 i = st.1.rule.free + held uid st.2 i ∧
      ∀ j, j ≠ i → held uid (each f refs st).2 j = held uid st.2 j) ∧
    ∀ r ∈ refs, Hits uid i (each f refs st).2 r := by
  refine each_ind (P := fun st' => (st'.1.rule.free + held uid st'.2 i = st.1.rule.free + held uid st.2 i ∧
      ∀ j, j ≠ i → held uid st'.2 j = held uid st.2 j) ∧ ∀ r ∈ refs, Hits uid i st'.2 r) ?_ st ⟨⟨rfl, fun _ _ => rfl⟩, hh⟩
  rintro st' r s hr hg ⟨⟨h1, h2⟩, h3⟩
  have hset := held_setAt (h3 r hr) hg (ht st'.1 s)
  refine ⟨⟨?_, ?_⟩, ?_⟩
  · simp only [hset i, if_true]
    have := hf st'.1 s
    rw [← h1]
    linear_combination this
  · intro j hj
    simp only [hset j, if_neg (Ne.symm hj), add_zero]
    exact h2 j hj
  · intro r' hr'
    exact hits_setAt (h3 r' hr') hg (ht st'.1 s)

/-- Adding `x` to every referenced synapse adds `refs.length * x`. -/
theorem each_add [LinearOrder F] {uid : UID} {i : Nat} (x : F) (refs : List Ref)
    (st : Res B F × List (RProj F)) (hh : ∀ r ∈ refs, Hits uid i st.2 r) :
    (each (addResource x) refs st).1 = st.1 ∧
    held uid (each (addResource x) refs st).2 i = held uid st.2 i + (refs.length : F) * x ∧
    (∀ j, j ≠ i → held uid (each (addResource x) refs st).2 j = held uid st.2 j) ∧
    ∀ r, Hits uid i st.2 r → Hits uid i (each (addResource x) refs st).2 r := by
  unfold each
  induction refs generalizing st with
  | nil => simp
  | cons r rs ih =>
    obtain ⟨s, hg, hts⟩ := hits_getAt (hh r (List.mem_cons_self ..))
    have hstep : eachStep (addResource x) st r =
        (st.1, setAt st.2 r { s with rule := { s.rule with resource := s.rule.resource + x } }) := by
      simp [eachStep, hg, addResource]
    have hset := held_setAt (s' := { s with rule := { s.rule with resource := s.rule.resource + x } })
      (hh r (List.mem_cons_self ..)) hg rfl
    have hh' : ∀ r' ∈ rs, Hits uid i (eachStep (addResource x) st r).2 r' := by
      intro r' hr'
      rw [hstep]
      exact hits_setAt (hh r' (List.mem_cons_of_mem _ hr')) hg rfl
    obtain ⟨i1, i2, i3, i4⟩ := ih (eachStep (addResource x) st r) hh'
    simp only [List.foldl_cons]
    refine ⟨i1.trans (by rw [hstep]), ?_, ?_, ?_⟩
    · rw [i2, hstep]
      simp only [hset i, if_true, List.length_cons, Nat.cast_add, Nat.cast_one]
      ring
    · intro j hj
      rw [i3 j hj, hstep]
      simp only [hset j, if_neg (Ne.symm hj), add_zero]
    · intro r' h'
      apply i4
      rw [hstep]
      exact hits_setAt h' hg rfl

end

/-! ### The loops over neurons -/

theorem onNeuron_ok {g : Res B F × List (RProj F) → Res B F × List (RProj F)} {st st' : Stdp.State B F} {i : Nat}
    (h : onNeuron g st i = .ok st') : ∃ n, st.neurons[i]? = some n ∧
      st' = { neurons := st.neurons.set i (g (n, st.projs)).1, projs := (g (n, st.projs)).2 } := by
  unfold onNeuron at h
  rcases hn : st.neurons[i]? with _ | n
  · rw [hn] at h; cases h
  · rw [hn] at h
    cases h
    exact ⟨n, rfl, rfl⟩

/-- Induction over a loop over neurons. -/
theorem foldNeurons_ind {g : Nat → Res B F × List (RProj F) → Res B F × List (RProj F)} (P : Stdp.State B F → Prop)
    (l : List Nat)
    (hstep : ∀ st i n, i ∈ l → st.neurons[i]? = some n → P st →
      P { neurons := st.neurons.set i (g i (n, st.projs)).1, projs := (g i (n, st.projs)).2 })
    (st st' : Stdp.State B F) (h : P st) (hr : l.foldlM (fun s i => onNeuron (g i) s i) st = Outcome.ok st') : P st' := by
  induction l generalizing st with
  | nil =>
    simp only [List.foldlM_nil] at hr
    cases hr; exact h
  | cons i is ih =>
    simp only [List.foldlM_cons] at hr
    rcases ho : onNeuron (g i) st i with st1 | _ | _
    · rw [ho, Outcome.bind_ok] at hr
      obtain ⟨n, hn, rfl⟩ := onNeuron_ok ho
      exact ih (fun st i n hi => hstep st i n (List.mem_cons_of_mem _ hi)) _
        (hstep st i n (List.mem_cons_self ..) hn h) hr
    · rw [ho] at hr; cases hr
    · rw [ho] at hr; cases hr

/-- A loop over indexes of the population always succeeds and keeps the number of neurons. -/
theorem foldNeurons_ok {g : Nat → Res B F × List (RProj F) → Res B F × List (RProj F)} (l : List Nat)
    (st : Stdp.State B F) (hl : ∀ i ∈ l, i < st.neurons.length) :
    ∃ st', l.foldlM (fun s i => onNeuron (g i) s i) st = Outcome.ok st' ∧ st'.neurons.length = st.neurons.length := by
  induction l generalizing st with
  | nil => exact ⟨st, rfl, rfl⟩
  | cons i is ih =>
    have hi := hl i (List.mem_cons_self ..)
    have ho : onNeuron (g i) st i = .ok ⟨st.neurons.set i (g i (st.neurons[i], st.projs)).1, (g i (st.neurons[i], st.projs)).2⟩ := by
      simp [onNeuron, List.getElem?_eq_getElem hi]
    obtain ⟨st', h1, h2⟩ := ih ⟨st.neurons.set i (g i (st.neurons[i], st.projs)).1, (g i (st.neurons[i], st.projs)).2⟩ (by
          intro j hj
          simp only [List.length_set]
          exact hl j (List.mem_cons_of_mem _ hj))
    refine ⟨st', ?_, by simpa using h2⟩
    rw [List.foldlM_cons, ho, Outcome.bind_ok]
    exact h1

end Knp.Lemmas.Stdp

namespace Knp.Lemmas.Stdp
open Knp Knp.Neurons Knp.Stdp Knp.Spec

variable {B F N : Type}

/-! ### The references of a call -/

theorem isWorking_iff (uid : UID) (p : RProj F) : isWorking uid p = true ↔ Trains uid p := by
  unfold isWorking Trains
  cases p.locked <;> simp

theorem mem_connected {uid : UID} {ps : List (RProj F)} {i : Nat} {r : Ref} (h : r ∈ connected uid ps i) :
    ∃ p, ps[r.1]? = some p ∧ Trains uid p ∧ r.2 ∈ p.find i := by
  unfold connected at h
  obtain ⟨j, hj, hr⟩ := List.mem_flatMap.1 h
  obtain ⟨_, hw⟩ := List.mem_filter.1 hj
  rcases hp : ps[j]? with _ | p
  · rw [hp] at hr; cases hr
  · rw [hp] at hr hw
    obtain ⟨k, hk, rfl⟩ := List.mem_map.1 hr
    exact ⟨p, hp, (isWorking_iff uid p).1 hw, hk⟩

theorem hits_connected {uid : UID} {ps : List (RProj F)} (hf : ∀ p ∈ ps, FindOk p) {i : Nat} {r : Ref}
    (h : r ∈ connected uid ps i) : Hits uid i ps r := by
  obtain ⟨p, hp, hw, hk⟩ := mem_connected h
  obtain ⟨s, hs, ht⟩ := ((hf p (List.mem_of_getElem? hp) i).2 r.2).1 hk
  exact ⟨p, s, hp, hw, hs, ht⟩

theorem shape_get {ps ps' : List (RProj F)} (h : shapeOf ps' = shapeOf ps) {i : Nat} {p : RProj F}
    (hp : ps[i]? = some p) : ∃ p', ps'[i]? = some p' ∧ p'.uid = p.uid ∧ p'.post = p.post ∧ p'.locked = p.locked ∧
      p'.find = p.find ∧ p'.syns.length = p.syns.length := by
  have h1 : (shapeOf ps')[i]? = (shapeOf ps)[i]? := by rw [h]
  simp only [shapeOf, List.getElem?_map, hp] at h1
  rcases hp' : ps'[i]? with _ | p'
  · rw [hp'] at h1; cases h1
  · rw [hp'] at h1
    simp only [Option.map_some, Option.some.injEq, Prod.mk.injEq] at h1
    exact ⟨p', rfl, h1⟩

theorem trains_shape {uid : UID} {p p' : RProj F} (h1 : p'.post = p.post) (h2 : p'.locked = p.locked) :
    Trains uid p' ↔ Trains uid p := by
  unfold Trains; rw [h1, h2]

theorem Frame.hits {refs : List Ref} {ps ps' : List (RProj F)} (h : Frame refs ps ps') {uid : UID} {i : Nat} {r : Ref}
    (hh : Hits uid i ps r) : Hits uid i ps' r := by
  obtain ⟨p, s, hp, hw, hs, ht⟩ := hh
  obtain ⟨p', hp', _, h2, h3, _, _⟩ := shape_get h.shape hp
  obtain ⟨s', hs', w⟩ := h.wiring r s (by simp [getAt, hp, hs])
  refine ⟨p', s', hp', (trains_shape h2 h3).2 hw, ?_, w.2.1.trans ht⟩
  simpa [getAt, hp'] using hs'

/-- A projection none of whose synapses is referenced is unchanged. -/
theorem Frame.proj {refs : List Ref} {ps ps' : List (RProj F)} (h : Frame refs ps ps') {i : Nat}
    (hi : ∀ r ∈ refs, r.1 ≠ i) : ps'[i]? = ps[i]? := by
  rcases hp : ps[i]? with _ | p
  · have h1 : (shapeOf ps')[i]? = (shapeOf ps)[i]? := by rw [h.shape]
    simp only [shapeOf, List.getElem?_map, hp] at h1
    rcases hp' : ps'[i]? with _ | p'
    · rfl
    · rw [hp'] at h1; cases h1
  · obtain ⟨p', hp', h1, h2, h3, h4, h5⟩ := shape_get h.shape hp
    rw [hp']
    have hs : p'.syns = p.syns := by
      apply List.ext_getElem?
      intro k
      have := h.outside (i, k) (fun hm => hi _ hm rfl)
      simpa [getAt, hp, hp'] using this
    cases p; cases p'
    simp_all

/-- Projections with the same shape and the same synapses are the same. -/
theorem eq_of_getAt {ps ps' : List (RProj F)} (h : shapeOf ps' = shapeOf ps) (hg : ∀ r, getAt ps' r = getAt ps r) :
    ps' = ps := by
  have hf : Frame ([] : List Ref) ps ps' :=
    ⟨h, fun r _ => hg r, fun r s hs => ⟨s, (hg r).trans hs, SameWiring.refl s⟩⟩
  apply List.ext_getElem?
  intro i
  exact hf.proj (fun r hr => by cases hr)

theorem frame_findOk {refs : List Ref} {ps ps' : List (RProj F)} (h : Frame refs ps ps') (hf : ∀ p ∈ ps, FindOk p) :
    ∀ p ∈ ps', FindOk p := by
  intro p' hp' n
  obtain ⟨i, hi⟩ := List.getElem?_of_mem hp'
  have : ∃ p, ps[i]? = some p := by
    obtain ⟨p, hp, _⟩ := shape_get h.shape.symm hi
    exact ⟨p, hp⟩
  obtain ⟨p, hp⟩ := this
  obtain ⟨q, hq, _, _, _, h4, h5⟩ := shape_get h.shape hp
  obtain rfl : q = p' := Option.some.inj (hq.symm.trans hi)
  obtain ⟨f1, f2⟩ := hf p (List.mem_of_getElem? hp) n
  rw [h4]
  refine ⟨f1, fun k => (f2 k).trans ?_⟩
  constructor
  · rintro ⟨s, hs, ht⟩
    obtain ⟨s', hs', w⟩ := h.wiring (i, k) s (by simp [getAt, hp, hs])
    exact ⟨s', by simpa [getAt, hi] using hs', w.2.1.trans ht⟩
  · rintro ⟨s', hs', ht⟩
    have hk : k < p.syns.length := by
      obtain ⟨hk, _⟩ := List.getElem?_eq_some_iff.1 hs'
      omega
    have hs : p.syns[k]? = some p.syns[k] := List.getElem?_eq_getElem hk
    obtain ⟨s2, hs2, w⟩ := h.wiring (i, k) _ (by simp [getAt, hp, hs]; rfl)
    have : s2 = s' := by
      simp only [getAt, hi, Option.bind_some] at hs2
      exact Option.some.inj (hs2.symm.trans hs')
    subst this
    exact ⟨_, hs, w.2.1.symm.trans ht⟩

/-- The references depend on the shape only. -/
theorem connected_shape {uid : UID} {ps ps' : List (RProj F)} (h : shapeOf ps' = shapeOf ps) :
    connected uid ps' = connected uid ps := by
  have hl : ps'.length = ps.length := by
    have := congrArg List.length h
    simpa [shapeOf] using this
  have hget : ∀ i : Nat, (ps'[i]?).map (fun p : RProj F => (p.post, p.locked, p.find)) = (ps[i]?).map (fun p : RProj F => (p.post, p.locked, p.find)) := by
    intro i
    have h1 : (shapeOf ps')[i]? = (shapeOf ps)[i]? := by rw [h]
    simp only [shapeOf, List.getElem?_map] at h1
    revert h1
    generalize ps[i]? = a
    generalize ps'[i]? = b
    rcases a with _ | p <;> rcases b with _ | p' <;> simp
    intro _ h2 h3 h4 _; exact ⟨h2, h3, h4⟩
  have hw : working uid ps' = working uid ps := by
    unfold working
    rw [hl]
    apply List.filter_congr
    intro i _
    have := hget i
    revert this
    generalize ps[i]? = a
    generalize ps'[i]? = b
    rcases a with _ | p <;> rcases b with _ | p' <;> simp [isWorking]
    intro h2 h3 _; rw [h2, h3]
  funext n
  unfold connected
  rw [hw]
  apply List.flatMap_congr
  intro i _
  have := hget i
  revert this
  generalize ps[i]? = a
  generalize ps'[i]? = b
  rcases a with _ | p <;> rcases b with _ | p' <;> simp
  intro _ _ h4; rw [h4]

theorem fanIn_eq {uid : UID} {ps : List (RProj F)} (hf : ∀ p ∈ ps, FindOk p) (i : Nat) :
    (connected uid ps i).length = fanIn uid ps i := by
  have key : ∀ p ∈ ps, (p.find i).length = (p.syns.filter (fun s => s.target == i)).length := by
    intro p hp
    obtain ⟨hn, hm⟩ := hf p hp i
    have hperm : (p.find i).Perm ((List.range p.syns.length).filter
        (fun k => match p.syns[k]? with | some s => s.target == i | none => false)) := by
      rw [List.perm_ext_iff_of_nodup hn (List.nodup_range.filter _)]
      intro k
      rw [hm k, List.mem_filter, List.mem_range]
      constructor
      · rintro ⟨s, hs, ht⟩
        obtain ⟨hk, _⟩ := List.getElem?_eq_some_iff.1 hs
        exact ⟨hk, by simp [hs, ht]⟩
      · rintro ⟨hk, hb⟩
        rw [List.getElem?_eq_getElem hk] at hb ⊢
        exact ⟨_, rfl, by simpa using hb⟩
    rw [hperm.length_eq]
    generalize p.syns = l
    clear hperm hm hn
    induction l with
    | nil => rfl
    | cons s l ih =>
      rw [List.length_cons, List.range_succ_eq_map, List.filter_cons, List.filter_map, List.filter_cons]
      simp only [List.getElem?_cons_zero]
      have e : ((fun k => match (s :: l)[k]? with | some s => s.target == i | none => false) ∘ Nat.succ) =
          (fun k => match l[k]? with | some s => s.target == i | none => false) := by
        funext k; simp
      rw [e]
      by_cases hs : (s.target == i) = true
      · rw [if_pos hs, if_pos hs]; simp [ih]
      · rw [if_neg hs, if_neg hs]; simp [ih]
  have main : ∀ (qs : List (RProj F)), (∀ p ∈ qs, p ∈ ps) →
      (((List.range qs.length).filter (fun i => match qs[i]? with | some p => isWorking uid p | none => false)).map
        (fun j => (match qs[j]? with | some p => p.find i | none => []).length)).sum = fanIn uid qs i := by
    intro qs
    induction qs with
    | nil => intro _; rfl
    | cons q qs ih =>
      intro hq
      have ih' := ih (fun p hp => hq p (List.mem_cons_of_mem _ hp))
      have e : ((fun k => match (q :: qs)[k]? with | some p => isWorking uid p | none => false) ∘ Nat.succ) =
          (fun k => match qs[k]? with | some p => isWorking uid p | none => false) := by
        funext k; simp
      have e2 : ((fun j => (match (q :: qs)[j]? with | some p => p.find i | none => []).length) ∘ Nat.succ) =
          (fun j => (match qs[j]? with | some p => p.find i | none => []).length) := by
        funext k; simp
      rw [List.length_cons, List.range_succ_eq_map, List.filter_cons, List.filter_map, e]
      simp only [List.getElem?_cons_zero]
      have hfan : fanIn uid (q :: qs) i = (if Trains uid q then (q.syns.filter (fun s => s.target == i)).length else 0) +
          fanIn uid qs i := by simp [fanIn]
      rw [hfan]
      by_cases hw : isWorking uid q = true
      · rw [if_pos hw, if_pos ((isWorking_iff uid q).1 hw), List.map_cons, List.sum_cons, List.map_map, e2, ih']
        simp only [List.getElem?_cons_zero]
        rw [key q (hq q (List.mem_cons_self ..))]
      · rw [if_neg hw, if_neg (fun h => hw ((isWorking_iff uid q).2 h)), List.map_map, e2, ih', Nat.zero_add]
  rw [← main ps (fun _ h => h)]
  unfold connected working
  rw [List.length_flatMap]
  congr 1
  apply List.map_congr_left
  intro j _
  rcases ps[j]? with _ | p <;> simp

end Knp.Lemmas.Stdp

namespace Knp.Lemmas.Stdp
open Knp Knp.Neurons Knp.Stdp Knp.Spec

variable {B F N : Type} [Field F] [LinearOrder F]

/-! ### The bodies -/

theorem contribute_wiring (isi : Isi) (had : Bool) (s : RSyn F) : SameWiring s (contribute isi had s) := by
  unfold contribute
  split
  · exact ⟨rfl, rfl, rfl, rfl, rfl, rfl, rfl, rfl, rfl⟩
  · exact SameWiring.refl s

theorem markSyn_wiring (bo : BaseOps B F) (step : Nat) (n : Res B F) (s : RSyn F) :
    SameWiring s (markSyn bo step n s).2 := by
  unfold markSyn
  exact contribute_wiring _ _ s

theorem resetHebb_wiring (n : Res B F) (s : RSyn F) : SameWiring s (resetHebb n s).2 := by
  unfold resetHebb; dsimp only; split <;> simp [SameWiring]

theorem hebb_wiring (o : Ops F) (n : Res B F) (s : RSyn F) : SameWiring s (hebb o n s).2 := by
  unfold hebb; split <;> simp [SameWiring, move]

theorem plastic_wiring (o : Ops F) (n : Res B F) (s : RSyn F) : SameWiring s (plastic o n s).2 := by
  unfold plastic
  split
  · exact SameWiring.trans (by simp [SameWiring, decay]) (hebb_wiring o _ _)
  · exact SameWiring.refl s

theorem recalc_wiring (o : Ops F) (n : N) (s : RSyn F) : SameWiring s (recalc o n s).2 := by
  simp [SameWiring, recalc]

theorem dopSyn_wiring (o : Ops F) (bo : BaseOps B F) (step : Nat) (n : Res B F) (s : RSyn F) :
    SameWiring s (dopSyn o bo step n s).2 := by
  unfold dopSyn; split <;> simp [SameWiring, move]

theorem addResource_wiring (x : F) (n : Res B F) (s : RSyn F) : SameWiring s (addResource x n s).2 := by
  simp [SameWiring, addResource]

theorem processNeuron_frame (o : Ops F) (bo : BaseOps B F) (step : Nat) (refs : List Ref)
    (st : Res B F × List (RProj F)) : Frame refs st.2 (processNeuron o bo step refs st).2 := by
  unfold processNeuron
  dsimp only
  have h1 := each_frame (markSyn_wiring bo step) refs (spikeHead bo step st.1, st.2)
  generalize each (markSyn bo step) refs (spikeHead bo step st.1, st.2) = st1 at h1 ⊢
  have h2 := each_frame (resetHebb_wiring (B := B) (F := F)) refs (scaleAdditional bo st1.1, st1.2)
  generalize each resetHebb refs (scaleAdditional bo st1.1, st1.2) = st2 at h2 ⊢
  have h3 := each_frame (plastic_wiring (B := B) o) refs st2
  generalize each (plastic o) refs st2 = st3 at h3 ⊢
  have h4 := each_frame (recalc_wiring (N := Res B F) o) refs st3
  exact ((h1.trans h2).trans h3).trans h4

theorem dopNeuron_frame (o : Ops F) (bo : BaseOps B F) (step : Nat) (refs : List Ref)
    (st : Res B F × List (RProj F)) : Frame refs st.2 (dopNeuron o bo step refs st).2 := by
  unfold dopNeuron
  dsimp only
  split
  · have h1 := each_frame (dopSyn_wiring o bo step) refs st
    generalize each (dopSyn o bo step) refs st = st1 at h1 ⊢
    exact h1.trans (each_frame (recalc_wiring (N := Res B F) o) refs (dopStability o bo step st1.1, st1.2))
  · exact Frame.refl _ _

theorem renormNeuron_frame (o : Ops F) (step : Nat) (refs : List Ref)
    (st : Res B F × List (RProj F)) : Frame refs st.2 (renormNeuron o step refs st).2 := by
  unfold renormNeuron
  dsimp only
  split
  · exact Frame.refl _ _
  · have h1 := each_frame (addResource_wiring (B := B)
      (divF o st.1.rule.free ((refs.length + st.1.rule.drain : Nat) : F))) refs st
    generalize each (addResource _) refs st = st1 at h1 ⊢
    exact h1.trans (each_frame (recalc_wiring (N := Res B F) o) refs
      ({ st1.1 with rule := { st1.1.rule with free := 0 } }, st1.2))

/-! Resource bookkeeping of the bodies. -/

theorem contribute_res (isi : Isi) (had : Bool) (s : RSyn F) :
    (contribute isi had s).rule.resource = s.rule.resource := by
  unfold contribute
  split <;> rfl

theorem markSyn_total (bo : BaseOps B F) (step : Nat) (n : Res B F) (s : RSyn F) :
    (markSyn bo step n s).1.rule.free + (markSyn bo step n s).2.rule.resource = n.rule.free + s.rule.resource := by
  unfold markSyn
  dsimp only
  rw [contribute_res]

theorem resetHebb_total (n : Res B F) (s : RSyn F) :
    (resetHebb n s).1.rule.free + (resetHebb n s).2.rule.resource = n.rule.free + s.rule.resource := by
  unfold resetHebb; dsimp only; split <;> rfl

theorem hebb_total (o : Ops F) (n : Res B F) (s : RSyn F) :
    (hebb o n s).1.rule.free + (hebb o n s).2.rule.resource = n.rule.free + s.rule.resource := by
  unfold hebb; split
  · simp only [move]; ring
  · rfl

theorem plastic_total (o : Ops F) (n : Res B F) (s : RSyn F) :
    (plastic o n s).1.rule.free + (plastic o n s).2.rule.resource = n.rule.free + s.rule.resource := by
  unfold plastic; split
  · simp only [hebb_total]
    simp only [decay]; ring
  · rfl

theorem dopSyn_total (o : Ops F) (bo : BaseOps B F) (step : Nat) (n : Res B F) (s : RSyn F) :
    (dopSyn o bo step n s).1.rule.free + (dopSyn o bo step n s).2.rule.resource = n.rule.free + s.rule.resource := by
  unfold dopSyn; split
  · simp only [move]; ring
  · rfl

theorem updateIsi_free (d : F) (r : Rule F) (step : Nat) :
    (updateIsi d r step).free = r.free ∧ (updateIsi d r step).drain = r.drain := by
  unfold updateIsi
  split
  · exact ⟨rfl, rfl⟩
  · split
    · exact ⟨rfl, rfl⟩
    · exact ⟨rfl, rfl⟩
    · split <;> exact ⟨rfl, rfl⟩
    · split <;> exact ⟨rfl, rfl⟩

theorem spikeHead_free (bo : BaseOps B F) (step : Nat) (n : Res B F) :
    (spikeHead bo step n).rule.free = n.rule.free ∧ (spikeHead bo step n).rule.drain = n.rule.drain := by
  have := updateIsi_free (bo.dopamine n.base) { n.rule with lastSpikeStep := step } step
  unfold spikeHead
  dsimp only
  split <;> exact this

theorem processNeuron_total (o : Ops F) (bo : BaseOps B F) (step : Nat) {uid : UID} {i : Nat} {refs : List Ref}
    (st : Res B F × List (RProj F)) (hh : ∀ r ∈ refs, Hits uid i st.2 r) :
    (processNeuron o bo step refs st).1.rule.free + held uid (processNeuron o bo step refs st).2 i =
      st.1.rule.free + held uid st.2 i ∧
    ∀ j, j ≠ i → held uid (processNeuron o bo step refs st).2 j = held uid st.2 j := by
  unfold processNeuron
  dsimp only
  obtain ⟨⟨a1, a2⟩, a3⟩ := each_total (uid := uid) (i := i) (markSyn_total bo step)
    (fun n s => (markSyn_wiring bo step n s).2.1) (spikeHead bo step st.1, st.2) hh
  generalize each (markSyn bo step) refs (spikeHead bo step st.1, st.2) = st1 at *
  obtain ⟨⟨b1, b2⟩, b3⟩ := each_total (uid := uid) (i := i) (f := resetHebb (B := B) (F := F)) resetHebb_total
    (fun n s => (resetHebb_wiring n s).2.1) (scaleAdditional bo st1.1, st1.2) a3
  generalize each resetHebb refs (scaleAdditional bo st1.1, st1.2) = st2 at *
  obtain ⟨⟨c1, c2⟩, c3⟩ := each_total (uid := uid) (i := i) (plastic_total (B := B) o)
    (fun n s => (plastic_wiring o n s).2.1) st2 b3
  generalize each (plastic o) refs st2 = st3 at *
  obtain ⟨⟨d1, d2⟩, _⟩ := each_total (uid := uid) (i := i) (f := recalc (N := Res B F) o) (fun n s => rfl)
    (fun n s => (recalc_wiring o n s).2.1) st3 c3
  refine ⟨?_, fun j hj => ((d2 j hj).trans (c2 j hj)).trans ((b2 j hj).trans (a2 j hj))⟩
  rw [d1, c1, b1]
  have : (scaleAdditional bo st1.1).rule.free = st1.1.rule.free := rfl
  rw [this, a1]
  simp only [(spikeHead_free bo step st.1).1]

theorem dopStability_rule (o : Ops F) (bo : BaseOps B F) (step : Nat) (n : Res B F) :
    (dopStability o bo step n).rule.free = n.rule.free ∧ (dopStability o bo step n).rule.drain = n.rule.drain := by
  unfold dopStability
  dsimp only
  split <;> exact ⟨rfl, rfl⟩

theorem dopNeuron_total (o : Ops F) (bo : BaseOps B F) (step : Nat) {uid : UID} {i : Nat} {refs : List Ref}
    (st : Res B F × List (RProj F)) (hh : ∀ r ∈ refs, Hits uid i st.2 r) :
    (dopNeuron o bo step refs st).1.rule.free + held uid (dopNeuron o bo step refs st).2 i =
      st.1.rule.free + held uid st.2 i ∧
    ∀ j, j ≠ i → held uid (dopNeuron o bo step refs st).2 j = held uid st.2 j := by
  unfold dopNeuron
  dsimp only
  split
  · obtain ⟨⟨a1, a2⟩, a3⟩ := each_total (uid := uid) (i := i) (dopSyn_total (B := B) o bo step)
      (fun n s => (dopSyn_wiring o bo step n s).2.1) st hh
    generalize each (dopSyn o bo step) refs st = st1 at *
    obtain ⟨⟨d1, d2⟩, _⟩ := each_total (uid := uid) (i := i) (f := recalc (N := Res B F) o) (fun n s => rfl)
      (fun n s => (recalc_wiring o n s).2.1) (dopStability o bo step st1.1, st1.2) a3
    refine ⟨?_, fun j hj => (d2 j hj).trans (a2 j hj)⟩
    rw [d1]
    simp only [(dopStability_rule o bo step st1.1).1]
    exact a1
  · exact ⟨rfl, fun _ _ => rfl⟩

/-- What renormalisation leaves of a neuron's resource. -/
theorem renormNeuron_total (o : Ops F) (step : Nat) {uid : UID} {i : Nat} {refs : List Ref}
    (st : Res B F × List (RProj F)) (hh : ∀ r ∈ refs, Hits uid i st.2 r) :
    (renormNeuron o step refs st).1.rule.free + held uid (renormNeuron o step refs st).2 i =
      (if renormSkips step st.1.rule then st.1.rule.free + held uid st.2 i
       else held uid st.2 i + (refs.length : F) * divF o st.1.rule.free ((refs.length + st.1.rule.drain : Nat) : F)) ∧
    ∀ j, j ≠ i → held uid (renormNeuron o step refs st).2 j = held uid st.2 j := by
  unfold renormNeuron
  dsimp only
  split
  · exact ⟨rfl, fun _ _ => rfl⟩
  · obtain ⟨a1, a2, a3, a4⟩ := each_add (uid := uid) (i := i)
      (divF o st.1.rule.free ((refs.length + st.1.rule.drain : Nat) : F)) refs st hh
    generalize each (addResource _) refs st = st1 at *
    obtain ⟨⟨d1, d2⟩, _⟩ := each_total (uid := uid) (i := i) (f := recalc (N := Res B F) o) (fun n s => rfl)
      (fun n s => (recalc_wiring o n s).2.1)
      ({ st1.1 with rule := { st1.1.rule with free := 0 } }, st1.2) (fun r hr => a4 r (hh r hr))
    refine ⟨?_, fun j hj => (d2 j hj).trans (a3 j hj)⟩
    rw [d1, ← a2]
    simp

/-! The drain coefficient is a constant. -/

theorem processNeuron_drain (o : Ops F) (bo : BaseOps B F) (step : Nat) (refs : List Ref)
    (st : Res B F × List (RProj F)) : (processNeuron o bo step refs st).1.rule.drain = st.1.rule.drain := by
  unfold processNeuron
  dsimp only
  refine each_fst (R := fun n : Res B F => n.rule.drain = st.1.rule.drain) (fun n s h => h) refs _ ?_
  refine each_fst (R := fun n : Res B F => n.rule.drain = st.1.rule.drain) ?_ refs _ ?_
  · intro n s h
    rw [← h]
    unfold plastic hebb
    dsimp only
    split
    · split <;> rfl
    · rfl
  refine each_fst (R := fun n : Res B F => n.rule.drain = st.1.rule.drain) (fun n s h => h) refs (_, _) ?_
  change (each (markSyn bo step) refs (spikeHead bo step st.1, st.2)).1.rule.drain = st.1.rule.drain
  refine each_fst (R := fun n : Res B F => n.rule.drain = st.1.rule.drain) (fun n s h => h) refs (_, _) ?_
  exact (spikeHead_free bo step st.1).2

theorem dopNeuron_drain (o : Ops F) (bo : BaseOps B F) (step : Nat) (refs : List Ref)
    (st : Res B F × List (RProj F)) : (dopNeuron o bo step refs st).1.rule.drain = st.1.rule.drain := by
  unfold dopNeuron
  dsimp only
  split
  · refine each_fst (R := fun n : Res B F => n.rule.drain = st.1.rule.drain) (fun n s h => h) refs (_, _) ?_
    rw [(dopStability_rule o bo step _).2]
    refine each_fst (R := fun n : Res B F => n.rule.drain = st.1.rule.drain) ?_ refs _ rfl
    intro n s h
    rw [← h]
    unfold dopSyn
    split <;> rfl
  · rfl

theorem renormNeuron_drain (o : Ops F) (step : Nat) (refs : List Ref)
    (st : Res B F × List (RProj F)) : (renormNeuron o step refs st).1.rule.drain = st.1.rule.drain := by
  unfold renormNeuron
  dsimp only
  split
  · rfl
  · refine each_fst (R := fun n : Res B F => n.rule.drain = st.1.rule.drain) (fun n s h => h) refs (_, _) ?_
    exact each_fst (R := fun n : Res B F => n.rule.drain = st.1.rule.drain) (fun n s h => h) refs _ rfl

/-! Weights follow resources. -/

/-- A synapse is as it was, or its weight has been recalculated. -/
def Recalculated (o : Ops F) (s s' : RSyn F) : Prop :=
  (s'.weight = s.weight ∧ s'.rule.resource = s.rule.resource) ∨ s'.weight = weightOf o s'.rule

theorem weightOf_congr (o : Ops F) {r r' : SynRule F} (h1 : r'.wMin = r.wMin) (h2 : r'.wMax = r.wMax)
    (h3 : r'.resource = r.resource) : weightOf o r' = weightOf o r := by
  unfold weightOf; rw [h1, h2, h3]

theorem Recalculated.trans {o : Ops F} {a b c : RSyn F} (h : Recalculated o a b) (h' : Recalculated o b c)
    (w : SameWiring b c) : Recalculated o a c := by
  rcases h' with ⟨h1, h2⟩ | h'
  · rcases h with ⟨g1, g2⟩ | g
    · exact Or.inl ⟨h1.trans g1, h2.trans g2⟩
    · right
      obtain ⟨_, _, _, _, w5, w6, _, _, _⟩ := w
      rw [h1, g, weightOf_congr o w5 w6 h2]
  · exact Or.inr h'

/-- The relation between the projections before and after. -/
def RecalcOn (o : Ops F) (ps ps' : List (RProj F)) : Prop :=
  ∀ r s s', getAt ps r = some s → getAt ps' r = some s' → Recalculated o s s'

theorem RecalcOn.refl (o : Ops F) (ps : List (RProj F)) : RecalcOn o ps ps := by
  intro r s s' h h'
  obtain rfl : s = s' := Option.some.inj (h.symm.trans h')
  exact Or.inl ⟨rfl, rfl⟩

theorem RecalcOn.trans {o : Ops F} {refs refs' : List Ref} {a b c : List (RProj F)} (h : RecalcOn o a b)
    (h' : RecalcOn o b c) (f : Frame refs a b) (f' : Frame refs' b c) : RecalcOn o a c := by
  intro r s s2 hs hs2
  obtain ⟨s1, hs1, _⟩ := f.wiring r s hs
  obtain ⟨s2', hs2', w⟩ := f'.wiring r s1 hs1
  obtain rfl : s2' = s2 := Option.some.inj (hs2'.symm.trans hs2)
  exact (h r s s1 hs hs1).trans (h' r s1 s2' hs1 hs2') w

/-- Any call that ends with a recalculation over the same references. -/
theorem recalcOn_of_final {o : Ops F} {refs : List Ref} {ps : List (RProj F)} {st : Res B F × List (RProj F)}
    (f : Frame refs ps (each (recalc o) refs st).2) : RecalcOn o ps (each (recalc o) refs st).2 := by
  intro r s s' hs hs'
  by_cases hr : r ∈ refs
  · right
    exact each_post (f := recalc (N := Res B F) o) (Q := fun s : RSyn F => s.weight = weightOf o s.rule)
      (fun n s => rfl) refs st r hr s' hs'
  · rw [f.outside r hr, hs] at hs'
    cases hs'
    exact Or.inl ⟨rfl, rfl⟩

theorem processNeuron_recalc (o : Ops F) (bo : BaseOps B F) (step : Nat) (refs : List Ref)
    (st : Res B F × List (RProj F)) : RecalcOn o st.2 (processNeuron o bo step refs st).2 := by
  have h := processNeuron_frame o bo step refs st
  unfold processNeuron at h ⊢
  dsimp only at h ⊢
  exact recalcOn_of_final h

theorem dopNeuron_recalc (o : Ops F) (bo : BaseOps B F) (step : Nat) (refs : List Ref)
    (st : Res B F × List (RProj F)) : RecalcOn o st.2 (dopNeuron o bo step refs st).2 := by
  have h := dopNeuron_frame o bo step refs st
  unfold dopNeuron at h ⊢
  dsimp only at h ⊢
  split at h
  · rename_i hc; rw [if_pos hc]; exact recalcOn_of_final h
  · rename_i hc; rw [if_neg hc]; exact RecalcOn.refl _ _

theorem renormNeuron_recalc (o : Ops F) (step : Nat) (refs : List Ref)
    (st : Res B F × List (RProj F)) : RecalcOn o st.2 (renormNeuron o step refs st).2 := by
  have h := renormNeuron_frame o step refs st
  unfold renormNeuron at h ⊢
  dsimp only at h ⊢
  split at h
  · rename_i hc; rw [if_pos hc]; exact RecalcOn.refl _ _
  · rename_i hc; rw [if_neg hc]; exact recalcOn_of_final h

/-! ### The whole training step, by induction over its neuron visits -/

/-- One visit to a neuron by one of the three phases. -/
inductive Visit (o : Ops F) (bo : BaseOps B F) (step : Nat) (conn : Nat → List Ref) :
    Nat → (Res B F × List (RProj F) → Res B F × List (RProj F)) → Prop
  | spike (i : Nat) : Visit o bo step conn i (processNeuron o bo step (conn i))
  | dopamine (i : Nat) : Visit o bo step conn i (dopNeuron o bo step (conn i))
  | renorm (i : Nat) : Visit o bo step conn i (renormNeuron o step (conn i))

theorem allNeurons_ind {g : Nat → Res B F × List (RProj F) → Res B F × List (RProj F)} (P : Stdp.State B F → Prop)
    {st st' : Stdp.State B F} (hstep : ∀ s i n, s.neurons[i]? = some n → P s →
      P ⟨s.neurons.set i (g i (n, s.projs)).1, (g i (n, s.projs)).2⟩)
    (h : P st) (hr : allNeurons g st = .ok st') : P st' := by
  unfold allNeurons at hr
  exact foldNeurons_ind P _ (fun s i n _ hn hp => hstep s i n hn hp) st st' h hr

theorem processSpikes_ind {o : Ops F} {bo : BaseOps B F} {step : Nat} {conn : Nat → List Ref} {spikes : List Nat}
    (P : Stdp.State B F → Prop)
    {st st' : Stdp.State B F} (hstep : ∀ s i n, s.neurons[i]? = some n → P s →
      P ⟨s.neurons.set i (processNeuron o bo step (conn i) (n, s.projs)).1, (processNeuron o bo step (conn i) (n, s.projs)).2⟩)
    (h : P st) (hr : processSpikes o bo step conn spikes st = .ok st') : P st' := by
  unfold processSpikes at hr
  revert hr hstep
  generalize hg : (fun i => processNeuron o bo step (conn i)) = g
  have hg' : ∀ i, processNeuron o bo step (conn i) = g i := fun i => congrFun hg i
  simp only [hg']
  intro hstep hr
  exact foldNeurons_ind P _ (fun s i n _ hn hp => hstep s i n hn hp) st st' h hr

theorem train_ind {o : Ops F} {bo : BaseOps B F} {uid : UID} {spikes : List Nat} {step : Nat} {st st' : Stdp.State B F}
    (P : Stdp.State B F → Prop)
    (hstep : ∀ s i n g, Visit o bo step (connected uid st.projs) i g → s.neurons[i]? = some n → P s →
      P ⟨s.neurons.set i (g (n, s.projs)).1, (g (n, s.projs)).2⟩)
    (h : P st) (hr : train o bo uid spikes step st = .ok st') : P st' := by
  unfold train at hr
  dsimp only at hr
  generalize hc : connected uid st.projs = conn at hr hstep
  have vd : ∀ i, Visit o bo step conn i ((fun i => dopNeuron o bo step (conn i)) i) := fun i => .dopamine i
  have vr : ∀ i, Visit o bo step conn i ((fun i => renormNeuron o step (conn i)) i) := fun i => .renorm i
  generalize (fun i => dopNeuron o bo step (conn i)) = gd at hr vd
  generalize (fun i => renormNeuron o step (conn i)) = gr at hr vr
  rcases h1 : processSpikes o bo step conn spikes st with st1 | _ | _
  · rw [h1, Outcome.bind_ok] at hr
    rcases h2 : allNeurons gd st1 with st2 | _ | _
    · rw [h2, Outcome.bind_ok] at hr
      have p1 : P st1 := processSpikes_ind P (fun s i n hn hp => hstep s i n _ (.spike i) hn hp) h h1
      have p2 : P st2 := allNeurons_ind P (fun s i n hn hp => hstep s i n (gd i) (vd i) hn hp) p1 h2
      exact allNeurons_ind P (fun s i n hn hp => hstep s i n (gr i) (vr i) hn hp) p2 hr
    · rw [h2] at hr; cases hr
    · rw [h2] at hr; cases hr
  · rw [h1] at hr; cases hr
  · rw [h1] at hr; cases hr

theorem Visit.frame {o : Ops F} {bo : BaseOps B F} {step : Nat} {conn : Nat → List Ref} {i : Nat}
    {g : Res B F × List (RProj F) → Res B F × List (RProj F)} (v : Visit o bo step conn i g)
    (st : Res B F × List (RProj F)) : Frame (conn i) st.2 (g st).2 := by
  cases v
  · exact processNeuron_frame o bo step _ st
  · exact dopNeuron_frame o bo step _ st
  · exact renormNeuron_frame o step _ st

theorem Visit.recalc {o : Ops F} {bo : BaseOps B F} {step : Nat} {conn : Nat → List Ref} {i : Nat}
    {g : Res B F × List (RProj F) → Res B F × List (RProj F)} (v : Visit o bo step conn i g)
    (st : Res B F × List (RProj F)) : RecalcOn o st.2 (g st).2 := by
  cases v
  · exact processNeuron_recalc o bo step _ st
  · exact dopNeuron_recalc o bo step _ st
  · exact renormNeuron_recalc o step _ st

theorem Visit.drain {o : Ops F} {bo : BaseOps B F} {step : Nat} {conn : Nat → List Ref} {i : Nat}
    {g : Res B F × List (RProj F) → Res B F × List (RProj F)} (v : Visit o bo step conn i g)
    (st : Res B F × List (RProj F)) : (g st).1.rule.drain = st.1.rule.drain := by
  cases v
  · exact processNeuron_drain o bo step _ st
  · exact dopNeuron_drain o bo step _ st
  · exact renormNeuron_drain o step _ st

theorem Visit.total {o : Ops F} [IsStrictOrderedRing F] {bo : BaseOps B F} {step : Nat} {conn : Nat → List Ref} {i : Nat}
    {g : Res B F × List (RProj F) → Res B F × List (RProj F)} (v : Visit o bo step conn i g) {uid : UID}
    (st : Res B F × List (RProj F)) (hh : ∀ r ∈ conn i, Hits uid i st.2 r)
    (hd : st.1.rule.drain = 0) (hn : 0 < (conn i).length) :
    (g st).1.rule.free + held uid (g st).2 i = st.1.rule.free + held uid st.2 i ∧
    ∀ j, j ≠ i → held uid (g st).2 j = held uid st.2 j := by
  cases v
  · exact processNeuron_total o bo step st hh
  · exact dopNeuron_total o bo step st hh
  · obtain ⟨h1, h2⟩ := renormNeuron_total o step st hh
    refine ⟨?_, h2⟩
    rw [h1]
    split
    · rfl
    · have hne : ((conn i).length : F) ≠ 0 := by exact_mod_cast Nat.pos_iff_ne_zero.1 hn
      rw [hd, Nat.add_zero]
      unfold divF
      rw [if_neg hne, mul_div_cancel₀ _ hne, add_comm]

end Knp.Lemmas.Stdp

namespace Knp.Lemmas.Stdp
open Knp Knp.Neurons Knp.Stdp Knp.Spec

variable {B F N : Type} [Field F] [LinearOrder F]

/-! ### Training sees the projections of its population only -/

/-- The two collections look alike to population `uid`. -/
structure Alike (uid : UID) (ps ps' : List (RProj F)) : Prop where
  shape : shapeOf ps' = shapeOf ps
  same : ∀ r p, ps[r.1]? = some p → Trains uid p → getAt ps' r = getAt ps r

theorem Alike.symm {uid : UID} {ps ps' : List (RProj F)} (h : Alike uid ps ps') : Alike uid ps' ps := by
  refine ⟨h.shape.symm, ?_⟩
  intro r p' hp' ht
  obtain ⟨p, hp, _, h2, h3, _, _⟩ := shape_get h.shape.symm hp'
  exact (h.same r p hp ((trains_shape h2 h3).2 ht)).symm

theorem Alike.trans {uid : UID} {a b c : List (RProj F)} (h : Alike uid a b) (h' : Alike uid b c) : Alike uid a c := by
  refine ⟨h'.shape.trans h.shape, ?_⟩
  intro r p hp ht
  obtain ⟨p', hp', _, h2, h3, _, _⟩ := shape_get h.shape hp
  exact (h'.same r p' hp' ((trains_shape h2 h3).2 ht)).trans (h.same r p hp ht)

/-- A reference into a projection of the population. -/
def Into (uid : UID) (ps : List (RProj F)) (r : Ref) : Prop := ∃ p, ps[r.1]? = some p ∧ Trains uid p

theorem into_shape {uid : UID} {ps ps' : List (RProj F)} (h : shapeOf ps' = shapeOf ps) {r : Ref}
    (hi : Into uid ps r) : Into uid ps' r := by
  obtain ⟨p, hp, ht⟩ := hi
  obtain ⟨p', hp', _, h2, h3, _, _⟩ := shape_get h hp
  exact ⟨p', hp', (trains_shape h2 h3).2 ht⟩

theorem alike_setAt {uid : UID} {ps ps' : List (RProj F)} (h : Alike uid ps ps') {r : Ref} (hi : Into uid ps r)
    (s : RSyn F) : Alike uid (setAt ps r s) (setAt ps' r s) := by
  refine ⟨by rw [shape_setAt, shape_setAt, h.shape], ?_⟩
  intro r' p hp ht
  rw [getAt_setAt, getAt_setAt]
  obtain ⟨q, hq, hqt⟩ := hi
  rw [h.same r q hq hqt]
  by_cases hr : r = r'
  · simp [hr]
  · rw [if_neg hr, if_neg hr]
    obtain ⟨p0, hp0, ht0⟩ := into_shape (ps := setAt ps r s) (ps' := ps) (by rw [shape_setAt]) ⟨p, hp, ht⟩
    exact h.same r' p0 hp0 ht0

theorem each_alike {f : N → RSyn F → N × RSyn F} {uid : UID} {refs : List Ref} {n : N} {ps ps' : List (RProj F)}
    (h : Alike uid ps ps') (hi : ∀ r ∈ refs, Into uid ps r) :
    (each f refs (n, ps')).1 = (each f refs (n, ps)).1 ∧
    Alike uid (each f refs (n, ps)).2 (each f refs (n, ps')).2 := by
  unfold each
  induction refs generalizing n ps ps' with
  | nil => exact ⟨rfl, h⟩
  | cons r rs ih =>
    obtain ⟨p, hp, ht⟩ := hi r (List.mem_cons_self ..)
    have hg := h.same r p hp ht
    simp only [List.foldl_cons]
    rcases hs : getAt ps r with _ | s
    · have e1 : eachStep f (n, ps) r = (n, ps) := by simp [eachStep, hs]
      have e2 : eachStep f (n, ps') r = (n, ps') := by simp [eachStep, hg, hs]
      rw [e1, e2]
      exact ih h (fun r' hr' => hi r' (List.mem_cons_of_mem _ hr'))
    · have e1 : eachStep f (n, ps) r = ((f n s).1, setAt ps r (f n s).2) := by simp [eachStep, hs]
      have e2 : eachStep f (n, ps') r = ((f n s).1, setAt ps' r (f n s).2) := by simp [eachStep, hg, hs]
      rw [e1, e2]
      exact ih (alike_setAt h ⟨p, hp, ht⟩ _) (fun r' hr' =>
        into_shape (by rw [shape_setAt]) (hi r' (List.mem_cons_of_mem _ hr')))

/-- A body is local if on alike projections it does the same. -/
def LocalBody (uid : UID) (refs : List Ref) (g : Res B F × List (RProj F) → Res B F × List (RProj F)) : Prop :=
  ∀ n ps ps', Alike uid ps ps' → (∀ r ∈ refs, Into uid ps r) →
    (g (n, ps')).1 = (g (n, ps)).1 ∧ Alike uid (g (n, ps)).2 (g (n, ps')).2

theorem into_each {f : N → RSyn F → N × RSyn F} {uid : UID} {refs refs' : List Ref} {st : N × List (RProj F)}
    (hi : ∀ r ∈ refs', Into uid st.2 r) : ∀ r ∈ refs', Into uid (each f refs st).2 r := by
  have hs : shapeOf (each f refs st).2 = shapeOf st.2 := by
    refine each_ind (P := fun st' => shapeOf st'.2 = shapeOf st.2) ?_ st rfl
    intro st' r s _ _ h
    exact (shape_setAt _ _ _).trans h
  exact fun r hr => into_shape hs (hi r hr)

theorem each_chain {f : N → RSyn F → N × RSyn F} {uid : UID} {refs : List Ref} {st st' : N × List (RProj F)}
    (h : st'.1 = st.1 ∧ Alike uid st.2 st'.2) (hi : ∀ r ∈ refs, Into uid st.2 r) :
    ((each f refs st').1 = (each f refs st).1 ∧ Alike uid (each f refs st).2 (each f refs st').2) ∧
    ∀ r ∈ refs, Into uid (each f refs st).2 r := by
  obtain ⟨n, ps⟩ := st
  obtain ⟨n', ps'⟩ := st'
  obtain ⟨h1, h2⟩ := h
  dsimp only at h1
  subst h1
  exact ⟨each_alike h2 hi, into_each hi⟩

theorem processNeuron_local (o : Ops F) (bo : BaseOps B F) (step : Nat) (uid : UID) (refs : List Ref) :
    LocalBody uid refs (processNeuron (B := B) o bo step refs) := by
  intro n ps ps' h hi
  unfold processNeuron
  dsimp only
  obtain ⟨a, ai⟩ := each_chain (f := markSyn bo step) (st := (spikeHead bo step n, ps))
    (st' := (spikeHead bo step n, ps')) ⟨rfl, h⟩ hi
  generalize each (markSyn bo step) refs (spikeHead bo step n, ps) = s1 at a ai ⊢
  generalize each (markSyn bo step) refs (spikeHead bo step n, ps') = s1' at a ⊢
  obtain ⟨b, bi⟩ := each_chain (f := resetHebb (B := B) (F := F)) (refs := refs) (st := (scaleAdditional bo s1.1, s1.2))
    (st' := (scaleAdditional bo s1'.1, s1'.2)) ⟨by rw [a.1], a.2⟩ ai
  generalize each resetHebb refs (scaleAdditional bo s1.1, s1.2) = s2 at b bi ⊢
  generalize each resetHebb refs (scaleAdditional bo s1'.1, s1'.2) = s2' at b ⊢
  obtain ⟨c, ci⟩ := each_chain (f := plastic (B := B) o) (refs := refs) b bi
  generalize each (plastic o) refs s2 = s3 at c ci ⊢
  generalize each (plastic o) refs s2' = s3' at c ⊢
  exact (each_chain (f := recalc (N := Res B F) o) (refs := refs) c ci).1

theorem dopNeuron_local (o : Ops F) (bo : BaseOps B F) (step : Nat) (uid : UID) (refs : List Ref) :
    LocalBody uid refs (dopNeuron (B := B) o bo step refs) := by
  intro n ps ps' h hi
  unfold dopNeuron
  dsimp only
  by_cases hc : bo.dopamine n.base > 0 ∨ (bo.dopamine n.base < 0 ∧ n.rule.isi ≠ .isForced)
  · rw [if_pos hc, if_pos hc]
    obtain ⟨a, ai⟩ := each_chain (f := dopSyn o bo step) (st := (n, ps)) (st' := (n, ps')) ⟨rfl, h⟩ hi
    generalize each (dopSyn o bo step) refs (n, ps) = s1 at a ai ⊢
    generalize each (dopSyn o bo step) refs (n, ps') = s1' at a ⊢
    exact (each_chain (f := recalc (N := Res B F) o) (refs := refs) (st := (dopStability o bo step s1.1, s1.2))
      (st' := (dopStability o bo step s1'.1, s1'.2)) ⟨by rw [a.1], a.2⟩ ai).1
  · rw [if_neg hc, if_neg hc]
    exact ⟨rfl, h⟩

theorem renormNeuron_local (o : Ops F) (step : Nat) (uid : UID) (refs : List Ref) :
    LocalBody uid refs (renormNeuron (B := B) o step refs) := by
  intro n ps ps' h hi
  unfold renormNeuron
  dsimp only
  by_cases hc : renormSkips step n.rule
  · rw [if_pos hc, if_pos hc]
    exact ⟨rfl, h⟩
  · rw [if_neg hc, if_neg hc]
    generalize divF o n.rule.free ((refs.length + n.rule.drain : Nat) : F) = x
    obtain ⟨a, ai⟩ := each_chain (f := addResource (B := B) x) (st := (n, ps)) (st' := (n, ps')) ⟨rfl, h⟩ hi
    generalize each (addResource x) refs (n, ps) = s1 at a ai ⊢
    generalize each (addResource x) refs (n, ps') = s1' at a ⊢
    exact (each_chain (f := recalc (N := Res B F) o) (refs := refs)
      (st := ({ s1.1 with rule := { s1.1.rule with free := 0 } }, s1.2))
      (st' := ({ s1'.1 with rule := { s1'.1.rule with free := 0 } }, s1'.2)) ⟨by rw [a.1], a.2⟩ ai).1

/-- Two runs agree for `uid`: same outcome, same neurons, alike projections. -/
def Agree (uid : UID) : Outcome (Stdp.State B F) → Outcome (Stdp.State B F) → Prop
  | .ok a, .ok b => b.neurons = a.neurons ∧ Alike uid a.projs b.projs
  | .throw _, .throw _ => True
  | .ub, .ub => True
  | _, _ => False

theorem foldNeurons_local {uid : UID} {conn : Nat → List Ref}
    {g : Nat → Res B F × List (RProj F) → Res B F × List (RProj F)}
    (hg : ∀ i, LocalBody uid (conn i) (g i)) (hsh : ∀ i, ∀ st, shapeOf (g i st).2 = shapeOf st.2)
    (l : List Nat) (st st' : Stdp.State B F) (hn : st'.neurons = st.neurons) (h : Alike uid st.projs st'.projs)
    (hi : ∀ i, ∀ r ∈ conn i, Into uid st.projs r) :
    Agree uid (l.foldlM (fun s i => onNeuron (g i) s i) st) (l.foldlM (fun s i => onNeuron (g i) s i) st') := by
  induction l generalizing st st' with
  | nil => exact ⟨hn, h⟩
  | cons i is ih =>
    simp only [List.foldlM_cons]
    rcases hq : st.neurons[i]? with _ | n
    · have e1 : onNeuron (g i) st i = .ub := by simp [onNeuron, hq]
      have e2 : onNeuron (g i) st' i = .ub := by simp [onNeuron, hn, hq]
      rw [e1, e2]
      exact trivial
    · have e1 : onNeuron (g i) st i = .ok ⟨st.neurons.set i (g i (n, st.projs)).1, (g i (n, st.projs)).2⟩ := by
        simp [onNeuron, hq]
      have e2 : onNeuron (g i) st' i = .ok ⟨st'.neurons.set i (g i (n, st'.projs)).1, (g i (n, st'.projs)).2⟩ := by
        simp [onNeuron, hn, hq]
      rw [e1, e2, Outcome.bind_ok, Outcome.bind_ok]
      obtain ⟨l1, l2⟩ := hg i n st.projs st'.projs h (hi i)
      apply ih
      · simp only [hn, l1]
      · exact l2
      · intro j r hr
        exact into_shape (hsh i (n, st.projs)) (hi j r hr)

/-- A body that keeps the shape. -/
def ShapeBody (g : Res B F × List (RProj F) → Res B F × List (RProj F)) : Prop :=
  ∀ st, shapeOf (g st).2 = shapeOf st.2

theorem processNeuron_shape (o : Ops F) (bo : BaseOps B F) (step : Nat) (refs : List Ref) :
    ShapeBody (processNeuron (B := B) o bo step refs) := fun st => (processNeuron_frame o bo step refs st).shape

theorem dopNeuron_shape (o : Ops F) (bo : BaseOps B F) (step : Nat) (refs : List Ref) :
    ShapeBody (dopNeuron (B := B) o bo step refs) := fun st => (dopNeuron_frame o bo step refs st).shape

theorem renormNeuron_shape (o : Ops F) (step : Nat) (refs : List Ref) :
    ShapeBody (renormNeuron (B := B) o step refs) := fun st => (renormNeuron_frame o step refs st).shape

theorem phases_local {uid : UID} {conn : Nat → List Ref}
    {g1 g2 g3 : Nat → Res B F × List (RProj F) → Res B F × List (RProj F)}
    (l1 : ∀ i, LocalBody uid (conn i) (g1 i)) (l2 : ∀ i, LocalBody uid (conn i) (g2 i))
    (l3 : ∀ i, LocalBody uid (conn i) (g3 i)) (f1 : ∀ i, ShapeBody (g1 i)) (f2 : ∀ i, ShapeBody (g2 i))
    (f3 : ∀ i, ShapeBody (g3 i)) (spikes : List Nat) {st st' : Stdp.State B F} (hn : st'.neurons = st.neurons)
    (h : Alike uid st.projs st'.projs) (hi : ∀ i, ∀ r ∈ conn i, Into uid st.projs r) :
    Agree uid
      (spikes.foldlM (fun s i => onNeuron (g1 i) s i) st >>= fun a => allNeurons g2 a >>= fun b => allNeurons g3 b)
      (spikes.foldlM (fun s i => onNeuron (g1 i) s i) st' >>= fun a => allNeurons g2 a >>= fun b => allNeurons g3 b) := by
  unfold allNeurons
  have hshape : ∀ (g : Nat → Res B F × List (RProj F) → Res B F × List (RProj F)),
      (∀ i st, shapeOf (g i st).2 = shapeOf st.2) → ∀ (l : List Nat) (a b : Stdp.State B F),
      l.foldlM (fun s i => onNeuron (g i) s i) a = .ok b → shapeOf b.projs = shapeOf a.projs := by
    intro g hg l a b hab
    exact foldNeurons_ind (g := g) (fun s => shapeOf s.projs = shapeOf a.projs) l
      (fun s i n _ _ hp => (hg i (n, s.projs)).trans hp) a b rfl hab
  have a1 := foldNeurons_local l1 f1 spikes st st' hn h hi
  have s1 := hshape g1 f1 spikes st
  generalize spikes.foldlM (fun s i => onNeuron (g1 i) s i) st = r1 at a1 s1 ⊢
  generalize spikes.foldlM (fun s i => onNeuron (g1 i) s i) st' = r1' at a1 ⊢
  rcases r1 with b1 | _ | _ <;> rcases r1' with b1' | _ | _ 
  case ok.throw => exact False.elim a1
  case ok.ub => exact False.elim a1
  case throw.ok => exact False.elim a1
  case throw.throw => exact trivial
  case throw.ub => exact False.elim a1
  case ub.ok => exact False.elim a1
  case ub.throw => exact False.elim a1
  case ub.ub => exact trivial
  rw [Outcome.bind_ok, Outcome.bind_ok]
  obtain ⟨n1, k1⟩ := a1
  rw [n1]
  have hi1 : ∀ i, ∀ r ∈ conn i, Into uid b1.projs r := fun i r hr => into_shape (s1 b1 rfl) (hi i r hr)
  have a2 := foldNeurons_local l2 f2 (List.range b1.neurons.length) b1 b1' n1 k1 hi1
  have s2 := hshape g2 f2 (List.range b1.neurons.length) b1
  generalize (List.range b1.neurons.length).foldlM (fun s i => onNeuron (g2 i) s i) b1 = r2 at a2 s2 ⊢
  generalize (List.range b1.neurons.length).foldlM (fun s i => onNeuron (g2 i) s i) b1' = r2' at a2 ⊢
  rcases r2 with b2 | _ | _ <;> rcases r2' with b2' | _ | _ 
  case ok.throw => exact False.elim a2
  case ok.ub => exact False.elim a2
  case throw.ok => exact False.elim a2
  case throw.throw => exact trivial
  case throw.ub => exact False.elim a2
  case ub.ok => exact False.elim a2
  case ub.throw => exact False.elim a2
  case ub.ub => exact trivial
  rw [Outcome.bind_ok, Outcome.bind_ok]
  obtain ⟨n2, k2⟩ := a2
  rw [n2]
  exact foldNeurons_local l3 f3 _ b2 b2' n2 k2 (fun i r hr => into_shape (s2 b2 rfl) (hi1 i r hr))

theorem train_local {o : Ops F} {bo : BaseOps B F} {uid : UID} {spikes : List Nat} {step : Nat}
    {st st' : Stdp.State B F} (hn : st'.neurons = st.neurons) (h : Alike uid st.projs st'.projs) :
    Agree uid (train o bo uid spikes step st) (train o bo uid spikes step st') := by
  unfold train
  dsimp only
  rw [connected_shape (uid := uid) h.shape]
  have hi : ∀ i, ∀ r ∈ connected uid st.projs i, Into uid st.projs r := by
    intro i r hr
    obtain ⟨p, hp, ht, _⟩ := mem_connected hr
    exact ⟨p, hp, ht⟩
  generalize connected uid st.projs = conn at hi ⊢
  unfold processSpikes
  exact phases_local (g1 := fun i => processNeuron (B := B) o bo step (conn i))
    (fun i => processNeuron_local o bo step uid _) (fun i => dopNeuron_local o bo step uid _)
    (fun i => renormNeuron_local o step uid _) (fun i => processNeuron_shape o bo step _)
    (fun i => dopNeuron_shape o bo step _) (fun i => renormNeuron_shape o step _)
    spikes hn h hi

/-- What a training call may touch. -/
theorem train_frame {o : Ops F} {bo : BaseOps B F} {uid : UID} {spikes : List Nat} {step : Nat}
    {st st' : Stdp.State B F} (h : train o bo uid spikes step st = .ok st') :
    shapeOf st'.projs = shapeOf st.projs ∧
    (∀ r, ¬ Into uid st.projs r → getAt st'.projs r = getAt st.projs r) ∧
    (∀ r s, getAt st.projs r = some s → ∃ s', getAt st'.projs r = some s' ∧ SameWiring s s') ∧
    st'.neurons.length = st.neurons.length := by
  refine train_ind (P := fun s => shapeOf s.projs = shapeOf st.projs ∧
    (∀ r, ¬ Into uid st.projs r → getAt s.projs r = getAt st.projs r) ∧
    (∀ r x, getAt st.projs r = some x → ∃ x', getAt s.projs r = some x' ∧ SameWiring x x') ∧
    s.neurons.length = st.neurons.length) ?_
    ⟨rfl, fun _ _ => rfl, fun r s hs => ⟨s, hs, SameWiring.refl s⟩, rfl⟩ h
  rintro s i n g v hn ⟨p1, p2, p3, p4⟩
  have f := v.frame (n, s.projs)
  refine ⟨f.shape.trans p1, ?_, ?_, by simpa using p4⟩
  · intro r hr
    refine (f.outside r ?_).trans (p2 r hr)
    intro hm
    obtain ⟨p, hp, ht, _⟩ := mem_connected hm
    exact hr ⟨p, hp, ht⟩
  · intro r x hx
    obtain ⟨x1, hx1, w1⟩ := p3 r x hx
    obtain ⟨x2, hx2, w2⟩ := f.wiring r x1 hx1
    exact ⟨x2, hx2, SameWiring.trans w1 w2⟩

/-- Training keeps lookups exact. -/
theorem train_findOk {o : Ops F} {bo : BaseOps B F} {uid : UID} {spikes : List Nat} {step : Nat}
    {st st' : Stdp.State B F} (h : train o bo uid spikes step st = .ok st') (hf : ∀ p ∈ st.projs, FindOk p) :
    ∀ p ∈ st'.projs, FindOk p := by
  obtain ⟨f1, _, f3, _⟩ := train_frame h
  intro p' hp' n
  obtain ⟨i, hi⟩ := List.getElem?_of_mem hp'
  obtain ⟨p, hp, _, _, _, g4, g5⟩ := shape_get f1.symm hi
  obtain ⟨a1, a2⟩ := hf p (List.mem_of_getElem? hp) n
  rw [← g4]
  refine ⟨a1, fun k => (a2 k).trans ?_⟩
  constructor
  · rintro ⟨s, hs, ht⟩
    obtain ⟨s', hs', w⟩ := f3 (i, k) s (by simp [getAt, hp, hs])
    exact ⟨s', by simpa [getAt, hi] using hs', w.2.1.trans ht⟩
  · rintro ⟨s', hs', ht⟩
    have hk : k < p.syns.length := by
      obtain ⟨hlt, _⟩ := List.getElem?_eq_some_iff.1 hs'
      omega
    obtain ⟨s2, hs2, w⟩ := f3 (i, k) p.syns[k] (by simp [getAt, hp, hk])
    have : s2 = s' := by
      simp only [getAt, hi, Option.bind_some] at hs2
      exact Option.some.inj (hs2.symm.trans hs')
    subst this
    exact ⟨_, List.getElem?_eq_getElem hk, w.2.1.symm.trans ht⟩

/-- The weights of the synapses training touches are recalculated. -/
theorem train_recalc {o : Ops F} {bo : BaseOps B F} {uid : UID} {spikes : List Nat} {step : Nat}
    {st st' : Stdp.State B F} (h : train o bo uid spikes step st = .ok st') : RecalcOn o st.projs st'.projs := by
  have inv := train_ind (P := fun t => RecalcOn o st.projs t.projs ∧
      ∀ r x, getAt st.projs r = some x → ∃ x', getAt t.projs r = some x' ∧ SameWiring x x') ?_
    ⟨RecalcOn.refl _ _, fun r x hx => ⟨x, hx, SameWiring.refl x⟩⟩ h
  · exact inv.1
  · rintro t j n g v _ ⟨p1, p2⟩
    have f := v.frame (n, t.projs)
    have rc := v.recalc (n, t.projs)
    constructor
    · intro r x x2 hx hx2
      obtain ⟨x1, hx1, _⟩ := p2 r x hx
      obtain ⟨x2', hx2', w⟩ := f.wiring r x1 hx1
      obtain rfl : x2' = x2 := Option.some.inj (hx2'.symm.trans hx2)
      exact (p1 r x x1 hx hx1).trans (rc r x1 x2' hx1 hx2') w
    · intro r x hx
      obtain ⟨x1, hx1, w1⟩ := p2 r x hx
      obtain ⟨x2, hx2, w2⟩ := f.wiring r x1 hx1
      exact ⟨x2, hx2, SameWiring.trans w1 w2⟩

end Knp.Lemmas.Stdp
