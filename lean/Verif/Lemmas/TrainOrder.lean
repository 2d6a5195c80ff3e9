import Verif.Lemmas.Stdp

/-! # Lemmas: training in another order -/

namespace Knp.Lemmas.Stdp
open Knp Knp.Neurons Knp.Stdp Knp.Spec

variable {B F N : Type}

/-! ## Writes to different synapses -/

theorem setAt_comm (ps : List (RProj F)) (r r' : Ref) (s s' : RSyn F) (h : r ≠ r') :
    setAt (setAt ps r s) r' s' = setAt (setAt ps r' s') r s := by
  obtain ⟨i, k⟩ := r
  obtain ⟨i', k'⟩ := r'
  apply List.ext_getElem?
  intro n
  simp only [setAt, List.getElem?_modify]
  cases ps[n]? with
  | none => simp
  | some p =>
    by_cases h1 : i = n <;> by_cases h2 : i' = n <;> simp [h1, h2]
    have hk : k ≠ k' := by
      rintro rfl
      exact h (by rw [h1, h2])
    exact List.set_comm _ _ hk

/-- A sequence of writes. -/
def writes (l : List (Ref × RSyn F)) (ps : List (RProj F)) : List (RProj F) := l.foldl (fun ps e => setAt ps e.1 e.2) ps

theorem writes_setAt (l : List (Ref × RSyn F)) : ∀ (ps : List (RProj F)) (r : Ref) (s : RSyn F), (∀ e ∈ l, e.1 ≠ r) →
    writes l (setAt ps r s) = setAt (writes l ps) r s := by
  induction l with
  | nil => intro ps r s _; rfl
  | cons e l ih =>
    intro ps r s h
    have h1 : setAt (setAt ps r s) e.1 e.2 = setAt (setAt ps e.1 e.2) r s :=
      setAt_comm ps r e.1 s e.2 (fun he => h e (by simp) he.symm)
    show writes l (setAt (setAt ps r s) e.1 e.2) = setAt (writes l (setAt ps e.1 e.2)) r s
    rw [h1]
    exact ih _ r s (fun x hx => h x (by simp [hx]))

theorem writes_comm (l l' : List (Ref × RSyn F)) : ∀ (ps : List (RProj F)), (∀ e ∈ l, ∀ e' ∈ l', e.1 ≠ e'.1) →
    writes l (writes l' ps) = writes l' (writes l ps) := by
  induction l' with
  | nil => intro ps _; rfl
  | cons e l' ih =>
    intro ps h
    show writes l (writes l' (setAt ps e.1 e.2)) = writes l' (setAt (writes l ps) e.1 e.2)
    rw [ih _ (fun x hx y hy => h x hx y (by simp [hy])), writes_setAt l ps e.1 e.2 (fun x hx => h x hx e (by simp))]

/-- A body that reads and writes only the synapses `refs`. -/
structure Confined (refs : List Ref) (g : N × List (RProj F) → N × List (RProj F)) : Prop where
  writes : ∀ n ps, ∃ l : List (Ref × RSyn F), (∀ e ∈ l, e.1 ∈ refs) ∧ (g (n, ps)).2 = writes l ps
  clean : ∀ n ps r s, r ∉ refs → g (n, setAt ps r s) = ((g (n, ps)).1, setAt (g (n, ps)).2 r s)

theorem Confined.writesOut {refs : List Ref} {g : N × List (RProj F) → N × List (RProj F)} (h : Confined refs g) (n : N)
    (l : List (Ref × RSyn F)) : ∀ ps, (∀ e ∈ l, e.1 ∉ refs) →
    g (n, Stdp.writes l ps) = ((g (n, ps)).1, Stdp.writes l (g (n, ps)).2) := by
  induction l with
  | nil => intro ps _; rfl
  | cons e l ih =>
    intro ps hl
    show g (n, Stdp.writes l (setAt ps e.1 e.2)) = ((g (n, ps)).1, Stdp.writes l (setAt (g (n, ps)).2 e.1 e.2))
    rw [ih _ (fun x hx => hl x (by simp [hx])), h.clean n ps e.1 e.2 (hl e (by simp))]

/-- Two confined bodies for different synapses, one after the other. -/
theorem Confined.swap {refs refs' : List Ref} {g g' : N × List (RProj F) → N × List (RProj F)} (h : Confined refs g)
    (h' : Confined refs' g') (hd : ∀ r ∈ refs, r ∉ refs') (n n' : N) (ps : List (RProj F)) :
    (g' (n', (g (n, ps)).2)).1 = (g' (n', ps)).1 ∧ (g (n, (g' (n', ps)).2)).1 = (g (n, ps)).1 ∧
    (g' (n', (g (n, ps)).2)).2 = (g (n, (g' (n', ps)).2)).2 := by
  obtain ⟨l, hl, e⟩ := h.writes n ps
  obtain ⟨l', hl', e'⟩ := h'.writes n' ps
  have a := h'.writesOut n' l ps (fun x hx => hd _ (hl x hx))
  have b := h.writesOut n l' ps (fun x hx hm => hd _ hm (hl' x hx))
  rw [e, e', a, b]
  refine ⟨rfl, rfl, ?_⟩
  simp only
  rw [e, e']
  exact writes_comm l l' ps (fun x hx y hy he => hd _ (hl x hx) (he ▸ hl' y hy))

theorem writes_append (l l' : List (Ref × RSyn F)) (ps : List (RProj F)) : writes (l ++ l') ps = writes l' (writes l ps) := by
  unfold writes
  rw [List.foldl_append]

theorem Confined.comp {refs : List Ref} {g g' : N × List (RProj F) → N × List (RProj F)} (h : Confined refs g)
    (h' : Confined refs g') : Confined refs (fun st => g' (g st)) := by
  constructor
  · intro n ps
    obtain ⟨l, hl, e⟩ := h.writes n ps
    obtain ⟨l', hl', e'⟩ := h'.writes (g (n, ps)).1 (g (n, ps)).2
    refine ⟨l ++ l', ?_, ?_⟩
    · intro x hx
      rcases List.mem_append.1 hx with hx | hx
      · exact hl x hx
      · exact hl' x hx
    · show (g' (g (n, ps))).2 = _
      rw [writes_append, ← e, ← e']
  · intro n ps r s hr
    show g' (g (n, setAt ps r s)) = ((g' (g (n, ps))).1, setAt (g' (g (n, ps))).2 r s)
    rw [h.clean n ps r s hr, h'.clean _ _ r s hr]

theorem Confined.neuron {refs : List Ref} (f : N → N) :
    Confined refs (fun st : N × List (RProj F) => (f st.1, st.2)) :=
  ⟨fun _ _ => ⟨[], by simp, rfl⟩, fun _ _ _ _ _ => rfl⟩

theorem each_confined (f : N → RSyn F → N × RSyn F) (refs all : List Ref) (hs : ∀ r ∈ refs, r ∈ all) :
    Confined all (each f refs) := by
  induction refs with
  | nil => exact ⟨fun _ _ => ⟨[], by simp, rfl⟩, fun _ _ _ _ _ => rfl⟩
  | cons r refs ih =>
    have h1 : Confined all (fun st : N × List (RProj F) => eachStep f st r) := by
      constructor
      · intro n ps
        unfold eachStep
        cases hg : getAt ps r with
        | none => exact ⟨[], by simp, rfl⟩
        | some s => exact ⟨[(r, (f n s).2)], by simpa using hs r (by simp), rfl⟩
      · intro n ps r' s' hr'
        have hne : r' ≠ r := fun e => hr' (e ▸ hs r (by simp))
        have hg : getAt (setAt ps r' s') r = getAt ps r := by rw [getAt_setAt, if_neg hne]
        unfold eachStep
        simp only [hg]
        cases getAt ps r with
        | none => rfl
        | some s => simp only; rw [setAt_comm ps r' r s' _ hne]
    exact h1.comp (ih (fun x hx => hs x (by simp [hx])))

variable [Field F] [LinearOrder F]

theorem processNeuron_confined (o : Ops F) (bo : BaseOps B F) (step : Nat) (refs : List Ref) :
    Confined refs (processNeuron o bo step refs) := by
  have e (f : Res B F → RSyn F → Res B F × RSyn F) := each_confined f refs refs (fun _ h => h)
  exact ((((Confined.neuron (spikeHead bo step)).comp (e (markSyn bo step))).comp
    ((Confined.neuron (scaleAdditional bo)).comp (e resetHebb))).comp (e (plastic o))).comp (e (recalc o))

/-! ## The order of the neurons in the message -/

omit [Field F] [LinearOrder F] in
theorem onNeuron_swap {g g' : Res B F × List (RProj F) → Res B F × List (RProj F)} {refs refs' : List Ref}
    (h : Confined refs g) (h' : Confined refs' g') (hd : ∀ r ∈ refs, r ∉ refs') {i j : Nat} (hij : i ≠ j) (st : Stdp.State B F) :
    (onNeuron g st i >>= fun s => onNeuron g' s j) = (onNeuron g' st j >>= fun s => onNeuron g s i) := by
  unfold onNeuron
  cases hi : st.neurons[i]? with
  | none =>
    cases hj : st.neurons[j]? with
    | none => rfl
    | some m =>
      simp only [Outcome.bind_ok, List.getElem?_set_ne (fun e => hij e.symm), hi]
      rfl
  | some n =>
    cases hj : st.neurons[j]? with
    | none =>
      simp only [Outcome.bind_ok, List.getElem?_set_ne hij, hj]
      rfl
    | some m =>
      simp only [Outcome.bind_ok, List.getElem?_set_ne hij, List.getElem?_set_ne (fun e => hij e.symm), hi, hj]
      obtain ⟨a, b, c⟩ := h.swap h' hd n m st.projs
      rw [a, b, c, List.set_comm _ _ hij]

omit [Field F] [LinearOrder F] in
theorem connected_disjoint {uid : UID} {ps : List (RProj F)} (hf : ∀ p ∈ ps, FindOk p) {i j : Nat} (hij : i ≠ j) :
    ∀ r ∈ connected uid ps i, r ∉ connected uid ps j := by
  intro r hi hj
  obtain ⟨p, hp, _, h1⟩ := mem_connected hi
  obtain ⟨q, hq, _, h2⟩ := mem_connected hj
  rw [hp] at hq
  cases hq
  have hfo := hf p (List.mem_of_getElem? hp)
  obtain ⟨s, hs, ht⟩ := ((hfo i).2 r.2).1 h1
  obtain ⟨s', hs', ht'⟩ := ((hfo j).2 r.2).1 h2
  rw [hs] at hs'
  cases hs'
  exact hij (ht.symm.trans ht')

theorem processSpikes_perm {o : Ops F} {bo : BaseOps B F} {step : Nat} {conn : Nat → List Ref}
    (hd : ∀ i j, i ≠ j → ∀ r ∈ conn i, r ∉ conn j) {l l' : List Nat} (hp : l.Perm l') : l.Nodup → ∀ st : Stdp.State B F,
    processSpikes o bo step conn l st = processSpikes o bo step conn l' st := by
  unfold processSpikes
  induction hp with
  | nil => intro _ st; rfl
  | cons x _ ih =>
    intro hn st
    rw [List.foldlM_cons, List.foldlM_cons]
    cases onNeuron (processNeuron o bo step (conn x)) st x with
    | ok s => exact ih (List.nodup_cons.1 hn).2 s
    | throw w => rfl
    | ub => rfl
  | swap x y l =>
    intro hn st
    have hxy : y ≠ x := by
      intro e
      have := (List.nodup_cons.1 hn).1
      simp [e] at this
    have := onNeuron_swap (processNeuron_confined o bo step (conn y)) (processNeuron_confined o bo step (conn x))
      (hd y x hxy) hxy st
    simp only [List.foldlM_cons]
    rw [← bind_assoc, ← bind_assoc, this]
  | trans p1 _ ih1 ih2 =>
    intro hn st
    exact (ih1 hn st).trans (ih2 (p1.nodup_iff.1 hn) st)

/-- The order of the spiked neurons does not matter to training. -/
theorem train_perm (o : Ops F) (bo : BaseOps B F) (uid : UID) {l l' : List Nat} (hp : l.Perm l') (hn : l.Nodup) (step : Nat)
    (st : Stdp.State B F) (hf : ∀ p ∈ st.projs, FindOk p) : train o bo uid l step st = train o bo uid l' step st := by
  unfold train
  simp only
  rw [processSpikes_perm (fun i j hij => connected_disjoint hf hij) hp hn st]

/-! ## The order of the populations -/

theorem train_total {o : Ops F} {bo : BaseOps B F} {uid : UID} {spikes : List Nat} {step : Nat}
    {st : Stdp.State B F} (hs : ∀ i ∈ spikes, i < st.neurons.length) :
    ∃ st', train o bo uid spikes step st = .ok st' := by
  unfold train processSpikes allNeurons
  dsimp only
  obtain ⟨s1, h1, l1⟩ := foldNeurons_ok (g := fun i => processNeuron o bo step (connected uid st.projs i)) spikes st hs
  rw [h1, Outcome.bind_ok]
  obtain ⟨s2, h2, _⟩ := foldNeurons_ok (g := fun i => dopNeuron o bo step (connected uid st.projs i))
    (List.range s1.neurons.length) s1 (fun i hi => List.mem_range.1 hi)
  rw [h2, Outcome.bind_ok]
  obtain ⟨s3, h3, _⟩ := foldNeurons_ok (g := fun i => renormNeuron o step (connected uid st.projs i))
    (List.range s2.neurons.length) s2 (fun i hi => List.mem_range.1 hi)
  exact ⟨s3, h3⟩

/-- Training a population keeps everything another population sees. -/
theorem train_alike {o : Ops F} {bo : BaseOps B F} {uid uid' : UID} (hne : uid ≠ uid') {spikes : List Nat}
    {step : Nat} {st st' : Stdp.State B F} (h : train o bo uid spikes step st = .ok st') :
    Alike uid' st.projs st'.projs := by
  obtain ⟨f1, f2, _, _⟩ := train_frame h
  refine ⟨f1, ?_⟩
  intro r p hp ht
  apply f2
  rintro ⟨q, hq, htq⟩
  rw [hp] at hq; cases hq
  exact hne (htq.1.symm.trans ht.1)

theorem train_swap {o : Ops F} {bo bo' : BaseOps B F} {u v : UID} (hne : u ≠ v) {su sv : List Nat} {step : Nat}
    {nu nv : List (Res B F)} {ps : List (RProj F)} (hu : ∀ i ∈ su, i < nu.length) (hv : ∀ i ∈ sv, i < nv.length) :
    ∃ a b c d, train o bo u su step ⟨nu, ps⟩ = .ok a ∧ train o bo' v sv step ⟨nv, a.projs⟩ = .ok b ∧
      train o bo' v sv step ⟨nv, ps⟩ = .ok c ∧ train o bo u su step ⟨nu, c.projs⟩ = .ok d ∧
      a.neurons = d.neurons ∧ b.neurons = c.neurons ∧ b.projs = d.projs := by
  obtain ⟨a, ha⟩ := train_total (o := o) (bo := bo) (uid := u) (step := step) (st := ⟨nu, ps⟩) hu
  obtain ⟨b, hb⟩ := train_total (o := o) (bo := bo') (uid := v) (step := step) (st := ⟨nv, a.projs⟩) hv
  obtain ⟨c, hc⟩ := train_total (o := o) (bo := bo') (uid := v) (step := step) (st := ⟨nv, ps⟩) hv
  obtain ⟨d, hd⟩ := train_total (o := o) (bo := bo) (uid := u) (step := step) (st := ⟨nu, c.projs⟩) hu
  have e1 : Alike v ps a.projs := train_alike hne ha
  have e2 : Alike u ps c.projs := train_alike (Ne.symm hne) hc
  have l1 := train_local (o := o) (bo := bo') (uid := v) (spikes := sv) (step := step) (st := ⟨nv, ps⟩)
    (st' := ⟨nv, a.projs⟩) rfl e1
  rw [hc, hb] at l1
  have l2 := train_local (o := o) (bo := bo) (uid := u) (spikes := su) (step := step) (st := ⟨nu, ps⟩)
    (st' := ⟨nu, c.projs⟩) rfl e2
  rw [ha, hd] at l2
  obtain ⟨n1, k1⟩ := l1
  obtain ⟨n2, k2⟩ := l2
  refine ⟨a, b, c, d, ha, hb, hc, hd, n2.symm, n1, ?_⟩
  have sb : shapeOf b.projs = shapeOf ps := (train_frame hb).1.trans (train_frame ha).1
  have sd : shapeOf d.projs = shapeOf ps := (train_frame hd).1.trans (train_frame hc).1
  apply eq_of_getAt (sb.trans sd.symm)
  intro r
  by_cases hru : Into u ps r
  · have hab : Alike u a.projs b.projs := train_alike (st := ⟨nv, a.projs⟩) (Ne.symm hne) hb
    obtain ⟨p, hp, ht⟩ := into_shape (train_frame ha).1 hru
    exact (hab.same r p hp ht).trans (k2.same r p hp ht).symm
  · by_cases hrv : Into v ps r
    · have hcd : Alike v c.projs d.projs := train_alike (st := ⟨nu, c.projs⟩) hne hd
      obtain ⟨p, hp, ht⟩ := into_shape (train_frame hc).1 hrv
      exact (k1.same r p hp ht).trans (hcd.same r p hp ht).symm
    · have h1 : getAt a.projs r = getAt ps r := (train_frame ha).2.1 r hru
      have h2 : getAt b.projs r = getAt a.projs r :=
        (train_frame hb).2.1 r (fun h => hrv (into_shape (train_frame ha).1.symm h))
      have h3 : getAt c.projs r = getAt ps r := (train_frame hc).2.1 r hrv
      have h4 : getAt d.projs r = getAt c.projs r :=
        (train_frame hd).2.1 r (fun h => hru (into_shape (train_frame hc).1.symm h))
      rw [h2, h1, h4, h3]

end Knp.Lemmas.Stdp
