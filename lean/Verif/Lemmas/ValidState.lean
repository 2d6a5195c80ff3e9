import Verif.Spec.ValidState
import Verif.Lemmas.Valid

/-! # Lemmas: networks that stay in safe states never fail -/

namespace Knp.Learn
open Knp Knp.Bus Knp.Spec Knp.Neurons Knp.Sys Knp.Stdp Knp.Lemmas.Stdp Knp.Props

variable {A N B F : Type}

/-! ## Populations -/

theorem in_fold {I : A → Prop} {k : Kind A F} : ∀ (l : List (SynapticImpact F × Bool)) (n : A), I n →
    (∀ x ∈ l, TakesIn I k x.1.synapseType x.1.impactValue) →
    ∃ n', l.foldlM (fun m x => k.impact m x.1 x.2) n = Outcome.ok n' ∧ I n' := by
  intro l
  induction l with
  | nil => intro n hn _; exact ⟨n, rfl, hn⟩
  | cons x l ih =>
    intro n hn h
    obtain ⟨n1, h1, h2⟩ := h x (by simp) n x.1 x.2 hn rfl rfl
    obtain ⟨n2, h3, h4⟩ := ih n1 h2 (fun y hy => h y (by simp [hy]))
    exact ⟨n2, by rw [List.foldlM_cons, h1]; exact h3, h4⟩

theorem in_step {I : A → Prop} {k : Kind A F} (hk : Steady I k) (u : UID) (t : Nat) (ns : List A)
    (ms : List (SynapticImpactMessage F)) (hI : ∀ n ∈ ns, I n)
    (h : ∀ m ∈ ms, ∀ i ∈ m.impacts, i.postsynapticNeuronIndex < ns.length ∧ TakesIn I k i.synapseType i.impactValue) :
    ∃ r, stepPopulation k u t ns ms = .ok r ∧ ∀ n ∈ r.1, I n := by
  have hns : ∀ i n, I n → ∃ r, neuronStep k n (addressed i ms) = .ok r ∧ I r.1 := by
    intro i n hn
    obtain ⟨m, h1, h2⟩ := in_fold (addressed i ms) _ (hk.1 n hn) (by
      intro x hx
      unfold addressed at hx
      simp only [List.mem_flatMap, List.mem_map, List.mem_filter] at hx
      obtain ⟨m, hm, y, ⟨hy, _⟩, rfl⟩ := hx
      exact (h m hm y hy).2)
    exact ⟨k.post m, by unfold neuronStep; rw [h1]; rfl, hk.2 m h2⟩
  have hok := (C55_total k u t ns ms).2 ⟨fun m hm i hi => (h m hm i hi).1, fun i n hn => by
    obtain ⟨r, h1, _⟩ := hns i n (hI n (List.mem_of_getElem? hn))
    rw [h1]; rfl⟩
  cases hs : stepPopulation k u t ns ms with
  | throw w => rw [hs] at hok; cases hok
  | ub => rw [hs] at hok; cases hok
  | ok r =>
    obtain ⟨hlen, sp, _, heach, _⟩ := C55_each_neuron k u t ns r.1 ms r.2 hs
    refine ⟨r, rfl, ?_⟩
    intro n hn
    obtain ⟨i, hi⟩ := List.mem_iff_getElem?.1 hn
    have hlt : i < ns.length := by rw [← hlen]; exact (List.getElem?_eq_some_iff.1 hi).1
    obtain ⟨n', b, e1, e2, _⟩ := heach i _ (List.getElem?_eq_getElem hlt)
    obtain ⟨r', e3, e4⟩ := hns i ns[i] (hI _ (List.getElem_mem hlt))
    rw [e1] at e3
    cases e3
    rw [hi] at e2
    cases e2
    exact e4

variable (I : N → Prop) (J : B → Prop)

/-- The population takes this impact in its safe states. -/
def AccIn (p : Pop N B F) (i : SynapticImpact F) : Prop :=
  i.postsynapticNeuronIndex < p.size ∧ PopTakesIn I J p i.synapseType i.impactValue

/-- What a population keeps. -/
structure StableIn (p p' : Pop N B F) : Prop where
  uid : p'.uid = p.uid
  size : p'.size = p.size
  takes : ∀ ty v, PopTakesIn I J p' ty v ↔ PopTakesIn I J p ty v
  steady : PopSteady I J p'

variable {I J}

theorem StableIn.trans {a b c : Pop N B F} (h : StableIn I J a b) (h' : StableIn I J b c) : StableIn I J a c :=
  ⟨h'.uid.trans h.uid, h'.size.trans h.size, fun ty v => (h'.takes ty v).trans (h.takes ty v), h'.steady⟩

theorem StableIn.acc {p p' : Pop N B F} (h : StableIn I J p p') {i : SynapticImpact F} (ha : AccIn I J p i) : AccIn I J p' i :=
  ⟨by rw [h.size]; exact ha.1, (h.takes _ _).2 ha.2⟩

theorem computeS_in (t : Nat) (p : Pop N B F) (ms : List (SynapticImpactMessage F)) (hp : PopSteady I J p)
    (h : ∀ m ∈ ms, ∀ i ∈ m.impacts, AccIn I J p i) :
    ∃ p1 s, computeS t p ms = .ok (p1, s) ∧ StableIn I J p p1 := by
  cases p with
  | plain u k ns =>
    obtain ⟨r, hr, hI⟩ := in_step hp.1 u t ns ms hp.2 h
    have hc : computeS t (.plain (B := B) u k ns) ms = .ok (.plain u k r.1, r.2) := by unfold computeS; simp only [hr, computed]
    exact ⟨_, _, hc, rfl, (computeS_facts t _ _ _ _ hc).2.1, fun _ _ => Iff.rfl, hp.1, hI⟩
  | trained u k b ns =>
    obtain ⟨r, hr, hI⟩ := in_step (I := fun n : Res B F => J n.base) hp.1 u t ns ms hp.2.2 h
    have hc : computeS t (.trained (N := N) u k b ns) ms = .ok (.trained u k b r.1, r.2) := by unfold computeS; simp only [hr, computed]
    exact ⟨_, _, hc, rfl, (computeS_facts t _ _ _ _ hc).2.1, fun _ _ => Iff.rfl, hp.1, hp.2.1, hI⟩

/-! ## Training changes the base part only through `setAdditional` -/

theorem each_base {f : Res B F → RSyn F → Res B F × RSyn F} (hf : ∀ n s, J n.base → J (f n s).1.base) :
    ∀ (refs : List Ref) (st : Res B F × List (RProj F)), J st.1.base → J (each f refs st).1.base := by
  intro refs
  induction refs with
  | nil => intro st h; exact h
  | cons r refs ih =>
    intro st h
    refine ih _ ?_
    unfold eachStep
    split
    · exact h
    · exact hf _ _ h

variable [Field F] [LinearOrder F]

theorem process_base {o : Ops F} {bo : BaseOps B F} (hb : ∀ x a, J x → J (bo.setAdditional x a)) (step : Nat) (refs : List Ref)
    (st : Res B F × List (RProj F)) (h : J st.1.base) : J (processNeuron o bo step refs st).1.base := by
  unfold processNeuron
  refine each_base (fun n s hn => hn) _ _ (each_base ?_ _ _ (each_base (fun n s hn => hn) _ _ (hb _ _ (each_base ?_ _ _ (hb _ _ h)))))
  · intro n s hn
    unfold plastic
    split
    · unfold hebb
      dsimp only
      split <;> exact hn
    · exact hn
  · intro n s hn
    exact hb _ _ hn

theorem dop_base {o : Ops F} {bo : BaseOps B F} (step : Nat) (refs : List Ref)
    (st : Res B F × List (RProj F)) (h : J st.1.base) : J (dopNeuron o bo step refs st).1.base := by
  unfold dopNeuron
  dsimp only
  split
  · refine each_base (fun n s hn => hn) _ _ ?_
    have h1 : J (each (dopSyn o bo step) refs st).1.base := by
      refine each_base ?_ _ _ h
      intro n s hn
      unfold dopSyn
      split <;> exact hn
    show J (dopStability o bo step (each (dopSyn o bo step) refs st).1).base
    unfold dopStability
    dsimp only
    split <;> exact h1
  · exact h

theorem renorm_base {o : Ops F} (step : Nat) (refs : List Ref)
    (st : Res B F × List (RProj F)) (h : J st.1.base) : J (renormNeuron o step refs st).1.base := by
  unfold renormNeuron
  split
  · exact h
  · refine each_base (fun n s hn => hn) _ _ ?_
    exact each_base (f := addResource _) (fun n s hn => hn) refs st h

omit [Field F] [LinearOrder F] in
theorem neurons_base {g : Nat → Res B F × List (RProj F) → Res B F × List (RProj F)}
    (hg : ∀ i st, J st.1.base → J (g i st).1.base) : ∀ (l : List Nat) (st st' : Stdp.State B F),
    l.foldlM (fun s i => onNeuron (g i) s i) st = Outcome.ok st' → (∀ n ∈ st.neurons, J n.base) → ∀ n ∈ st'.neurons, J n.base := by
  intro l
  induction l with
  | nil => intro st st' h hI; cases h; exact hI
  | cons i l ih =>
    intro st st' h hI
    rw [List.foldlM_cons] at h
    unfold onNeuron at h
    cases hn : st.neurons[i]? with
    | none => rw [hn] at h; cases h
    | some n =>
      rw [hn] at h
      refine ih _ st' h ?_
      intro x hx
      rcases List.mem_or_eq_of_mem_set hx with hx | rfl
      · exact hI x hx
      · exact hg i _ (hI n (List.mem_of_getElem? hn))

omit [Field F] [LinearOrder F] in
theorem three_base {g1 g2 g3 : Nat → Res B F × List (RProj F) → Res B F × List (RProj F)}
    (h1 : ∀ i st, J st.1.base → J (g1 i st).1.base) (h2 : ∀ i st, J st.1.base → J (g2 i st).1.base)
    (h3 : ∀ i st, J st.1.base → J (g3 i st).1.base) {l : List Nat} {st st' : Stdp.State B F}
    (h : ((l.foldlM (fun s i => onNeuron (g1 i) s i) st).bind fun s1 =>
      (allNeurons g2 s1).bind fun s2 => allNeurons g3 s2) = .ok st') (hI : ∀ n ∈ st.neurons, J n.base) :
    ∀ n ∈ st'.neurons, J n.base := by
  cases e1 : l.foldlM (fun s i => onNeuron (g1 i) s i) st with
  | throw w => rw [e1] at h; cases h
  | ub => rw [e1] at h; cases h
  | ok s1 =>
    rw [e1] at h
    simp only [Outcome.bind] at h
    cases e2 : allNeurons g2 s1 with
    | throw w => rw [e2] at h; cases h
    | ub => rw [e2] at h; cases h
    | ok s2 =>
      rw [e2] at h
      exact neurons_base h3 _ s2 st' h (neurons_base h2 _ s1 s2 e2 (neurons_base h1 l st s1 e1 hI))

omit [Field F] [LinearOrder F] in
theorem refs_base {f1 f2 f3 : List Ref → Res B F × List (RProj F) → Res B F × List (RProj F)} {c : Nat → List Ref}
    (h1 : ∀ i st, J st.1.base → J (f1 i st).1.base) (h2 : ∀ i st, J st.1.base → J (f2 i st).1.base)
    (h3 : ∀ i st, J st.1.base → J (f3 i st).1.base) {l : List Nat} {st st' : Stdp.State B F}
    (h : ((l.foldlM (fun s i => onNeuron (f1 (c i)) s i) st).bind fun s1 =>
      (allNeurons (fun i => f2 (c i)) s1).bind fun s2 => allNeurons (fun i => f3 (c i)) s2) = .ok st')
    (hI : ∀ n ∈ st.neurons, J n.base) : ∀ n ∈ st'.neurons, J n.base :=
  three_base (g1 := fun i => f1 (c i)) (g2 := fun i => f2 (c i)) (g3 := fun i => f3 (c i)) (fun i => h1 (c i)) (fun i => h2 (c i))
    (fun i => h3 (c i)) h hI

theorem train_three {o : Ops F} {bo : BaseOps B F} {uid : UID} {spikes : List Nat} {step : Nat} {st : Stdp.State B F} :
    train o bo uid spikes step st =
      ((spikes.foldlM (fun s i => onNeuron (processNeuron o bo step (connected uid st.projs i)) s i) st).bind fun s1 =>
      (allNeurons (fun i => dopNeuron o bo step (connected uid st.projs i)) s1).bind fun s2 =>
        allNeurons (fun i => renormNeuron o step (connected uid st.projs i)) s2) := by
  unfold train processSpikes
  rfl

theorem train_base {o : Ops F} {bo : BaseOps B F} (hb : ∀ x a, J x → J (bo.setAdditional x a)) {uid : UID} {spikes : List Nat}
    {step : Nat} {st st' : Stdp.State B F} (h : train o bo uid spikes step st = .ok st') (hI : ∀ n ∈ st.neurons, J n.base) :
    ∀ n ∈ st'.neurons, J n.base :=
  refs_base (f1 := processNeuron o bo step) (f2 := dopNeuron o bo step) (f3 := renormNeuron o step) (c := connected uid st.projs)
    (process_base hb step) (dop_base step) (renorm_base step) (train_three.symm.trans h) hI

theorem trainM_in (o : Ops F) (t : Nat) (p : Pop N B F) (js : List (Proj F)) (s : Option SpikeMessage) (hp : PopSteady I J p)
    (h : Fine p s) : ∃ p1 js1, trainM o t p js s = .ok (p1, js1) ∧ StableIn I J p p1 := by
  cases p with
  | plain u k ns => exact ⟨_, _, rfl, rfl, rfl, fun _ _ => Iff.rfl, hp⟩
  | trained u k b ns =>
    obtain ⟨st, hst⟩ := train_total (o := o) (bo := b) (uid := u) (step := t) (st := ⟨ns, js.map Proj.toR⟩) (spikes := spikedIn s) h.2
    have ht : trainM o t (.trained (N := N) u k b ns) js s = .ok (.trained u k b st.neurons, putAll js st.projs) := by
      unfold trainM; simp only [hst]
    exact ⟨_, _, ht, rfl, (trainM_facts ht).2.1, fun _ _ => Iff.rfl, hp.1, hp.2.1, train_base hp.2.1 hst hp.2.2⟩

theorem popStep_in (o : Ops F) (t : Nat) (p : Pop N B F) (js : List (Proj F)) (ms : List (SynapticImpactMessage F))
    (hp : PopSteady I J p) (h : ∀ m ∈ ms, ∀ i ∈ m.impacts, AccIn I J p i) :
    ∃ p1 js1 s, popStep o t p js ms = .ok ((p1, js1), s) ∧ StableIn I J p p1 := by
  obtain ⟨p0, s, h1, s1⟩ := computeS_in t p ms hp h
  obtain ⟨p1, js1, h2, s2⟩ := trainM_in o t p0 js s s1.steady (computeS_facts t p p0 ms s h1).2.2.2
  exact ⟨p1, js1, s, popStep_join h1 h2, s1.trans s2⟩

theorem learnPops_in (o : Ops F) (t : Nat) (given : UID → List (SynapticImpactMessage F)) : ∀ (ps : List (Pop N B F))
    (js : List (Proj F)), (∀ p ∈ ps, PopSteady I J p ∧ ∀ m ∈ given p.uid, ∀ i ∈ m.impacts, AccIn I J p i) →
    ∃ ps' js' ss, learnPops (machine o) t given ps js = .ok ((ps', js'), ss) ∧ List.Forall₂ (StableIn I J) ps ps' := by
  intro ps
  induction ps with
  | nil => intro js _; exact ⟨[], js, [], rfl, .nil⟩
  | cons p ps ih =>
    intro js h
    obtain ⟨p1, js1, s, h1, s1⟩ := popStep_in o t p js _ (h p (by simp)).1 (h p (by simp)).2
    obtain ⟨ps', js', ss, h2, s2⟩ := ih js1 (fun q hq => h q (by simp [hq]))
    have h1' : (machine (N := N) (B := B) o).popStep t p js (given ((machine o).popUid p)) = .ok ((p1, js1), s) := h1
    refine ⟨p1 :: ps', js', s.toList ++ ss, ?_, .cons s1 s2⟩
    unfold learnPops
    rw [h1']
    simp only [h2]

/-! ## Runs -/

omit [Field F] [LinearOrder F] in
theorem stableIn_trans {a b d : List (Pop N B F)} (h : List.Forall₂ (StableIn I J) a b) (h' : List.Forall₂ (StableIn I J) b d) :
    List.Forall₂ (StableIn I J) a d := by
  induction h generalizing d with
  | nil => exact h'
  | cons h _ ih =>
    cases h' with
    | cons h1 h2 => exact .cons (h.trans h1) (ih h2)

variable (I J) in
/-- What is harmless for the populations the network started with. -/
def okIn (H : Hearing) (pops : List (Pop N B F)) (u : UID) (i : SynapticImpact F) : Prop :=
  ∀ p ∈ pops, H.impact p.uid u = true → AccIn I J p i

omit [Field F] [LinearOrder F] in
theorem given_in {H : Hearing} {pops0 pops : List (Pop N B F)} (hst : List.Forall₂ (StableIn I J) pops0 pops)
    {pending : List (SynapticImpactMessage F)} (hp : ∀ m ∈ pending, Fits (okIn I J H pops0) m) :
    ∀ p ∈ pops, PopSteady I J p ∧ ∀ m ∈ pending.filter (fun x => H.impact p.uid x.header.senderUid), ∀ i ∈ m.impacts, AccIn I J p i := by
  intro p hpm
  obtain ⟨n, hn⟩ := List.getElem?_of_mem hpm
  have hlt : n < pops0.length := by rw [hst.length_eq]; exact (List.getElem?_eq_some_iff.1 hn).1
  have hs := forall₂_get hst n _ p (List.getElem?_eq_getElem hlt) hn
  refine ⟨hs.steady, ?_⟩
  intro m hm i hi
  obtain ⟨m1, m2⟩ := List.mem_filter.1 hm
  exact hs.acc (hp m m1 i hi _ (List.getElem_mem hlt) (by rw [← hs.uid]; exact m2))

theorem learnStep_in {o : Ops F} {H : Hearing} {t : Nat} {pops0 pops : List (Pop N B F)} {projs : List (Proj F)}
    {pending : List (SynapticImpactMessage F)} {ext : List (Message F)} (hst : List.Forall₂ (StableIn I J) pops0 pops)
    (hj : ∀ j ∈ projs, JSafe (okIn I J H pops0) (fun w v => v = w) j) (hp : ∀ m ∈ pending, Fits (okIn I J H pops0) m)
    (he : impactsIn ext = []) :
    ∃ st out, learnStep (machine o) H t pops projs pending ext = .ok (st, out) ∧ List.Forall₂ (StableIn I J) pops0 st.1 ∧
      (∀ j ∈ st.2, JSafe (okIn I J H pops0) (fun w v => v = w) j) ∧ ∀ m ∈ out.impacts, Fits (okIn I J H pops0) m := by
  obtain ⟨ps', mids, ss, h1, h2⟩ := learnPops_in (I := I) (J := J) o t
    (fun r => (pending ++ impactsIn ext).filter (fun x => H.impact r x.header.senderUid)) pops projs (by
      rw [he, List.append_nil]; exact given_in hst hp)
  have htr := learnPops_trained _ _ _ _ _ h1
  have hm : ∀ j ∈ mids, JSafe (okIn I J H pops0) (fun w v => v = w) j := by
    intro j hjm
    obtain ⟨i, hi, tr⟩ := allTrained_mem htr hjm
    exact tr.safe (hj i hi)
  refine ⟨_, _, by unfold learnStep; simp only [h1]; rfl, stableIn_trans hst h2, ?_, ?_⟩
  · intro j hjm
    obtain ⟨i, hi, rfl⟩ := List.mem_map.1 hjm
    exact (projStep_safe o t i _ (hm i hi)).2
  · intro m hmm
    obtain ⟨i, hi, hmi⟩ := List.mem_flatMap.1 hmm
    exact (projStep_safe o t i _ (hm i hi)).1 m (Option.mem_toList.1 hmi)

theorem learnRun_in {o : Ops F} {H : Hearing} {pops0 : List (Pop N B F)} : ∀ (exts : List (List (Message F))) (t : Nat)
    (pops : List (Pop N B F)) (projs : List (Proj F)) (pending : List (SynapticImpactMessage F)),
    List.Forall₂ (StableIn I J) pops0 pops → (∀ j ∈ projs, JSafe (okIn I J H pops0) (fun w v => v = w) j) →
    (∀ m ∈ pending, Fits (okIn I J H pops0) m) → (∀ ext ∈ exts, impactsIn ext = []) →
    ∃ st os, learnRun (machine o) H t pops projs pending exts = .ok (st, os) ∧ List.Forall₂ (StableIn I J) pops0 st.1 := by
  intro exts
  induction exts with
  | nil => intro t pops projs pending h1 h2 _ _; exact ⟨(pops, projs), [], rfl, h1⟩
  | cons ext exts ih =>
    intro t pops projs pending h1 h2 h3 h4
    obtain ⟨st, out, a1, a2, a3, a4⟩ := learnStep_in (o := o) (t := t) (ext := ext) h1 h2 h3 (h4 ext (by simp))
    obtain ⟨st', os, b1, b2⟩ := ih (t + 1) st.1 st.2 out.impacts a2 a3 a4 (fun x hx => h4 x (by simp [hx]))
    refine ⟨st', out :: os, ?_, b2⟩
    unfold learnRun
    rw [a1]
    simp only [b1]

/-! ## The start -/

omit [Field F] [LinearOrder F] in
theorem in_safe {out : F → F → Prop} {pops : List (Pop N B F)} {projs : List (Proj F)} (h : ValidNetIn I J out pops projs)
    (inputs : List (UID × UID)) : ∀ j ∈ projs, JSafe (okIn I J (learnHearing projs inputs) pops) out j := by
  intro j hj
  refine ⟨?_, ?_, ?_⟩
  · intro e he; rw [h.queues j hj] at he; simp at he
  · intro e he; rw [h.queues j hj] at he; simp at he
  · intro s hs i h1 h2 h3 p hp hh
    simp only [learnHearing, decide_eq_true_eq] at hh
    obtain ⟨_, j', hj', e1, e2⟩ := hh
    have : j' = j := List.inj_on_of_nodup_map h.projUids hj' hj e2
    subst this
    have hw : j'.syns.view = wired j'.syns := by cases j'.syns <;> rfl
    rw [hw] at hs
    have ht := h.targets j' hj p hp e1.symm s hs
    have hz := h.sizes p hp
    refine ⟨?_, ?_⟩
    · rw [h3, ← size_eq, Nat.mod_eq_of_lt]
      · exact ht
      · exact Nat.lt_of_lt_of_le ht hz
    · rw [h2]
      exact h.types j' hj p hp e1.symm s hs _ (carries_kind h1)

omit [Field F] [LinearOrder F] in
theorem stableIn_self : ∀ (ps : List (Pop N B F)), (∀ p ∈ ps, PopSteady I J p) → List.Forall₂ (StableIn I J) ps ps := by
  intro ps
  induction ps with
  | nil => intro _; exact .nil
  | cons x l ih => intro h; exact .cons ⟨rfl, rfl, fun _ _ => Iff.rfl, h x (by simp)⟩ (ih (fun p hp => h p (by simp [hp])))

end Knp.Learn
