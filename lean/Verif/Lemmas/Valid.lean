import Verif.Spec.Valid
import Verif.Lemmas.LearnMultiTrace

/-! # Lemmas: networks that fit together never fail -/

namespace Knp.Learn
open Knp Knp.Bus Knp.Spec Knp.Neurons Knp.Sys Knp.Stdp Knp.Lemmas.Stdp Knp.Props

variable {N B F : Type}

/-! ## Populations -/

theorem size_eq (p : Pop N B F) : popSize p = p.size := by cases p <;> rfl

/-- The population takes this impact. -/
def Acc (p : Pop N B F) (i : SynapticImpact F) : Prop := i.postsynapticNeuronIndex < p.size ∧ PopTakes p i.synapseType i.impactValue

/-- All impacts of all messages are taken. -/
def AccAll (p : Pop N B F) (ms : List (SynapticImpactMessage F)) : Prop := ∀ m ∈ ms, ∀ i ∈ m.impacts, Acc p i

/-- What a population keeps. -/
structure Stable (p p' : Pop N B F) : Prop where
  uid : p'.uid = p.uid
  size : p'.size = p.size
  takes : ∀ ty v, PopTakes p' ty v ↔ PopTakes p ty v

theorem Stable.refl (p : Pop N B F) : Stable p p := ⟨rfl, rfl, fun _ _ => Iff.rfl⟩

theorem Stable.trans {a b c : Pop N B F} (h : Stable a b) (h' : Stable b c) : Stable a c :=
  ⟨h'.uid.trans h.uid, h'.size.trans h.size, fun ty v => (h'.takes ty v).trans (h.takes ty v)⟩

theorem Stable.acc {p p' : Pop N B F} (h : Stable p p') {i : SynapticImpact F} (ha : Acc p i) : Acc p' i :=
  ⟨by rw [h.size]; exact ha.1, (h.takes _ _).2 ha.2⟩

theorem takes_fold {A : Type} (k : Kind A F) : ∀ (l : List (SynapticImpact F × Bool)) (n : A),
    (∀ x ∈ l, Takes k x.1.synapseType x.1.impactValue) →
    ∃ n', l.foldlM (fun m x => k.impact m x.1 x.2) n = Outcome.ok n' := by
  intro l
  induction l with
  | nil => intro n _; exact ⟨n, rfl⟩
  | cons x l ih =>
    intro n h
    have h1 := h x (by simp) n x.1 x.2 rfl rfl
    cases hk : k.impact n x.1 x.2 with
    | throw w => rw [hk] at h1; cases h1
    | ub => rw [hk] at h1; cases h1
    | ok n1 =>
      obtain ⟨n', hn⟩ := ih n1 (fun y hy => h y (by simp [hy]))
      exact ⟨n', by rw [List.foldlM_cons, hk]; exact hn⟩

theorem step_takes {A : Type} (k : Kind A F) (u : UID) (t : Nat) (ns : List A) (ms : List (SynapticImpactMessage F))
    (h : ∀ m ∈ ms, ∀ i ∈ m.impacts, i.postsynapticNeuronIndex < ns.length ∧ Takes k i.synapseType i.impactValue) :
    ∃ r, stepPopulation k u t ns ms = .ok r := by
  have hok := (C55_total k u t ns ms).2 ⟨fun m hm i hi => (h m hm i hi).1, ?_⟩
  · cases hs : stepPopulation k u t ns ms with
    | throw w => rw [hs] at hok; cases hok
    | ub => rw [hs] at hok; cases hok
    | ok r => exact ⟨r, rfl⟩
  · intro i n _
    obtain ⟨n', hn⟩ := takes_fold k (addressed i ms) (k.pre n) (by
      intro x hx
      unfold addressed at hx
      simp only [List.mem_flatMap, List.mem_map, List.mem_filter] at hx
      obtain ⟨m, hm, y, ⟨hy, _⟩, rfl⟩ := hx
      exact (h m hm y hy).2)
    unfold neuronStep
    rw [hn]
    rfl

theorem computeS_valid (t : Nat) (p : Pop N B F) (ms : List (SynapticImpactMessage F)) (h : AccAll p ms) :
    ∃ p1 s, computeS t p ms = .ok (p1, s) ∧ Stable p p1 := by
  cases p with
  | plain u k ns =>
    obtain ⟨r, hr⟩ := step_takes k u t ns ms h
    have hc : computeS t (.plain (B := B) u k ns) ms = .ok (.plain u k r.1, r.2) := by unfold computeS; simp only [hr, computed]
    refine ⟨_, _, hc, ⟨rfl, (computeS_facts t _ _ _ _ hc).2.1, fun _ _ => Iff.rfl⟩⟩
  | trained u k b ns =>
    obtain ⟨r, hr⟩ := step_takes k u t ns ms h
    have hc : computeS t (.trained (N := N) u k b ns) ms = .ok (.trained u k b r.1, r.2) := by unfold computeS; simp only [hr, computed]
    refine ⟨_, _, hc, ⟨rfl, (computeS_facts t _ _ _ _ hc).2.1, fun _ _ => Iff.rfl⟩⟩

theorem computeS_stable {t : Nat} {p p1 : Pop N B F} {ms : List (SynapticImpactMessage F)} {s : Option SpikeMessage}
    (h : computeS t p ms = .ok (p1, s)) : Stable p p1 := by
  refine ⟨(computeS_facts t p p1 ms s h).1, (computeS_facts t p p1 ms s h).2.1, ?_⟩
  cases p with
  | plain u k ns =>
    simp only [computeS] at h
    cases hs : stepPopulation k u t ns ms <;> rw [hs] at h <;> cases h
    exact fun _ _ => Iff.rfl
  | trained u k b ns =>
    simp only [computeS] at h
    cases hs : stepPopulation k u t ns ms <;> rw [hs] at h <;> cases h
    exact fun _ _ => Iff.rfl

variable [Field F] [LinearOrder F]

theorem trainM_valid (o : Ops F) (t : Nat) (p : Pop N B F) (js : List (Proj F)) (s : Option SpikeMessage) (h : Fine p s) :
    ∃ p1 js1, trainM o t p js s = .ok (p1, js1) ∧ Stable p p1 := by
  cases p with
  | plain u k ns => exact ⟨_, _, rfl, Stable.refl _⟩
  | trained u k b ns =>
    obtain ⟨st, hst⟩ := train_total (o := o) (bo := b) (uid := u) (step := t) (st := ⟨ns, js.map Proj.toR⟩) (spikes := spikedIn s) h.2
    have ht : trainM o t (.trained (N := N) u k b ns) js s = .ok (.trained u k b st.neurons, putAll js st.projs) := by
      unfold trainM; simp only [hst]
    exact ⟨_, _, ht, rfl, (trainM_facts ht).2.1, fun _ _ => Iff.rfl⟩

theorem trainM_stable {o : Ops F} {t : Nat} {p p1 : Pop N B F} {js js1 : List (Proj F)} {s : Option SpikeMessage}
    (h : trainM o t p js s = .ok (p1, js1)) : Stable p p1 := by
  refine ⟨(trainM_facts h).1, (trainM_facts h).2.1, ?_⟩
  cases p with
  | plain u k ns => cases h; exact fun _ _ => Iff.rfl
  | trained u k b ns =>
    simp only [trainM] at h
    cases hs : train o b u (spikedIn s) t ⟨ns, js.map Proj.toR⟩ <;> rw [hs] at h <;> cases h
    exact fun _ _ => Iff.rfl

theorem popStep_join {o : Ops F} {t : Nat} {p p0 p1 : Pop N B F} {js js1 : List (Proj F)} {ms : List (SynapticImpactMessage F)}
    {s : Option SpikeMessage} (h1 : computeS t p ms = .ok (p0, s)) (h2 : trainM o t p0 js s = .ok (p1, js1)) :
    popStep o t p js ms = .ok ((p1, js1), s) := by
  cases p with
  | plain u k ns =>
    simp only [computeS] at h1
    cases hs : stepPopulation k u t ns ms <;> rw [hs] at h1 <;> cases h1
    cases h2
    simp only [popStep, hs]
  | trained u k b ns =>
    simp only [computeS] at h1
    cases hs : stepPopulation k u t ns ms with
    | throw w => rw [hs] at h1; cases h1
    | ub => rw [hs] at h1; cases h1
    | ok r =>
      rw [hs] at h1
      simp only [computed, Outcome.ok.injEq, Prod.mk.injEq] at h1
      obtain ⟨rfl, rfl⟩ := h1
      simp only [trainM] at h2
      cases ht : train o b u (spikedIn r.2) t ⟨r.1, js.map Proj.toR⟩ with
      | throw w => rw [ht] at h2; cases h2
      | ub => rw [ht] at h2; cases h2
      | ok st =>
        rw [ht] at h2
        simp only [Outcome.ok.injEq, Prod.mk.injEq] at h2
        simp only [popStep, hs, ht, h2.1, h2.2]

theorem popStep_valid (o : Ops F) (t : Nat) (p : Pop N B F) (js : List (Proj F)) (ms : List (SynapticImpactMessage F))
    (h : AccAll p ms) : ∃ p1 js1 s, popStep o t p js ms = .ok ((p1, js1), s) ∧ Stable p p1 := by
  obtain ⟨p0, s, h1, s1⟩ := computeS_valid t p ms h
  obtain ⟨p1, js1, h2, s2⟩ := trainM_valid o t p0 js s (computeS_facts t p p0 ms s h1).2.2.2
  exact ⟨p1, js1, s, popStep_join h1 h2, s1.trans s2⟩

theorem learnPops_valid (o : Ops F) (t : Nat) (given : UID → List (SynapticImpactMessage F)) : ∀ (ps : List (Pop N B F))
    (js : List (Proj F)), (∀ p ∈ ps, AccAll p (given p.uid)) →
    ∃ ps' js' ss, learnPops (machine o) t given ps js = .ok ((ps', js'), ss) ∧ List.Forall₂ Stable ps ps' := by
  intro ps
  induction ps with
  | nil => intro js _; exact ⟨[], js, [], rfl, .nil⟩
  | cons p ps ih =>
    intro js h
    obtain ⟨p1, js1, s, h1, s1⟩ := popStep_valid o t p js _ (h p (by simp))
    obtain ⟨ps', js', ss, h2, s2⟩ := ih js1 (fun q hq => h q (by simp [hq]))
    have h1' : (machine (N := N) (B := B) o).popStep t p js (given ((machine o).popUid p)) = .ok ((p1, js1), s) := h1
    refine ⟨p1 :: ps', js', s.toList ++ ss, ?_, .cons s1 s2⟩
    unfold learnPops
    rw [h1']
    simp only [h2]

/-! ## Projections -/

/-- The projection sends only impacts that are `ok`: what waits in its queue is, and what its synapses can make is. -/
structure JSafe (ok : UID → SynapticImpact F → Prop) (out : F → F → Prop) (j : Proj F) : Prop where
  sender : QueueOk j
  queue : ∀ e ∈ j.queue, ∀ i ∈ e.2.impacts, ok j.ident.uid i
  syns : ∀ s ∈ j.syns.view.synapses, ∀ i : SynapticImpact F, (kindOf j.syns = 0 → out s.weight i.impactValue) →
    i.synapseType = s.outType → i.postsynapticNeuronIndex = s.target % Delta.two32 → ok j.ident.uid i

/-- The message is harmless. -/
def Fits (ok : UID → SynapticImpact F → Prop) (m : SynapticImpactMessage F) : Prop := ∀ i ∈ m.impacts, ok m.header.senderUid i

omit [Field F] [LinearOrder F] in
theorem qPush_impacts {ok : SynapticImpact F → Prop} {mk : SynapticImpact F → SynapticImpactMessage F} {key : Nat} {im : SynapticImpact F}
    (hmk : (mk im).impacts = [im]) (him : ok im) : ∀ q : Delta.Queue F, (∀ e ∈ q, ∀ i ∈ e.2.impacts, ok i) →
    ∀ e ∈ Delta.qPush mk key im q, ∀ i ∈ e.2.impacts, ok i := by
  intro q
  induction q with
  | nil =>
    intro _ e he i hi
    simp only [Delta.qPush, List.mem_singleton] at he
    rw [he] at hi
    simp only [hmk, List.mem_singleton] at hi
    rw [hi]; exact him
  | cons a q ih =>
    intro h e he
    obtain ⟨k, m⟩ := a
    unfold Delta.qPush at he
    by_cases hk : k = key
    · rw [if_pos hk] at he
      rcases List.mem_cons.1 he with rfl | he
      · intro i hi
        simp only [List.mem_append, List.mem_singleton] at hi
        rcases hi with hi | rfl
        · exact h (k, m) (by simp) i hi
        · exact him
      · exact h e (by simp [he])
    · rw [if_neg hk] at he
      rcases List.mem_cons.1 he with rfl | he
      · exact h (k, m) (by simp)
      · exact ih (fun e he => h e (by simp [he])) e he

omit [Field F] [LinearOrder F] in
theorem take_impacts {ok : SynapticImpact F → Prop} {q : Delta.Queue F} (t : Nat) (h : ∀ e ∈ q, ∀ i ∈ e.2.impacts, ok i) :
    (∀ m, Delta.qFind q t = some m → ∀ i ∈ m.impacts, ok i) ∧ ∀ e ∈ Delta.qErase q t, ∀ i ∈ e.2.impacts, ok i := by
  refine ⟨fun m hf => ?_, fun e he => h e (List.mem_filter.1 he).1⟩
  unfold Delta.qFind at hf
  obtain ⟨e, he, rfl⟩ := Option.map_eq_some_iff.1 hf
  exact h e (List.mem_of_find?_eq_some he)

omit [Field F] [LinearOrder F] in
theorem stepSingle_impacts {ok : SynapticImpact F → Prop} (d : Delta.Ident) (p : Delta.Proj F) (t : Nat) (q : Delta.Queue F)
    (ms : List SpikeMessage) (h : ∀ e ∈ q, ∀ i ∈ e.2.impacts, ok i)
    (hs : ∀ (k : Nat) (s : Delta.Syn F), s ∈ p.synapses → ok (Delta.impactOf k s)) :
    (∀ m ∈ (Delta.stepSingle d p t q ms).1, ∀ i ∈ m.impacts, ok i) ∧
    (∀ e ∈ (Delta.stepSingle d p t q ms).2, ∀ i ∈ e.2.impacts, ok i) := by
  have h1 : ∀ e ∈ Delta.calcSingle d p t q ms, ∀ i ∈ e.2.impacts, ok i := by
    unfold Delta.calcSingle
    refine foldl_keeps (fun q : Delta.Queue F => ∀ e ∈ q, ∀ i ∈ e.2.impacts, ok i) _ ?_ _ _ h
    intro q m hq
    refine foldl_keeps (fun q : Delta.Queue F => ∀ e ∈ q, ∀ i ∈ e.2.impacts, ok i) _ ?_ _ _ hq
    intro q n hq
    unfold Delta.pushSpike
    refine foldl_keeps (fun q : Delta.Queue F => ∀ e ∈ q, ∀ i ∈ e.2.impacts, ok i) _ ?_ _ _ hq
    intro q k hq
    split
    · rename_i s hk
      exact qPush_impacts rfl (hs k s (List.mem_of_getElem? hk)) q hq
    · exact hq
  unfold Delta.stepSingle
  simp only
  obtain ⟨a, b⟩ := take_impacts t h1
  cases hf : Delta.qFind (Delta.calcSingle d p t q ms) t with
  | none => exact ⟨fun m hm => (by cases hm), h1⟩
  | some m =>
    refine ⟨fun m' hm => ?_, b⟩
    simp only [Option.mem_def, Option.some.injEq] at hm
    subst hm
    exact a m hf

omit [Field F] [LinearOrder F] in
theorem stepMulti_impacts {ok : SynapticImpact F → Prop} (d : Delta.Ident) (t : Nat) (q : Delta.Queue F)
    (ts : List (List (Nat × SynapticImpact F))) (h : ∀ e ∈ q, ∀ i ∈ e.2.impacts, ok i)
    (hs : ∀ c ∈ ts, ∀ e ∈ c, ok e.2) :
    (∀ m ∈ (Delta.stepMulti d t q ts).1, ∀ i ∈ m.impacts, ok i) ∧
    (∀ e ∈ (Delta.stepMulti d t q ts).2, ∀ i ∈ e.2.impacts, ok i) := by
  have h1 : ∀ e ∈ ts.foldl (Delta.mergeContainer d t) q, ∀ i ∈ e.2.impacts, ok i := by
    induction ts generalizing q with
    | nil => exact h
    | cons c ts ih =>
      refine ih _ ?_ (fun c hc => hs c (by simp [hc]))
      unfold Delta.mergeContainer
      have hc := hs c (by simp)
      clear hs ih
      induction c generalizing q with
      | nil => exact h
      | cons e c ih2 => exact ih2 _ (qPush_impacts rfl (hc e (by simp)) q h) (fun x hx => hc x (by simp [hx]))
  unfold Delta.stepMulti
  simp only
  obtain ⟨a, b⟩ := take_impacts t h1
  cases hf : Delta.qFind (ts.foldl (Delta.mergeContainer d t) q) t with
  | none => exact ⟨fun m hm => (by cases hm), h1⟩
  | some m =>
    refine ⟨fun m' hm => ?_, b⟩
    simp only [Option.mem_def, Option.some.injEq] at hm
    subst hm
    exact a m hf

omit [Field F] [LinearOrder F] in
/-- What the synapses can make depends on ends, types and, for plain synapses, weights. -/
theorem safe_syns {ok : UID → SynapticImpact F → Prop} {out : F → F → Prop} {j j' : Proj F} (h : JSafe ok out j)
    (hi : j'.ident = j.ident) (hsk : skeleton j'.syns.view = skeleton j.syns.view)
    (hd : kindOf j.syns = 0 → j'.syns = j.syns) :
    ∀ s ∈ j'.syns.view.synapses, ∀ i : SynapticImpact F, (kindOf j'.syns = 0 → out s.weight i.impactValue) →
    i.synapseType = s.outType → i.postsynapticNeuronIndex = s.target % Delta.two32 → ok j'.ident.uid i := by
  intro s hs i h1 h2 h3
  rw [hi]
  by_cases h0 : kindOf j.syns = 0
  · rw [hd h0] at hs h1
    exact h.syns s hs i h1 h2 h3
  · obtain ⟨k, hk'⟩ := List.getElem?_of_mem hs
    obtain ⟨s', g1, _, g3, _, g5⟩ := skeleton_get hsk.symm hk'
    exact h.syns s' (List.mem_of_getElem? g1) i (fun e => absurd e h0) (by rw [g5]; exact h2) (by rw [g3]; exact h3)

theorem Trained.safe {ok : UID → SynapticImpact F → Prop} {out : F → F → Prop} {o : Ops F} {j j' : Proj F} (h : Trained o j j')
    (hs : JSafe ok out j) : JSafe ok out j' := by
  refine ⟨h.queueOk hs.sender, by rw [h.queue, h.ident]; exact hs.queue, safe_syns hs h.ident h.skeleton ?_⟩
  intro h0
  have : j' = j := h.other (by intro a b c d he; rw [he] at h0; cases h0)
  rw [this]

theorem projStep_safe {ok : UID → SynapticImpact F → Prop} (o : Ops F) (t : Nat) (j : Proj F) (ms : List SpikeMessage)
    (h : JSafe ok (fun w v => v = w) j) :
    (∀ m ∈ (projStep o t j ms).2, Fits ok m) ∧ JSafe ok (fun w v => v = w) (projStep o t j ms).1 := by
  obtain ⟨e1, e2⟩ := projStep_out o t j ms
  obtain ⟨q1, q2⟩ := projStep_queueOk o t j ms h.sender
  obtain ⟨a, b⟩ := stepSingle_impacts (ok := ok j.ident.uid) j.ident (used j ms).proj t j.queue (used j ms).msgs h.queue (by
    intro k s hs
    rw [used_proj] at hs
    exact h.syns s hs _ (fun _ => rfl) rfl rfl)
  refine ⟨?_, q2, ?_, safe_syns h (projStep_ident o t j ms).1 (projStep_skeleton o t j ms) ?_⟩
  · intro m hm i hi
    rw [q1 m hm]
    rw [e1] at hm
    exact a m hm i hi
  · rw [e2, (projStep_ident o t j ms).1]; exact b
  · intro h0
    cases hs : j.syns with
    | delta p => unfold projStep; rw [hs]
    | resource a b c d => rw [hs] at h0; cases h0
    | additive a b c d => rw [hs] at h0; cases h0

omit [Field F] [LinearOrder F] in
theorem tasks_impacts {ok : SynapticImpact F → Prop} (scale : F → Nat → F) (p : Delta.Proj F) (t part : Nat) (ms : List SpikeMessage)
    (hs : ∀ (k n : Nat) (s : Delta.Syn F), s ∈ p.synapses → ok { Delta.impactOf k s with impactValue := scale s.weight n }) :
    ∀ c ∈ Delta.tasks scale p t part ms, ∀ e ∈ c, ok e.2 := by
  intro c hc e he
  unfold Delta.tasks at hc
  split at hc
  · simp at hc
  · split at hc
    · simp at hc
    · obtain ⟨lo, _, rfl⟩ := List.mem_map.1 hc
      unfold Delta.partContainer at he
      obtain ⟨k, _, hk⟩ := List.mem_filterMap.1 he
      split at hk
      · cases hk
      · rename_i s hs'
        split at hk
        · cases hk
        · rw [Option.some.injEq] at hk
          rw [← hk]
          exact hs _ _ s (List.mem_of_getElem? hs')

omit [Field F] [LinearOrder F] in
theorem StepsM.safe {ok : UID → SynapticImpact F → Prop} {c : Config F} {t : Nat} {j j' : Proj F} {ms : List SpikeMessage}
    {out : Option (SynapticImpactMessage F)} (h : StepsM c t j ms j' out) (hj : JSafe ok (fun w v => ∃ n, v = c.scale w n) j) :
    (∀ m ∈ out, Fits ok m) ∧ JSafe ok (fun w v => ∃ n, v = c.scale w n) j' := by
  obtain ⟨ts, h1, h2, h3⟩ := h.tasks
  obtain ⟨q1, q2⟩ := h.queueOk hj.sender
  have hts := tasks_impacts (ok := ok j.ident.uid) c.scale j.syns.view t c.projPart ms (by
    intro k n s hs
    exact hj.syns s hs _ (fun _ => ⟨n, rfl⟩) rfl rfl)
  obtain ⟨a, b⟩ := stepMulti_impacts (ok := ok j.ident.uid) j.ident t j.queue ts hj.queue
    (fun x hx => hts x (h1.mem_iff.1 hx))
  refine ⟨?_, q2, by rw [h3, h.ident]; exact b, safe_syns hj h.ident (by rw [h.view]) ?_⟩
  · intro m hm i hi
    rw [q1 m hm]
    rw [h2] at hm
    exact a m hm i hi
  · intro h0
    cases hs : j.syns with
    | delta p => exact h.delta p hs
    | resource a b c d => rw [hs] at h0; cases h0
    | additive a b c d => rw [hs] at h0; cases h0

/-! ## Runs on one thread -/

omit [Field F] [LinearOrder F] in
theorem stable_trans {a b d : List (Pop N B F)} (h : List.Forall₂ Stable a b) (h' : List.Forall₂ Stable b d) : List.Forall₂ Stable a d := by
  induction h generalizing d with
  | nil => exact h'
  | cons h _ ih =>
    cases h' with
    | cons h1 h2 => exact .cons (h.trans h1) (ih h2)

/-- What is harmless for the populations the network started with. -/
def okFor (H : Hearing) (pops : List (Pop N B F)) (u : UID) (i : SynapticImpact F) : Prop :=
  ∀ p ∈ pops, H.impact p.uid u = true → Acc p i

omit [Field F] [LinearOrder F] in
theorem given_acc {H : Hearing} {pops0 pops : List (Pop N B F)} (hst : List.Forall₂ Stable pops0 pops)
    {pending : List (SynapticImpactMessage F)} (hp : ∀ m ∈ pending, Fits (okFor H pops0) m) :
    ∀ p ∈ pops, AccAll p (pending.filter (fun x => H.impact p.uid x.header.senderUid)) := by
  intro p hpm m hm i hi
  obtain ⟨m1, m2⟩ := List.mem_filter.1 hm
  obtain ⟨n, hn⟩ := List.getElem?_of_mem hpm
  have hlt : n < pops0.length := by rw [hst.length_eq]; exact (List.getElem?_eq_some_iff.1 hn).1
  have hs := forall₂_get hst n _ p (List.getElem?_eq_getElem hlt) hn
  exact hs.acc (hp m m1 i hi _ (List.getElem_mem hlt) (by rw [← hs.uid]; exact m2))

theorem learnStep_valid {o : Ops F} {H : Hearing} {t : Nat} {pops0 pops : List (Pop N B F)} {projs : List (Proj F)}
    {pending : List (SynapticImpactMessage F)} {ext : List (Message F)} (hst : List.Forall₂ Stable pops0 pops)
    (hj : ∀ j ∈ projs, JSafe (okFor H pops0) (fun w v => v = w) j) (hp : ∀ m ∈ pending, Fits (okFor H pops0) m)
    (he : impactsIn ext = []) :
    ∃ st out, learnStep (machine o) H t pops projs pending ext = .ok (st, out) ∧ List.Forall₂ Stable pops0 st.1 ∧
      (∀ j ∈ st.2, JSafe (okFor H pops0) (fun w v => v = w) j) ∧ ∀ m ∈ out.impacts, Fits (okFor H pops0) m := by
  obtain ⟨ps', mids, ss, h1, h2⟩ := learnPops_valid o t
    (fun r => (pending ++ impactsIn ext).filter (fun x => H.impact r x.header.senderUid)) pops projs (by
      rw [he, List.append_nil]; exact given_acc hst hp)
  have htr := learnPops_trained _ _ _ _ _ h1
  have hm : ∀ j ∈ mids, JSafe (okFor H pops0) (fun w v => v = w) j := by
    intro j hjm
    obtain ⟨i, hi, tr⟩ := allTrained_mem htr hjm
    exact tr.safe (hj i hi)
  refine ⟨_, _, by unfold learnStep; simp only [h1]; rfl, stable_trans hst h2, ?_, ?_⟩
  · intro j hjm
    obtain ⟨i, hi, rfl⟩ := List.mem_map.1 hjm
    exact (projStep_safe o t i _ (hm i hi)).2
  · intro m hmm
    obtain ⟨i, hi, hmi⟩ := List.mem_flatMap.1 hmm
    exact (projStep_safe o t i _ (hm i hi)).1 m (Option.mem_toList.1 hmi)

theorem learnRun_valid {o : Ops F} {H : Hearing} {pops0 : List (Pop N B F)} : ∀ (exts : List (List (Message F))) (t : Nat)
    (pops : List (Pop N B F)) (projs : List (Proj F)) (pending : List (SynapticImpactMessage F)),
    List.Forall₂ Stable pops0 pops → (∀ j ∈ projs, JSafe (okFor H pops0) (fun w v => v = w) j) →
    (∀ m ∈ pending, Fits (okFor H pops0) m) → (∀ ext ∈ exts, impactsIn ext = []) →
    ∃ st os, learnRun (machine o) H t pops projs pending exts = .ok (st, os) ∧ List.Forall₂ Stable pops0 st.1 ∧
      ∀ j ∈ st.2, JSafe (okFor H pops0) (fun w v => v = w) j := by
  intro exts
  induction exts with
  | nil => intro t pops projs pending h1 h2 _ _; exact ⟨(pops, projs), [], rfl, h1, h2⟩
  | cons ext exts ih =>
    intro t pops projs pending h1 h2 h3 h4
    obtain ⟨st, out, a1, a2, a3, a4⟩ := learnStep_valid (o := o) (t := t) (ext := ext) h1 h2 h3 (h4 ext (by simp))
    obtain ⟨st', os, b1, b2⟩ := ih (t + 1) st.1 st.2 out.impacts a2 a3 a4 (fun x hx => h4 x (by simp [hx]))
    refine ⟨st', out :: os, ?_, b2⟩
    unfold learnRun
    rw [a1]
    simp only [b1]

/-! ## Runs on several threads -/

omit [Field F] [LinearOrder F] in
theorem computeM_valid (c : Config F) (hc : 1 ≤ c.popPart ∧ c.popPart < two64) (t : Nat) (p : Pop N B F) (hp : p.size ≤ 2 ^ 63)
    (ms : List (SynapticImpactMessage F)) (h : AccAll p ms) (sc : List Nat × List Nat) (r : Outcome (Pop N B F × Option SpikeMessage))
    (hr : computeM c t p ms sc = some r) : ∃ p1 s, r = .ok (p1, s) ∧ Stable p p1 ∧ Fine p1 s := by
  obtain ⟨p1, s, h1, h2⟩ := computeS_valid t p ms h
  have hn := computeM_near c hc t p hp ms sc r hr
  rw [h1] at hn
  cases r with
  | throw w => exact hn.elim
  | ub => exact hn.elim
  | ok x =>
    obtain ⟨e1, e2⟩ := hn
    refine ⟨x.1, x.2, rfl, by rw [e1]; exact h2, ?_⟩
    rw [e1]
    exact ((computeS_facts t p p1 ms s h1).2.2.2).same (SameSpikes.symm e2)

theorem computeAll_valid (o : Ops F) (c : Config F) (hc : 1 ≤ c.popPart ∧ c.popPart < two64) (t : Nat)
    (G : UID → List (SynapticImpactMessage F)) : ∀ (pops : List (Pop N B F)) (scs : List (List Nat × List Nat))
    (r : Outcome (List (Pop N B F) × List (Option SpikeMessage))), (∀ p ∈ pops, p.size ≤ 2 ^ 63) →
    (∀ p ∈ pops, AccAll p (G p.uid)) → computeAll (machine o) (threads o c) t G pops scs = some r →
    ∃ ps ss, r = .ok (ps, ss) ∧ List.Forall₂ Stable pops ps ∧ List.Forall₂ Fine ps ss := by
  intro pops
  induction pops with
  | nil =>
    intro scs r _ _ h
    cases scs with
    | nil => cases h; exact ⟨[], [], rfl, .nil, .nil⟩
    | cons a b => cases h
  | cons p pops ih =>
    intro scs r hsz ha h
    cases scs with
    | nil => cases h
    | cons sc scs =>
      unfold computeAll at h
      cases h1 : (threads o c).compute t p (G ((machine (N := N) (B := B) o).popUid p)) sc with
      | none => rw [h1] at h; cases h
      | some x =>
        obtain ⟨p1, s, rfl, s1, f1⟩ := computeM_valid c hc t p (hsz p (by simp)) _ (ha p (by simp)) sc x h1
        rw [h1] at h
        simp only at h
        cases h2 : computeAll (machine o) (threads o c) t G pops scs with
        | none => rw [h2] at h; cases h
        | some y =>
          obtain ⟨ps, ss, rfl, s2, f2⟩ := ih scs y (fun q hq => hsz q (by simp [hq])) (fun q hq => ha q (by simp [hq])) h2
          rw [h2] at h
          simp only [Option.some.injEq] at h
          exact ⟨p1 :: ps, s :: ss, h.symm, .cons s1 s2, .cons f1 f2⟩

omit [Field F] [LinearOrder F] in
theorem stable_set {l : List (Pop N B F)} {k : Nat} {p p1 : Pop N B F} (hp : l[k]? = some p) (hs : Stable p p1) :
    List.Forall₂ Stable l (l.set k p1) := by
  induction l generalizing k with
  | nil => simp at hp
  | cons a l ih =>
    have hr : ∀ l : List (Pop N B F), List.Forall₂ Stable l l := fun l => by
      induction l with
      | nil => exact .nil
      | cons x l ihl => exact .cons (Stable.refl x) ihl
    cases k with
    | zero =>
      simp only [List.getElem?_cons_zero, Option.some.injEq] at hp
      subst hp
      exact .cons hs (hr l)
    | succ k => exact .cons (Stable.refl a) (ih (by simpa using hp))

theorem tasks_valid (o : Ops F) (c : Config F) (t : Nat) (ss : List (Option SpikeMessage)) : ∀ (l : List Nat)
    (st : List (Pop N B F) × List (Proj F)), List.Forall₂ Fine st.1 ss →
    ∃ st', l.foldlM (trainTask (threads o c) t ss) st = .ok st' ∧ List.Forall₂ Stable st.1 st'.1 ∧ AllTrained o st.2 st'.2 := by
  intro l
  induction l with
  | nil =>
    intro st _
    refine ⟨st, rfl, ?_, AllTrained.refl o _⟩
    generalize st.1 = ps
    induction ps with
    | nil => exact .nil
    | cons x l ihl => exact .cons (Stable.refl x) ihl
  | cons k l ih =>
    intro st hf
    cases hp : st.1[k]? with
    | none =>
      obtain ⟨st', h1, h2⟩ := ih st hf
      exact ⟨st', by rw [List.foldlM_cons, trainTask_none _ _ _ _ _ (Or.inl hp)]; exact h1, h2⟩
    | some p =>
      cases hs : ss[k]? with
      | none =>
        obtain ⟨st', h1, h2⟩ := ih st hf
        exact ⟨st', by rw [List.foldlM_cons, trainTask_none _ _ _ _ _ (Or.inr hs)]; exact h1, h2⟩
      | some s =>
        obtain ⟨p1, js1, h1, s1⟩ := trainM_valid o t p st.2 s (forall₂_get hf k p s hp hs)
        have hf' : List.Forall₂ Fine (st.1.set k p1) ss :=
          forall₂_set hf k p p1 hp (fun y hy => ⟨hy.1, fun i hi => by rw [s1.size]; exact hy.2 i hi⟩)
        obtain ⟨st', h2, s2, a2⟩ := ih (st.1.set k p1, js1) hf'
        refine ⟨st', ?_, stable_trans (stable_set hp s1) s2, (trainM_facts h1).2.2.2.1.trans a2⟩
        rw [List.foldlM_cons, trainTask_eq o c t ss st k p s hp hs, h1]
        exact h2

omit [Field F] [LinearOrder F] in
theorem stable_size {a b : List (Pop N B F)} (h : List.Forall₂ Stable a b) {n : Nat} (hs : ∀ p ∈ a, p.size ≤ n) :
    ∀ p ∈ b, p.size ≤ n := by
  induction h with
  | nil => intro p hp; simp at hp
  | cons h _ ih =>
    intro p hp
    rcases List.mem_cons.1 hp with rfl | hp
    · rw [h.size]; exact hs _ (by simp)
    · exact ih (fun q hq => hs q (by simp [hq])) p hp

/-- What the network keeps between the steps. -/
structure SafeM (H : Hearing) (c : Config F) (pops0 pops : List (Pop N B F)) (projs : List (Proj F))
    (pending : List (SynapticImpactMessage F)) : Prop where
  stable : List.Forall₂ Stable pops0 pops
  size : ∀ p ∈ pops0, p.size ≤ 2 ^ 63
  projs : ∀ j ∈ projs, JSafe (okFor H pops0) (fun w v => ∃ n, v = c.scale w n) j
  pending : ∀ m ∈ pending, Fits (okFor H pops0) m

theorem learnStepM_valid {o : Ops F} {c : Config F} (hc : 1 ≤ c.popPart ∧ c.popPart < two64) {H : Hearing} {t : Nat}
    {pops0 pops : List (Pop N B F)} {projs : List (Proj F)} {pending : List (SynapticImpactMessage F)} {ext : List (Message F)}
    (h : SafeM H c pops0 pops projs pending) (he : impactsIn ext = []) {sc : Sched}
    {r : Outcome ((List (Pop N B F) × List (Proj F)) × StepOut F)}
    (hr : learnStepM (machine o) (threads o c) H t pops projs pending ext sc = some r) :
    ∃ st out, r = .ok (st, out) ∧ SafeM H c pops0 st.1 st.2 (impactsIn ext ++ out.impacts) := by
  obtain ⟨G, hG, x, h1, h2⟩ := stepM_parts hr
  have hacc : ∀ p ∈ pops, AccAll p (G p.uid) := by rw [hG]; exact given_acc h.stable h.pending
  obtain ⟨ps, ss, rfl, s1, f1⟩ := computeAll_valid o c hc t G pops sc.pops x (stable_size h.stable h.size) hacc h1
  obtain ⟨y, h3, h4⟩ := h2 ps ss rfl
  obtain ⟨st', t1, t2, t3⟩ := tasks_valid o c t ss sc.train (ps, projs) f1
  have hy : y = .ok st' := by
    unfold trainPhase at h3
    split at h3
    · rw [t1] at h3; exact (Option.some.inj h3).symm
    · cases h3
  obtain ⟨A, hA, js2, ms, h5, h6⟩ := h4 st'.1 st'.2 hy
  refine ⟨_, _, h6, ?_⟩
  rw [h6] at hr
  obtain ⟨_, _, _, rs, r1, r2, r3, r4⟩ := learnStepM_ok hr
  simp only at r3 r4
  have hm : ∀ r ∈ rs, JSafe (okFor H pops0) (fun w v => ∃ n, v = c.scale w n) r.1 := by
    intro r hrm
    obtain ⟨i, hi, tr⟩ := allTrained_mem r1 (List.mem_map.2 ⟨r, hrm, rfl⟩)
    exact tr.safe (h.projs i hi)
  refine ⟨stable_trans h.stable
    (stable_trans s1 t2), h.size, ?_, ?_⟩
  · intro j hj
    simp only [r3] at hj
    obtain ⟨r, hrm, rfl⟩ := List.mem_map.1 hj
    obtain ⟨or, ho⟩ := r2 r hrm
    exact ((projStepM_steps ho).safe (hm r hrm)).2
  · rw [he, List.nil_append]
    intro m hmm
    simp only [r4] at hmm
    obtain ⟨r, hrm, hmi⟩ := List.mem_flatMap.1 hmm
    obtain ⟨or, ho⟩ := r2 r hrm
    exact ((projStepM_steps ho).safe (hm r hrm)).1 m (by simpa using hmi)

theorem learnRunM_valid {o : Ops F} {c : Config F} (hc : 1 ≤ c.popPart ∧ c.popPart < two64) {H : Hearing} {pops0 : List (Pop N B F)} :
    ∀ (exts : List (List (Message F) × Sched)) (t : Nat) (pops : List (Pop N B F)) (projs : List (Proj F))
    (pending : List (SynapticImpactMessage F)) (r : Outcome ((List (Pop N B F) × List (Proj F)) × List (StepOut F))),
    SafeM H c pops0 pops projs pending → (∀ ext ∈ exts, impactsIn ext.1 = []) →
    learnRunM (machine o) (threads o c) H t pops projs pending exts = some r → r.isOk = true := by
  intro exts
  induction exts with
  | nil => intro t pops projs pending r _ _ h; cases h; rfl
  | cons ext exts ih =>
    intro t pops projs pending r h1 h2 h
    unfold learnRunM at h
    cases hs : learnStepM (machine o) (threads o c) H t pops projs pending ext.1 ext.2 with
    | none => rw [hs] at h; cases h
    | some x =>
      obtain ⟨st, out, rfl, hsafe⟩ := learnStepM_valid hc h1 (h2 ext (by simp)) hs
      rw [hs] at h
      simp only at h
      cases hr : learnRunM (machine o) (threads o c) H (t + 1) st.1 st.2 (impactsIn ext.1 ++ out.impacts) exts with
      | none => rw [hr] at h; cases h
      | some y =>
        have := ih _ _ _ _ y hsafe (fun x hx => h2 x (by simp [hx])) hr
        cases y with
        | throw w => cases this
        | ub => cases this
        | ok z => rw [hr] at h; cases h; rfl

/-! ## Schedules that complete -/

omit [Field F] [LinearOrder F] in
theorem notDone {ts : List Neurons.Task} (h : allDone ts = false) : ∃ (t : Nat) (task : Neurons.Task), ts[t]? = some task ∧ task.done = false := by
  unfold allDone at h
  rw [List.all_eq_false] at h
  obtain ⟨x, hx, hd⟩ := h
  obtain ⟨n, hn⟩ := List.getElem?_of_mem hx
  exact ⟨n, x, hn, by simpa using hd⟩

omit [Field F] [LinearOrder F] in
/-- Moves that bring a phase nearer to its end whenever it has not ended can be continued to its end. -/
theorem complete {A : Type} (move : Par A → Nat → Par A) (s : Par A)
    (hm : ∀ (sched : List Nat) (t : Nat) (task : Neurons.Task), (sched.foldl move s).tasks[t]? = some task → task.done = false →
      movesLeft (move (sched.foldl move s) t).tasks < movesLeft (sched.foldl move s).tasks) :
    ∀ (n : Nat) (sched : List Nat), movesLeft (sched.foldl move s).tasks ≤ n →
    ∃ sched' : List Nat, allDone (sched'.foldl move s).tasks = true := by
  intro n
  induction n with
  | zero =>
    intro sched h
    cases hd : allDone (sched.foldl move s).tasks with
    | true => exact ⟨sched, hd⟩
    | false =>
      obtain ⟨t, task, h1, h2⟩ := notDone hd
      have := hm sched t task h1 h2
      omega
  | succ n ih =>
    intro sched h
    cases hd : allDone (sched.foldl move s).tasks with
    | true => exact ⟨sched, hd⟩
    | false =>
      obtain ⟨t, task, h1, h2⟩ := notDone hd
      have := hm sched t task h1 h2
      refine ih (sched ++ [t]) ?_
      rw [List.foldl_append]
      exact Nat.le_of_lt_succ (Nat.lt_of_lt_of_le this h)

omit [Field F] [LinearOrder F] in
theorem posted_some (size part : Nat) (hp : 1 ≤ part ∧ part < two64) (hs : size ≤ 2 ^ 63) : ∃ ts, postedTasks size part = some ts := by
  obtain ⟨starts, h, _⟩ := C46_partition size part hp.1 hp.2 hs
  exact ⟨_, by unfold postedTasks; rw [h]; rfl⟩

omit [Field F] [LinearOrder F] in
theorem foldlM_length {A E : Type} (f : List A → E → Outcome (List A)) (hf : ∀ l e l', f l e = .ok l' → l'.length = l.length) :
    ∀ (es : List E) (l l' : List A), es.foldlM f l = .ok l' → l'.length = l.length := by
  intro es
  induction es with
  | nil => intro l l' h; cases h; rfl
  | cons e es ih =>
    intro l l' h
    rw [List.foldlM_cons] at h
    cases h1 : f l e with
    | throw w => rw [h1] at h; cases h
    | ub => rw [h1] at h; cases h
    | ok x => rw [h1, Outcome.bind_ok] at h; exact (ih x l' h).trans (hf l e x h1)

omit [Field F] [LinearOrder F] in
theorem impact_length {A : Type} (k : Kind A F) (ns : List A) (ms : List (SynapticImpactMessage F)) (ns' : List A)
    (h : impactPopulation k ns ms = .ok ns') : ns'.length = ns.length := by
  unfold impactPopulation at h
  refine foldlM_length _ ?_ ms ns ns' h
  intro l m l' hm
  refine foldlM_length _ ?_ m.impacts l l' hm
  intro l i l' hi
  unfold impactAt at hi
  cases hx : l[i.postsynapticNeuronIndex]? with
  | none => rw [hx] at hi; cases hi
  | some a =>
    rw [hx] at hi
    simp only at hi
    cases hk : k.impact a i m.isForcing with
    | throw w => rw [hk] at hi; cases hi
    | ub => rw [hk] at hi; cases hi
    | ok a' =>
      rw [hk] at hi
      simp only [Outcome.bind_ok, Outcome.pure_eq, Outcome.ok.injEq] at hi
      rw [← hi, List.length_set]

omit [Field F] [LinearOrder F] in
theorem pre_length {A : Type} (k : Kind A F) (sched : List Nat) (s : Par A) : (sched.foldl (preMove k) s).pop.length = s.pop.length := by
  refine foldl_keeps (fun x : Par A => x.pop.length = s.pop.length) _ ?_ sched s rfl
  intro x t hx
  unfold preMove
  split
  · exact hx
  · split
    · exact hx
    · split
      · split
        · simp only [List.length_set]; exact hx
        · exact hx
      · exact hx

omit [Field F] [LinearOrder F] in
theorem multi_some {A : Type} (k : Kind A F) (u : UID) (t part : Nat) (ns : List A) (ms : List (SynapticImpactMessage F))
    (hp : 1 ≤ part ∧ part < two64) (hs : ns.length ≤ 2 ^ 63) :
    ∃ s1 s2 r, multiPopulation k u t part ns ms s1 s2 = some r := by
  obtain ⟨ts, hts⟩ := posted_some ns.length part hp hs
  obtain ⟨s1, h1⟩ := complete (preMove k) ⟨ns, [], ts⟩
    (fun sched i task => (C47_progress k part ns ts sched i task hp.1 hp.2 hs hts).1) _ [] (Nat.le_refl _)
  unfold multiPopulation
  rw [hts]
  simp only
  cases hi : impactPopulation k (s1.foldl (preMove k) ⟨ns, [], ts⟩).pop ms with
  | throw w => exact ⟨s1, [], .throw w, by rw [if_pos h1, hi]⟩
  | ub => exact ⟨s1, [], .ub, by rw [if_pos h1, hi]⟩
  | ok p2 =>
    have hl : p2.length = ns.length := (impact_length k _ ms p2 hi).trans (pre_length k s1 _)
    obtain ⟨s2, h2⟩ := complete (postMove k) ⟨p2, [], ts⟩
      (fun sched i task => (C47_progress k part p2 ts sched i task hp.1 hp.2 (by rw [hl]; exact hs) (by rw [hl]; exact hts)).2)
      _ [] (Nat.le_refl _)
    exact ⟨s1, s2, _, by rw [if_pos h1, hi]; simp only; rw [if_pos h2]⟩

omit [Field F] [LinearOrder F] in
theorem computeM_some (c : Config F) (hc : 1 ≤ c.popPart ∧ c.popPart < two64) (t : Nat) (p : Pop N B F) (hp : p.size ≤ 2 ^ 63)
    (ms : List (SynapticImpactMessage F)) : ∃ sc r, computeM c t p ms sc = some r := by
  cases p with
  | plain u k ns =>
    obtain ⟨s1, s2, r, h⟩ := multi_some k u t c.popPart ns ms hc hp
    exact ⟨(s1, s2), _, by unfold computeM; simp only [h]; rfl⟩
  | trained u k b ns =>
    obtain ⟨s1, s2, r, h⟩ := multi_some k u t c.popPart ns ms hc hp
    exact ⟨(s1, s2), _, by unfold computeM; simp only [h]; rfl⟩

theorem computeAll_some (o : Ops F) (c : Config F) (hc : 1 ≤ c.popPart ∧ c.popPart < two64) (t : Nat)
    (G : UID → List (SynapticImpactMessage F)) : ∀ (pops : List (Pop N B F)), (∀ p ∈ pops, p.size ≤ 2 ^ 63) →
    (∀ p ∈ pops, AccAll p (G p.uid)) → ∃ scs r, computeAll (machine o) (threads o c) t G pops scs = some r := by
  intro pops
  induction pops with
  | nil => intro _ _; exact ⟨[], _, rfl⟩
  | cons p pops ih =>
    intro hs ha
    obtain ⟨sc, r, h1⟩ := computeM_some c hc t p (hs p (by simp)) (G p.uid)
    obtain ⟨p1, s, rfl, _⟩ := computeM_valid c hc t p (hs p (by simp)) _ (ha p (by simp)) sc r h1
    obtain ⟨scs, x, h2⟩ := ih (fun q hq => hs q (by simp [hq])) (fun q hq => ha q (by simp [hq]))
    obtain ⟨ps, ss, rfl, _⟩ := computeAll_valid o c hc t G pops scs x (fun q hq => hs q (by simp [hq]))
      (fun q hq => ha q (by simp [hq])) h2
    have h1' : (threads o c).compute t p (G ((machine (N := N) (B := B) o).popUid p)) sc = _ := h1
    refine ⟨sc :: scs, .ok (p1 :: ps, s :: ss), ?_⟩
    unfold computeAll
    rw [h1']
    simp only [h2]

omit [Field F] [LinearOrder F] in
theorem projStepM_some (c : Config F) (t : Nat) (j : Proj F) (ms : List SpikeMessage) (hk : kindOf j.syns ≠ 2) :
    ∃ or r, projStepM c t j ms or = some r := by
  unfold projStepM
  cases hs : j.syns with
  | additive a b d e => rw [hs] at hk; exact absurd rfl hk
  | delta p =>
    refine ⟨List.range (Delta.tasks c.scale p t c.projPart ms).length, ?_⟩
    simp only [reorder, if_pos (List.Perm.refl _)]
    exact ⟨_, rfl⟩
  | resource pops syns pre post =>
    refine ⟨List.range (Delta.tasks c.scale (Syns.resource pops syns pre post).view t c.projPart ms).length, ?_⟩
    simp only [reorder, if_pos (List.Perm.refl _)]
    exact ⟨_, rfl⟩

theorem projectAll_some (o : Ops F) (c : Config F) (t : Nat) (A : UID → List SpikeMessage) : ∀ (js : List (Proj F)),
    (∀ j ∈ js, kindOf j.syns ≠ 2) → ∃ ors r, projectAll (machine (N := N) (B := B) o) (threads o c) t A js ors = some r := by
  intro js
  induction js with
  | nil => intro _; exact ⟨[], _, rfl⟩
  | cons j js ih =>
    intro h
    obtain ⟨or, r, h1⟩ := projStepM_some c t j (A j.ident.uid) (h j (by simp))
    obtain ⟨ors, x, h2⟩ := ih (fun q hq => h q (by simp [hq]))
    have h1' : (threads (N := N) (B := B) o c).projStep t j (A ((machine (N := N) (B := B) o).projUid j)) or = _ := h1
    refine ⟨or :: ors, (r.1 :: x.1, r.2.toList ++ x.2), ?_⟩
    unfold projectAll
    rw [h1']
    simp only [h2]

theorem learnStepM_some {o : Ops F} {c : Config F} (hc : 1 ≤ c.popPart ∧ c.popPart < two64) {H : Hearing} {t : Nat}
    {pops0 pops : List (Pop N B F)} {projs : List (Proj F)} {pending : List (SynapticImpactMessage F)} (ext : List (Message F))
    (h : SafeM H c pops0 pops projs pending) (hk : ∀ j ∈ projs, kindOf j.syns ≠ 2) :
    ∃ sc r, learnStepM (machine o) (threads o c) H t pops projs pending ext sc = some r := by
  have hacc := given_acc h.stable h.pending
  obtain ⟨scs, x, h1⟩ := computeAll_some o c hc t
    (fun u => pending.filter (fun x => H.impact u x.header.senderUid)) pops (stable_size h.stable h.size) hacc
  obtain ⟨ps, ss, rfl, _, f1⟩ := computeAll_valid o c hc t _ pops scs x (stable_size h.stable h.size) hacc h1
  obtain ⟨st', t1, _, t3⟩ := tasks_valid o c t ss (List.range ps.length) (ps, projs) f1
  have h2 : trainPhase (threads o c) t ss ps projs (List.range ps.length) = some (.ok st') := by
    unfold trainPhase
    rw [if_pos (List.Perm.refl _), t1]
  obtain ⟨ors, y, h3⟩ := projectAll_some (N := N) (B := B) o c t
    (fun u => (ss.flatMap Option.toList ++ spikesIn ext).filter (fun x => H.spike u x.header.senderUid)) st'.2 (by
      intro j hj
      obtain ⟨i, hi, tr⟩ := allTrained_mem t3 hj
      rw [tr.kind]; exact hk i hi)
  refine ⟨⟨scs, List.range ps.length, ors⟩, ?_⟩
  unfold learnStepM
  simp only [h1, h2, h3]
  exact ⟨_, rfl⟩

theorem learnStepM_kind {o : Ops F} {c : Config F} {H : Hearing} {t : Nat} {pops : List (Pop N B F)} {projs : List (Proj F)}
    {pending : List (SynapticImpactMessage F)} {ext : List (Message F)} {sc : Sched}
    {st : List (Pop N B F) × List (Proj F)} {out : StepOut F}
    (h : learnStepM (machine o) (threads o c) H t pops projs pending ext sc = some (.ok (st, out))) :
    ∀ j ∈ st.2, kindOf j.syns ≠ 2 := by
  obtain ⟨_, _, _, rs, _, r2, r3, _⟩ := learnStepM_ok h
  intro j hj
  rw [r3] at hj
  obtain ⟨r, hr, rfl⟩ := List.mem_map.1 hj
  obtain ⟨or, ho⟩ := r2 r hr
  rw [(projStepM_steps ho).kind]
  exact (projStepM_steps ho).additive

/-- A completed run can be continued. -/
theorem learnRunM_more {o : Ops F} {c : Config F} (hc : 1 ≤ c.popPart ∧ c.popPart < two64) {H : Hearing} {pops0 : List (Pop N B F)}
    (more : List (Message F)) :
    ∀ (exts : List (List (Message F) × Sched)) (t : Nat) (pops : List (Pop N B F)) (projs : List (Proj F))
    (pending : List (SynapticImpactMessage F)) (r : Outcome ((List (Pop N B F) × List (Proj F)) × List (StepOut F))),
    SafeM H c pops0 pops projs pending → (∀ j ∈ projs, kindOf j.syns ≠ 2) → (∀ ext ∈ exts, impactsIn ext.1 = []) →
    impactsIn more = [] → learnRunM (machine o) (threads o c) H t pops projs pending exts = some r →
    ∃ sc r', learnRunM (machine o) (threads o c) H t pops projs pending (exts ++ [(more, sc)]) = some (.ok r') := by
  intro exts
  induction exts with
  | nil =>
    intro t pops projs pending r h1 hk _ hm _
    obtain ⟨sc, x, h2⟩ := learnStepM_some (o := o) hc (t := t) more h1 hk
    obtain ⟨st, out, rfl, _⟩ := learnStepM_valid hc h1 hm h2
    refine ⟨sc, (st, [out]), ?_⟩
    rw [List.nil_append]
    unfold learnRunM
    simp only [h2]
    rfl
  | cons ext exts ih =>
    intro t pops projs pending r h1 hk h2 hm h
    unfold learnRunM at h
    cases hs : learnStepM (machine o) (threads o c) H t pops projs pending ext.1 ext.2 with
    | none => rw [hs] at h; cases h
    | some x =>
      obtain ⟨st, out, rfl, hsafe⟩ := learnStepM_valid hc h1 (h2 ext (by simp)) hs
      rw [hs] at h
      simp only at h
      cases hr : learnRunM (machine o) (threads o c) H (t + 1) st.1 st.2 (impactsIn ext.1 ++ out.impacts) exts with
      | none => rw [hr] at h; cases h
      | some y =>
        obtain ⟨sc, r', h3⟩ := ih _ _ _ _ y hsafe (learnStepM_kind hs) (fun x hx => h2 x (by simp [hx])) hm hr
        refine ⟨sc, (r'.1, out :: r'.2), ?_⟩
        rw [List.cons_append]
        unfold learnRunM
        simp only [hs, h3]

/-! ## The start -/

omit [Field F] [LinearOrder F] in
theorem carries_kind {out : F → F → Prop} {s : Syns F} {w v : F} (h : kindOf s = 0 → out w v) : Carries out s w v := by
  cases s with
  | delta p => exact h rfl
  | resource a b d e => trivial
  | additive a b d e => trivial

theorem valid_safe {out : F → F → Prop} {pops : List (Pop N B F)} {projs : List (Proj F)} (h : ValidNet out pops projs)
    (inputs : List (UID × UID)) : ∀ j ∈ projs, JSafe (okFor (learnHearing projs inputs) pops) out j := by
  intro j hj
  refine ⟨?_, ?_, ?_⟩
  · intro e he; rw [h.queues j hj] at he; simp at he
  · intro e he; rw [h.queues j hj] at he; simp at he
  · intro s hs i h1 h2 h3 p hp hh
    simp only [learnHearing, decide_eq_true_eq] at hh
    obtain ⟨_, j', hj', e1, e2⟩ := hh
    have : j' = j := List.inj_on_of_nodup_map h.projUids hj' hj e2
    subst this
    have hw : j'.syns.view = wired j'.syns := by cases j'.syns <;> rfl
    rw [hw] at hs
    have ht := h.targets j' hj p hp e1.symm s hs
    have hz := h.sizes p hp
    refine ⟨?_, ?_⟩
    · rw [h3, ← size_eq, Nat.mod_eq_of_lt]
      · exact ht
      · exact Nat.lt_of_lt_of_le ht hz
    · rw [h2]
      exact h.types j' hj p hp e1.symm s hs _ (carries_kind h1)

omit [Field F] [LinearOrder F] in
theorem stable_self (ps : List (Pop N B F)) : List.Forall₂ Stable ps ps := by
  induction ps with
  | nil => exact .nil
  | cons x l ih => exact .cons (Stable.refl x) ih

omit [Field F] [LinearOrder F] in
theorem onlySpikes_ext {chans : Nat} {env : List (Op F)} (h : OnlySpikes env) : impactsIn (extOf chans env) = [] := by
  have : ∀ m ∈ extOf chans env, ∀ i, m ≠ .impact i := by
    intro m hm i e
    subst e
    unfold extOf sentVia at hm
    simp only [List.mem_flatMap, List.mem_filterMap] at hm
    obtain ⟨k, _, op, hop, he⟩ := hm
    cases op <;> simp only at he <;> try cases he
    rename_i e' m'
    split at he
    · simp only [Option.some.injEq] at he
      subst he
      exact h e' i hop
    · cases he
  unfold impactsIn
  rw [List.filterMap_eq_nil_iff]
  intro m hm
  cases m with
  | spike s => rfl
  | impact i => exact absurd rfl (this _ hm i)

end Knp.Learn
