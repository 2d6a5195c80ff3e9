import Verif.Lemmas.LearnRun
import Verif.Props.StdpMore

/-! # Lemmas: the history of one projection of a learning backend -/

namespace Knp.Learn
open Knp Knp.Spec Knp.Neurons Knp.Sys Knp.Stdp Knp.Lemmas.Stdp

variable {N B F : Type} [Field F] [LinearOrder F]

/-! ## `last_spike_step` -/

omit [Field F] [LinearOrder F] in
theorem modify_fold (f : RSyn F → RSyn F) (hf : ∀ s, f (f s) = f s) (k : Nat) : ∀ (l : List Nat) (ss : List (RSyn F)),
    (l.foldl (fun ss i => ss.modify i f) ss)[k]? = if k ∈ l then (ss[k]?).map f else ss[k]? := by
  intro l
  induction l with
  | nil => intro ss; simp
  | cons a l ih =>
    intro ss
    rw [List.foldl_cons, ih, List.getElem?_modify]
    by_cases ha : a = k
    · subst ha
      simp only [if_true, List.mem_cons, true_or]
      by_cases hk : a ∈ l
      · rw [if_pos hk]
        cases ss[a]? with
        | none => rfl
        | some s => exact congrArg some (hf s)
      · rw [if_neg hk]; simp
    · have hka : ¬ k = a := fun h => ha h.symm
      simp only [ha, if_false, List.mem_cons, hka, false_or]
      simp

/-- The lookup lists exactly the synapses with that source, and the synapses are (up to training) those it was made for. -/
def PreOk (pre : Nat → List Nat) (syns : List (RSyn F)) : Prop :=
  ∀ n k s, syns[k]? = some s → (k ∈ pre n ↔ s.source = n)

omit [Field F] [LinearOrder F] in
theorem touch_inner (t : Nat) (pre : Nat → List Nat) (k : Nat) : ∀ (ns : List Nat) (ss : List (RSyn F)) (s : RSyn F),
    PreOk pre ss → ss[k]? = some s →
    PreOk pre (ns.foldl (fun ss n => (pre n).foldl (fun ss k => ss.modify k (touch t)) ss) ss) ∧
    (ns.foldl (fun ss n => (pre n).foldl (fun ss k => ss.modify k (touch t)) ss) ss)[k]? =
      some (if s.source ∈ ns then touch t s else s) := by
  intro ns
  induction ns with
  | nil => intro ss s hp hs; exact ⟨hp, by simpa using hs⟩
  | cons n ns ih =>
    intro ss s hp hs
    rw [List.foldl_cons]
    have hmod : ∀ k, ((pre n).foldl (fun ss k => ss.modify k (touch t)) ss)[k]? =
        if k ∈ pre n then (ss[k]?).map (touch t) else ss[k]? := fun k => modify_fold (touch t) (fun _ => rfl) k _ ss
    have hp1 : PreOk pre ((pre n).foldl (fun ss k => ss.modify k (touch t)) ss) := by
      intro n' k' s' hs'
      rw [hmod] at hs'
      split at hs'
      · obtain ⟨s0, h0, rfl⟩ := Option.map_eq_some_iff.1 hs'
        exact hp n' k' s0 h0
      · exact hp n' k' s' hs'
    have hk : ((pre n).foldl (fun ss k => ss.modify k (touch t)) ss)[k]? =
        some (if s.source = n then touch t s else s) := by
      rw [hmod]
      by_cases h : s.source = n
      · rw [if_pos ((hp n k s hs).2 h), hs, if_pos h]; rfl
      · rw [if_neg (fun hm => h ((hp n k s hs).1 hm)), hs, if_neg h]
    obtain ⟨i1, i2⟩ := ih _ _ hp1 hk
    refine ⟨i1, i2.trans ?_⟩
    congr 1
    by_cases h : s.source = n
    · rw [if_pos h]
      by_cases h2 : (touch t s).source ∈ ns
      · rw [if_pos h2, if_pos (by simp [h])]; rfl
      · rw [if_neg h2, if_pos (by simp [h])]
    · rw [if_neg h]
      by_cases h2 : s.source ∈ ns
      · rw [if_pos h2, if_pos (by simp [h2])]
      · rw [if_neg h2, if_neg (by simp [h, h2])]

omit [Field F] [LinearOrder F] in
/-- `init_synapse` writes the step into exactly the synapses whose source spiked. -/
theorem touchAll_get (t : Nat) (pre : Nat → List Nat) (k : Nat) : ∀ (ms : List SpikeMessage) (ss : List (RSyn F)) (s : RSyn F),
    PreOk pre ss → ss[k]? = some s →
    (touchAll t pre ms ss)[k]? = some (if ∃ m ∈ ms, s.source ∈ m.neuronIndexes then touch t s else s) := by
  intro ms
  induction ms with
  | nil => intro ss s _ hs; simpa [touchAll] using hs
  | cons m ms ih =>
    intro ss s hp hs
    obtain ⟨h1, h2⟩ := touch_inner t pre k m.neuronIndexes ss s hp hs
    have := ih _ _ h1 h2
    have hc : touchAll t pre (m :: ms) ss = touchAll t pre ms
      (m.neuronIndexes.foldl (fun ss n => (pre n).foldl (fun ss k => ss.modify k (touch t)) ss) ss) := rfl
    rw [hc, this]
    congr 1
    have hsrc : (if s.source ∈ m.neuronIndexes then touch t s else s).source = s.source := by split <;> rfl
    rw [hsrc]
    by_cases ha : s.source ∈ m.neuronIndexes
    · rw [if_pos ha, if_pos (c := ∃ m' ∈ m :: ms, s.source ∈ m'.neuronIndexes) ⟨m, by simp, ha⟩]
      split <;> rfl
    · rw [if_neg ha]
      have : (∃ m' ∈ m :: ms, s.source ∈ m'.neuronIndexes) ↔ ∃ m' ∈ ms, s.source ∈ m'.neuronIndexes := by
        simp [ha]
      simp only [this]

omit [Field F] [LinearOrder F] in
theorem touchAll_length (t : Nat) (pre : Nat → List Nat) (ms : List SpikeMessage) (ss : List (RSyn F)) :
    (touchAll t pre ms ss).length = ss.length := by
  unfold touchAll
  refine foldl_keeps (fun l : List (RSyn F) => l.length = ss.length) _ ?_ _ _ rfl
  intro l m hl
  refine foldl_keeps (fun l : List (RSyn F) => l.length = ss.length) _ ?_ _ _ hl
  intro l n hl
  refine foldl_keeps (fun l : List (RSyn F) => l.length = ss.length) _ ?_ _ _ hl
  intro l k hl
  simpa using hl

omit [Field F] [LinearOrder F] in
/-- Whatever the lookup says, `init_synapse` writes nothing else. -/
theorem touchAll_untimed (t : Nat) (pre : Nat → List Nat) (ms : List SpikeMessage) (ss : List (RSyn F)) :
    (touchAll t pre ms ss).map (touch 0) = ss.map (touch 0) := by
  unfold touchAll
  refine foldl_keeps (fun l : List (RSyn F) => l.map (touch 0) = ss.map (touch 0)) _ ?_ _ _ rfl
  intro l m hl
  refine foldl_keeps (fun l : List (RSyn F) => l.map (touch 0) = ss.map (touch 0)) _ ?_ _ _ hl
  intro l n hl
  refine foldl_keeps (fun l : List (RSyn F) => l.map (touch 0) = ss.map (touch 0)) _ ?_ _ _ hl
  intro l k hl
  rw [← hl]
  apply List.ext_getElem?
  intro i
  rw [List.getElem?_map, List.getElem?_map, List.getElem?_modify]
  cases l[i]? with
  | none => simp
  | some s => simp only [Option.map_some]; split <;> rfl

omit [Field F] [LinearOrder F] in
/-- So the impact calculation sees the same synapses. -/
theorem touchAll_view (t : Nat) (pre : Nat → List Nat) (ms : List SpikeMessage) (ss : List (RSyn F)) :
    (touchAll t pre ms ss).map ofR = ss.map ofR := by
  have h := congrArg (List.map (ofR (F := F))) (touchAll_untimed t pre ms ss)
  rw [List.map_map, List.map_map] at h
  exact h

/-! ## What never changes -/

/-- Ends, delays, types and lookup. -/
def skeleton (p : Delta.Proj F) : List (Nat × Nat × Nat × OutputType) × (Nat → List Nat) :=
  (p.synapses.map (fun s => (s.source, s.target, s.delay, s.outType)), p.find)

omit [Field F] [LinearOrder F] in
theorem skeleton_get {p q : Delta.Proj F} (h : skeleton q = skeleton p) {k : Nat} {s : Delta.Syn F}
    (hs : p.synapses[k]? = some s) : ∃ s', q.synapses[k]? = some s' ∧ s'.source = s.source ∧ s'.target = s.target ∧
      s'.delay = s.delay ∧ s'.outType = s.outType := by
  have h1 := congrArg (fun x => x.1[k]?) h
  simp only [skeleton, List.getElem?_map, hs, Option.map_some] at h1
  obtain ⟨s', h2, h3⟩ := Option.map_eq_some_iff.1 h1
  simp only [Prod.mk.injEq] at h3
  exact ⟨s', h2, h3.1, h3.2.1, h3.2.2.1, h3.2.2.2⟩

omit [Field F] [LinearOrder F] in
theorem skeleton_find {p q : Delta.Proj F} (h : skeleton q = skeleton p) (hf : Props.ExactFind p) : Props.ExactFind q := by
  intro n
  have hfi : q.find = p.find := congrArg Prod.snd h
  rw [hfi]
  obtain ⟨h1, h2⟩ := hf n
  refine ⟨h1, fun k => (h2 k).trans ?_⟩
  constructor
  · rintro ⟨s, hs, hn⟩
    obtain ⟨s', a, b, _⟩ := skeleton_get h hs
    exact ⟨s', a, b.trans hn⟩
  · rintro ⟨s, hs, hn⟩
    obtain ⟨s', a, b, _⟩ := skeleton_get h.symm hs
    exact ⟨s', a, b.trans hn⟩

omit [Field F] [LinearOrder F] in
theorem skeleton_sound {p q : Delta.Proj F} (h : skeleton q = skeleton p) {t : Nat} (hf : Props.Sound t p) : Props.Sound t q := by
  intro s hs
  obtain ⟨k, hk⟩ := List.getElem?_of_mem hs
  obtain ⟨s', a, b, c, d, e⟩ := skeleton_get h.symm hk
  have := hf s' (List.mem_of_getElem? a)
  rw [← b, ← c, ← d]
  exact this

theorem Trained.skeleton {o : Ops F} {j j' : Proj F} (h : Trained o j j') :
    skeleton j'.syns.view = skeleton j.syns.view := by
  cases hs : j.syns with
  | delta p => rw [h.other (by intro a b c d he; rw [hs] at he; cases he), hs]
  | additive a b c d => rw [h.other (by intro a b c d he; rw [hs] at he; cases he), hs]
  | resource pops syns pre post =>
    obtain ⟨syns', h1, h2, h3⟩ := h.syns _ _ _ _ hs
    rw [h1]
    unfold Learn.skeleton Syns.view
    simp only [Prod.mk.injEq, and_true]
    rw [List.map_map, List.map_map]
    apply List.ext_getElem?
    intro k
    rw [List.getElem?_map, List.getElem?_map]
    cases hk : syns[k]? with
    | none =>
      rw [List.getElem?_eq_none_iff] at hk
      rw [List.getElem?_eq_none (by omega)]
    | some s =>
      obtain ⟨s', a, w, _⟩ := h3 k s hk
      obtain ⟨w1, w2, w3, w4, _⟩ := w
      rw [a]
      simp only [Option.map_some, Function.comp, ofR, w1, w2, w3, w4]

/-! Additive STDP: `init_projection` does not change what the impact calculation sees. -/

theorem pushTime_view (w : Which) (t : Nat) (s : ASyn F) : ofA (pushTime w t s) = ofA s := by
  unfold pushTime
  cases w <;> simp only <;> split <;> rfl

theorem appendTimes_view (w : Which) (g : Nat → List Nat) (m : SpikeMessage) (ss : List (ASyn F)) :
    (appendTimes w g m ss).map ofA = ss.map ofA := by
  unfold appendTimes
  refine foldl_keeps (fun l : List (ASyn F) => l.map ofA = ss.map ofA) _ ?_ _ _ rfl
  intro l n hl
  refine foldl_keeps (fun l : List (ASyn F) => l.map ofA = ss.map ofA) _ ?_ _ _ hl
  intro l k hl
  rw [← hl]
  apply List.ext_getElem?
  intro i
  rw [List.getElem?_map, List.getElem?_map, List.getElem?_modify]
  cases l[i]? with
  | none => simp
  | some s =>
    simp only [Option.map_some]
    split
    · exact congrArg some (pushTime_view w _ s)
    · rfl

theorem initMessage_view (p : AProj F) (m : SpikeMessage) :
    (initMessage p m).1.syns.map ofA = p.syns.map ofA ∧ (initMessage p m).1.stdpPops = p.stdpPops ∧
    (initMessage p m).1.findPost = p.findPost := by
  unfold initMessage
  split
  · exact ⟨rfl, rfl, rfl⟩
  · exact ⟨appendTimes_view _ _ _ _, rfl, rfl⟩
  · exact ⟨by simp only; rw [appendTimes_view, appendTimes_view], rfl, rfl⟩

/-- A message after `init_projection`: emptied if its sender is used for training only. -/
def heeded (pops : List (UID × Processing)) (m : SpikeMessage) : SpikeMessage :=
  if processingOf pops m.header.senderUid = some .stdpOnly then { m with neuronIndexes := [] } else m

theorem initProjection_view (ms : List SpikeMessage) : ∀ (p : AProj F),
    (initProjection p ms).1.syns.map ofA = p.syns.map ofA ∧ (initProjection p ms).2 = ms.map (heeded p.stdpPops) := by
  induction ms with
  | nil => intro p; exact ⟨rfl, rfl⟩
  | cons m ms ih =>
    intro p
    obtain ⟨h1, h2, h3⟩ := initMessage_view p m
    obtain ⟨i1, i2⟩ := ih (initMessage p m).1
    unfold initProjection
    simp only
    refine ⟨i1.trans h1, ?_⟩
    rw [i2, h2, List.map_cons]
    congr 1
    unfold initMessage heeded
    cases hp : processingOf p.stdpPops m.header.senderUid with
    | none => simp
    | some x => cases x <;> simp

theorem used_other {j : Proj F} (h : ∀ pops syns pre post, j.syns ≠ .additive pops syns pre post) (ms : List SpikeMessage) :
    used j ms = ⟨j.syns.view, ms⟩ := by
  unfold used
  cases hs : j.syns with
  | delta p => rfl
  | resource pops syns pre post => rfl
  | additive a b c d => exact absurd hs (h a b c d)

theorem used_additive {j : Proj F} {pops : List (UID × Processing)} {syns : List (ASyn F)} {pre post : Nat → List Nat}
    (h : j.syns = .additive pops syns pre post) (ms : List SpikeMessage) :
    used j ms = ⟨j.syns.view, ms.map (heeded pops)⟩ := by
  unfold used
  rw [h]
  obtain ⟨h1, h2⟩ := initProjection_view ms ⟨j.locked, pops, syns, post⟩
  simp only
  rw [h2]
  unfold Syns.view
  simp only
  rw [h1]

theorem used_proj (j : Proj F) (ms : List SpikeMessage) : (used j ms).proj = j.syns.view := by
  cases hs : j.syns with
  | additive a b c d => rw [used_additive hs]; exact congrArg Syns.view hs
  | delta p =>
    rw [used_other (by intro a b c d h; rw [hs] at h; cases h)]; exact congrArg Syns.view hs
  | resource a b c d =>
    rw [used_other (by intro a b c d h; rw [hs] at h; cases h)]; exact congrArg Syns.view hs

theorem modifyWeight_ends (o : Ops F) (s : ASyn F) : (modifyWeight o s).source = s.source ∧ (modifyWeight o s).target = s.target ∧
    (modifyWeight o s).delay = s.delay ∧ (modifyWeight o s).outType = s.outType := by
  unfold modifyWeight
  split <;> exact ⟨rfl, rfl, rfl, rfl⟩

theorem projStep_skeleton (o : Ops F) (t : Nat) (j : Proj F) (ms : List SpikeMessage) :
    skeleton (projStep o t j ms).1.syns.view = skeleton j.syns.view := by
  cases hs : j.syns with
  | delta p =>
    have : (projStep o t j ms).1.syns = .delta p := by unfold projStep; rw [hs]
    rw [this]
  | resource pops syns pre post =>
    have : (projStep o t j ms).1.syns = .resource pops (touchAll t pre ms syns) pre post := by unfold projStep; rw [hs]
    rw [this]
    unfold Syns.view
    simp only
    rw [touchAll_view]
  | additive pops syns pre post =>
    have : (projStep o t j ms).1.syns = .additive pops
      ((initProjection ⟨j.locked, pops, syns, post⟩ ms).1.syns.map (modifyWeight o)) pre post := by unfold projStep; rw [hs]
    rw [this]
    obtain ⟨h1, _⟩ := initProjection_view ms ⟨j.locked, pops, syns, post⟩
    unfold Syns.view skeleton
    simp only [Prod.mk.injEq, and_true] at h1 ⊢
    rw [List.map_map, List.map_map]
    have h2 := congrArg (List.map (fun s : Delta.Syn F => (s.source, s.target, s.delay, s.outType))) h1
    rw [← h2, List.map_map]
    apply List.map_congr_left
    intro s _
    obtain ⟨a, b, c, d⟩ := modifyWeight_ends o s
    simp only [Function.comp, ofA, a, b, c, d]

/-- Which of the three kinds of synapses. -/
def kindOf : Syns F → Nat
  | .delta _ => 0
  | .resource _ _ _ _ => 1
  | .additive _ _ _ _ => 2

theorem Trained.kind {o : Ops F} {j j' : Proj F} (h : Trained o j j') : kindOf j'.syns = kindOf j.syns := by
  cases hs : j.syns with
  | delta p => rw [h.other (by intro a b c d he; rw [hs] at he; cases he), hs]
  | additive a b c d => rw [h.other (by intro a b c d he; rw [hs] at he; cases he), hs]
  | resource pops syns pre post =>
    obtain ⟨syns', h1, _⟩ := h.syns _ _ _ _ hs
    rw [h1]; rfl

theorem projStep_kind (o : Ops F) (t : Nat) (j : Proj F) (ms : List SpikeMessage) :
    kindOf (projStep o t j ms).1.syns = kindOf j.syns := by
  unfold projStep
  cases hs : j.syns with
  | delta p => simp only
  | resource pops syns pre post => rfl
  | additive pops syns pre post => rfl

/-! ## Histories -/

theorem Trace.same {o : Ops F} {t : Nat} {j j' : Proj F} {es : List (Entry F)} (h : Trace o t j es j') :
    (j'.ident = j.ident ∧ j'.locked = j.locked ∧ kindOf j'.syns = kindOf j.syns ∧ skeleton j'.syns.view = skeleton j.syns.view) ∧
    ∀ e ∈ es, e.mid.ident = j.ident ∧ kindOf e.mid.syns = kindOf j.syns ∧ skeleton e.mid.syns.view = skeleton j.syns.view := by
  induction h with
  | nil t j => exact ⟨⟨rfl, rfl, rfl, rfl⟩, by simp⟩
  | @cons t j mid j' ms es h1 h2 ih =>
    obtain ⟨⟨a1, a2, a3, a4⟩, b⟩ := ih
    obtain ⟨p1, p2⟩ := projStep_ident o t mid ms
    have p3 := projStep_kind o t mid ms
    have p4 := projStep_skeleton o t mid ms
    refine ⟨⟨a1.trans (p1.trans h1.ident), a2.trans (p2.trans h1.locked), a3.trans (p3.trans h1.kind),
      a4.trans (p4.trans h1.skeleton)⟩, ?_⟩
    intro e he
    rcases List.mem_cons.1 he with rfl | he
    · exact ⟨h1.ident, h1.kind, h1.skeleton⟩
    · obtain ⟨c1, c2, c3⟩ := b e he
      exact ⟨c1.trans (p1.trans h1.ident), c2.trans (p3.trans h1.kind), c3.trans (p4.trans h1.skeleton)⟩

/-- What the projection sends. -/
theorem Trace.sends {o : Ops F} {t : Nat} {j j' : Proj F} {es : List (Entry F)} (h : Trace o t j es j') :
    (Delta.runSingle j.ident t j.queue (es.map (fun e => used e.mid e.msgs))).1 = es.map (fun e => e.out) := by
  induction h with
  | nil t j => rfl
  | @cons t j mid j' ms es h1 h2 ih =>
    obtain ⟨q1, q2⟩ := projStep_out o t mid ms
    rw [(projStep_ident o t mid ms).1, q2] at ih
    rw [List.map_cons, List.map_cons]
    unfold Delta.runSingle
    simp only
    rw [← h1.ident, ← h1.queue, ih, ← q1]

/-- The last step of a history. -/
theorem Trace.last {o : Ops F} {t : Nat} {j j' : Proj F} {es : List (Entry F)} (h : Trace o t j es j') :
    ∀ (i : Nat) (hi : i + 1 = es.length), j' = (projStep o (t + i) (es[i]'(by omega)).mid (es[i]'(by omega)).msgs).1 := by
  induction h with
  | nil t j => intro i hi; simp at hi
  | @cons t j mid j' ms es h1 h2 ih =>
    intro i hi
    cases i with
    | zero =>
      have : es = [] := by simpa using hi
      subst this
      cases h2
      rfl
    | succ i =>
      have := ih i (by simpa using hi)
      rw [this]
      simp only [List.getElem_cons_succ]
      rw [show t + 1 + i = t + (i + 1) by omega]

/-- The state before a step and the state when the populations are done with it. -/
theorem Trace.enter {o : Ops F} {t : Nat} {j j' : Proj F} {es : List (Entry F)} (h : Trace o t j es j') :
    ∀ (i : Nat) (hi : i < es.length) (j1 : Proj F), Trace o t j (es.take i) j1 → Trained o j1 es[i].mid := by
  induction h with
  | nil t j => intro i hi; simp at hi
  | @cons t j mid j' ms es h1 h2 ih =>
    intro i hi j1 h3
    cases i with
    | zero =>
      rw [List.take_zero] at h3
      cases h3
      exact h1
    | succ i =>
      rw [List.take_succ_cons] at h3
      cases h3 with
      | cons _ h4 => exact ih i (by simpa using hi) j1 h4

/-- The weights (and all the impact calculation reads) of a projection that is not additive do not change in its own step. -/
theorem projStep_view_other (o : Ops F) (t : Nat) {j : Proj F} (ms : List SpikeMessage) (hk : kindOf j.syns ≠ 2) :
    (projStep o t j ms).1.syns.view = j.syns.view := by
  unfold projStep
  cases hs : j.syns with
  | delta p => simp only
  | resource pops syns pre post =>
    simp only
    unfold Syns.view
    simp only
    rw [touchAll_view]
  | additive a b c d => rw [hs] at hk; exact absurd rfl hk

end Knp.Learn
