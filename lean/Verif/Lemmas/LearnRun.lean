import Verif.Lemmas.Learn
import Verif.Props.Stdp
import Verif.Props.Delta
import Verif.Props.PopStep
import Verif.Props.System

/-! # Lemmas: what a run of a learning backend does to one projection and to one population -/

namespace Knp.Learn
open Knp Knp.Bus Knp.Spec Knp.Neurons Knp.Sys Knp.Stdp Knp.Lemmas.Stdp

variable {P J N B F : Type} [Field F] [LinearOrder F]

/-! ## The populations' part of a step -/

/-- What populations may do to a projection: train the synapses of an unlocked resource projection. -/
structure Trained (o : Ops F) (j j' : Proj F) : Prop where
  ident : j'.ident = j.ident
  locked : j'.locked = j.locked
  queue : j'.queue = j.queue
  lock : j.locked = true → j' = j
  other : (∀ pops syns pre post, j.syns ≠ .resource pops syns pre post) → j' = j
  syns : ∀ pops syns pre post, j.syns = .resource pops syns pre post → ∃ syns', j'.syns = .resource pops syns' pre post ∧
    syns'.length = syns.length ∧ ∀ (k : Nat) (s : RSyn F), syns[k]? = some s → ∃ s', syns'[k]? = some s' ∧ SameWiring s s' ∧ Recalculated o s s'

theorem Trained.refl (o : Ops F) (j : Proj F) : Trained o j j :=
  ⟨rfl, rfl, rfl, fun _ => rfl, fun _ => rfl, fun _ syns _ _ h =>
    ⟨syns, h, rfl, fun _ s hs => ⟨s, hs, SameWiring.refl s, Or.inl ⟨rfl, rfl⟩⟩⟩⟩

theorem Trained.trans {o : Ops F} {a b c : Proj F} (h : Trained o a b) (h' : Trained o b c) : Trained o a c := by
  refine ⟨h'.ident.trans h.ident, h'.locked.trans h.locked, h'.queue.trans h.queue, ?_, ?_, ?_⟩
  · intro hl
    rw [h'.lock (h.locked.trans hl), h.lock hl]
  · intro hn
    have hb := h.other hn
    rw [hb] at h'
    exact h'.other hn
  · intro pops syns pre post hs
    obtain ⟨s1, a1, a2, a3⟩ := h.syns _ _ _ _ hs
    obtain ⟨s2, b1, b2, b3⟩ := h'.syns _ _ _ _ a1
    refine ⟨s2, b1, b2.trans a2, fun k s hk => ?_⟩
    obtain ⟨x, hx, w1, r1⟩ := a3 k s hk
    obtain ⟨y, hy, w2, r2⟩ := b3 k x hx
    exact ⟨y, hy, SameWiring.trans w1 w2, r1.trans r2 w2⟩

/-- Every projection has been trained. -/
def AllTrained (o : Ops F) (js js' : List (Proj F)) : Prop :=
  js'.length = js.length ∧ ∀ (n : Nat) (j : Proj F), js[n]? = some j → ∃ j', js'[n]? = some j' ∧ Trained o j j'

theorem AllTrained.refl (o : Ops F) (js : List (Proj F)) : AllTrained o js js :=
  ⟨rfl, fun _ j h => ⟨j, h, Trained.refl o j⟩⟩

theorem AllTrained.trans {o : Ops F} {a b c : List (Proj F)} (h : AllTrained o a b) (h' : AllTrained o b c) :
    AllTrained o a c := by
  refine ⟨h'.1.trans h.1, fun n j hj => ?_⟩
  obtain ⟨j1, h1, t1⟩ := h.2 n j hj
  obtain ⟨j2, h2, t2⟩ := h'.2 n j1 h1
  exact ⟨j2, h2, t1.trans t2⟩

theorem AllTrained.uids {o : Ops F} {a b : List (Proj F)} (h : AllTrained o a b) :
    b.map (fun j => j.ident.uid) = a.map (fun j => j.ident.uid) := by
  apply List.ext_getElem?
  intro n
  rw [List.getElem?_map, List.getElem?_map]
  cases hj : a[n]? with
  | none =>
    rw [List.getElem?_eq_none_iff] at hj
    rw [List.getElem?_eq_none (by rw [h.1]; exact hj)]
  | some j =>
    obtain ⟨j', h1, t⟩ := h.2 n j hj
    rw [h1, Option.map_some, Option.map_some, t.ident]

/-- Writing trained synapses back. -/
theorem putAll_trained {o : Ops F} {b : BaseOps B F} {u : UID} {sp : List Nat} {t : Nat} {ns : List (Res B F)}
    {js : List (Proj F)} {st : Stdp.State B F} (h : train o b u sp t ⟨ns, js.map Proj.toR⟩ = .ok st) :
    AllTrained o js (putAll js st.projs) ∧ (putAll js st.projs).map Proj.toR = st.projs := by
  obtain ⟨f1, f2, f3, _⟩ := train_frame h
  have hrc := train_recalc h
  have hlen : st.projs.length = js.length := by
    have := congrArg List.length f1
    simpa [shapeOf] using this
  have hget : ∀ (n : Nat) (j : Proj F), js[n]? = some j → ∃ r, st.projs[n]? = some r ∧ (putAll js st.projs)[n]? = some (j.putR r) ∧
      r.uid = j.toR.uid ∧ r.post = j.toR.post ∧ r.locked = j.toR.locked ∧ r.find = j.toR.find ∧
      r.syns.length = j.toR.syns.length := by
    intro n j hj
    obtain ⟨r, hr, g⟩ := shape_get f1 (p := j.toR) (i := n) (by simp [hj])
    refine ⟨r, hr, ?_, g⟩
    unfold putAll
    rw [List.getElem?_zipWith, hj, hr]
  refine ⟨⟨by unfold putAll; simp [hlen], ?_⟩, ?_⟩
  · intro n j hj
    obtain ⟨r, hr, hp, g1, g2, g3, g4, g5⟩ := hget n j hj
    refine ⟨_, hp, ?_⟩
    have hR : (js.map Proj.toR)[n]? = some j.toR := by simp [hj]
    cases hs : j.syns with
    | delta p =>
      have : j.putR r = j := by unfold Proj.putR; rw [hs]
      rw [this]; exact Trained.refl o j
    | additive a b c d =>
      have : j.putR r = j := by unfold Proj.putR; rw [hs]
      rw [this]; exact Trained.refl o j
    | resource pops syns pre post =>
      have htr : j.toR = ⟨j.ident.uid, j.ident.post, j.locked, syns, post⟩ := by unfold Proj.toR; rw [hs]
      have hput : j.putR r = { j with syns := .resource pops r.syns pre post } := by unfold Proj.putR; rw [hs]
      rw [htr] at g5 hR
      rw [hput]
      refine ⟨rfl, rfl, rfl, ?_, ?_, ?_⟩
      · intro hl
        have hsame := Props.C86_other_projections h n _ hR (by rintro ⟨_, h2⟩; simp only at h2; rw [hl] at h2; cases h2)
        rw [hr] at hsame
        simp only [Option.some.injEq] at hsame
        rw [hsame]
        simp only
        rw [← hs]
      · intro hne
        exact absurd hs (hne _ _ _ _)
      · intro pops' syns' pre' post' he
        rw [hs] at he
        cases he
        refine ⟨r.syns, rfl, g5, fun k s hk => ?_⟩
        have hg : getAt (js.map Proj.toR) (n, k) = some s := by simp only [getAt, hR, Option.bind_some]; exact hk
        obtain ⟨s', hs', w⟩ := f3 (n, k) s hg
        refine ⟨s', by simpa [getAt, hr] using hs', w, hrc _ _ _ hg hs'⟩
  · apply List.ext_getElem?
    intro n
    rw [List.getElem?_map]
    cases hj : js[n]? with
    | none =>
      rw [List.getElem?_eq_none_iff] at hj
      rw [List.getElem?_eq_none (by unfold putAll; simp; omega), List.getElem?_eq_none (by omega)]
      rfl
    | some j =>
      obtain ⟨r, hr, hp, g1, g2, g3, g4, g5⟩ := hget n j hj
      rw [hp, hr, Option.map_some]
      congr 1
      have hR : (js.map Proj.toR)[n]? = some j.toR := by simp [hj]
      cases hs : j.syns with
      | delta p =>
        have h1 : j.putR r = j := by unfold Proj.putR; rw [hs]
        have h2 : j.toR = ⟨j.ident.uid, j.ident.post, true, [], fun _ => []⟩ := by unfold Proj.toR; rw [hs]
        rw [h1]
        have hsame := Props.C86_other_projections h n _ hR (by rintro ⟨_, h3⟩; rw [h2] at h3; cases h3)
        exact Option.some.inj (hsame.symm.trans hr)
      | additive a b c d =>
        have h1 : j.putR r = j := by unfold Proj.putR; rw [hs]
        have h2 : j.toR = ⟨j.ident.uid, j.ident.post, true, [], fun _ => []⟩ := by unfold Proj.toR; rw [hs]
        rw [h1]
        have hsame := Props.C86_other_projections h n _ hR (by rintro ⟨_, h3⟩; rw [h2] at h3; cases h3)
        exact Option.some.inj (hsame.symm.trans hr)
      | resource pops syns pre post =>
        have htr : j.toR = ⟨j.ident.uid, j.ident.post, j.locked, syns, post⟩ := by unfold Proj.toR; rw [hs]
        have hput : j.putR r = { j with syns := .resource pops r.syns pre post } := by unfold Proj.putR; rw [hs]
        rw [htr] at g1 g2 g3 g4
        simp only at g1 g2 g3 g4
        rw [hput]
        unfold Proj.toR
        simp only
        rw [← g1, ← g2, ← g3, ← g4]

theorem popStep_trained {o : Ops F} {t : Nat} {p : Pop N B F} {js : List (Proj F)} {ms : List (SynapticImpactMessage F)}
    {p1 : Pop N B F} {js1 : List (Proj F)} {s : Option SpikeMessage} (h : popStep o t p js ms = .ok ((p1, js1), s)) :
    p1.uid = p.uid ∧ AllTrained o js js1 := by
  unfold popStep at h
  cases p with
  | plain u k ns =>
    simp only at h
    cases h1 : stepPopulation k u t ns ms with
    | throw w => rw [h1] at h; cases h
    | ub => rw [h1] at h; cases h
    | ok r =>
      rw [h1] at h
      simp only [Outcome.ok.injEq, Prod.mk.injEq] at h
      rw [← h.1.1, ← h.1.2]
      exact ⟨rfl, AllTrained.refl o js⟩
  | trained u k b ns =>
    simp only at h
    cases h1 : stepPopulation k u t ns ms with
    | throw w => rw [h1] at h; cases h
    | ub => rw [h1] at h; cases h
    | ok r =>
      rw [h1] at h
      simp only at h
      cases h2 : train o b u (spikedIn r.2) t ⟨r.1, js.map Proj.toR⟩ with
      | throw w => rw [h2] at h; cases h
      | ub => rw [h2] at h; cases h
      | ok st =>
        rw [h2] at h
        simp only [Outcome.ok.injEq, Prod.mk.injEq] at h
        rw [← h.1.1, ← h.1.2]
        exact ⟨rfl, (putAll_trained h2).1⟩

theorem projStep_ident (o : Ops F) (t : Nat) (j : Proj F) (ms : List SpikeMessage) :
    (projStep o t j ms).1.ident = j.ident ∧ (projStep o t j ms).1.locked = j.locked := by
  unfold projStep
  cases j.syns <;> exact ⟨rfl, rfl⟩

/-- The backend's entities keep their UIDs. -/
theorem machine_keeps (o : Ops F) : Keeps (machine (N := N) (B := B) o) := by
  refine ⟨?_, ?_⟩
  · intro t p js ms p1 js1 s h
    obtain ⟨h1, h2⟩ := popStep_trained (o := o) h
    exact ⟨h1, h2.uids⟩
  · intro t j ms
    exact congrArg Delta.Ident.uid (projStep_ident o t j ms).1

/-! ## What the impact calculation of a projection reads -/

/-- Synapses, lookup and messages the impact calculation works with. -/
def used (j : Proj F) (ms : List SpikeMessage) : Delta.StepIn F :=
  match j.syns with
  | .delta p => ⟨p, ms⟩
  | .resource pops syns pre post => ⟨(Syns.resource pops syns pre post).view, ms⟩
  | .additive pops syns pre post =>
    ⟨(Syns.additive pops (initProjection ⟨j.locked, pops, syns, post⟩ ms).1.syns pre post).view,
      (initProjection ⟨j.locked, pops, syns, post⟩ ms).2⟩

theorem projStep_out (o : Ops F) (t : Nat) (j : Proj F) (ms : List SpikeMessage) :
    (projStep o t j ms).2 = (Delta.stepSingle j.ident (used j ms).proj t j.queue (used j ms).msgs).1 ∧
    (projStep o t j ms).1.queue = (Delta.stepSingle j.ident (used j ms).proj t j.queue (used j ms).msgs).2 := by
  unfold projStep used
  cases j.syns <;> exact ⟨rfl, rfl⟩

/-- The messages in the queue are the projection's own. -/
def QueueOk (j : Proj F) : Prop := ∀ e ∈ j.queue, e.2.header.senderUid = j.ident.uid

omit [Field F] [LinearOrder F] in
theorem qPush_sender (d : Delta.Ident) (t key : Nat) (im : SynapticImpact F) : ∀ q : Delta.Queue F,
    (∀ e ∈ q, e.2.header.senderUid = d.uid) → ∀ e ∈ Delta.qPush (Delta.mkSingle d t) key im q, e.2.header.senderUid = d.uid := by
  intro q
  induction q with
  | nil =>
    intro _ e he
    simp only [Delta.qPush, List.mem_singleton] at he
    rw [he]; rfl
  | cons a q ih =>
    intro h e he
    obtain ⟨k, m⟩ := a
    unfold Delta.qPush at he
    by_cases hk : k = key
    · rw [if_pos hk] at he
      rcases List.mem_cons.1 he with rfl | he
      · exact h (k, m) (by simp)
      · exact h e (by simp [he])
    · rw [if_neg hk] at he
      rcases List.mem_cons.1 he with rfl | he
      · exact h (k, m) (by simp)
      · exact ih (fun e he => h e (by simp [he])) e he

omit [Field F] [LinearOrder F] in
theorem foldl_keeps {α β : Type} (P : β → Prop) (f : β → α → β) (hf : ∀ b a, P b → P (f b a)) : ∀ (l : List α) (b : β),
    P b → P (l.foldl f b) := by
  intro l
  induction l with
  | nil => intro b h; exact h
  | cons a l ih => intro b h; exact ih _ (hf b a h)

omit [Field F] [LinearOrder F] in
theorem stepSingle_sender (d : Delta.Ident) (p : Delta.Proj F) (t : Nat) (q : Delta.Queue F) (ms : List SpikeMessage)
    (h : ∀ e ∈ q, e.2.header.senderUid = d.uid) :
    (∀ m ∈ (Delta.stepSingle d p t q ms).1, m.header.senderUid = d.uid) ∧
    (∀ e ∈ (Delta.stepSingle d p t q ms).2, e.2.header.senderUid = d.uid) := by
  have h1 : ∀ e ∈ Delta.calcSingle d p t q ms, e.2.header.senderUid = d.uid := by
    unfold Delta.calcSingle
    refine foldl_keeps (fun q : Delta.Queue F => ∀ e ∈ q, e.2.header.senderUid = d.uid) _ ?_ _ _ h
    intro q m hq
    refine foldl_keeps (fun q : Delta.Queue F => ∀ e ∈ q, e.2.header.senderUid = d.uid) _ ?_ _ _ hq
    intro q n hq
    unfold Delta.pushSpike
    refine foldl_keeps (fun q : Delta.Queue F => ∀ e ∈ q, e.2.header.senderUid = d.uid) _ ?_ _ _ hq
    intro q k hq
    split
    · exact qPush_sender d t _ _ q hq
    · exact hq
  unfold Delta.stepSingle
  simp only
  cases hf : Delta.qFind (Delta.calcSingle d p t q ms) t with
  | none => exact ⟨fun m hm => (by cases hm), h1⟩
  | some m =>
    refine ⟨fun m' hm => ?_, fun e he => h1 e (List.mem_filter.1 he).1⟩
    simp only [Option.mem_def, Option.some.injEq] at hm
    subst hm
    unfold Delta.qFind at hf
    obtain ⟨e, he, rfl⟩ := Option.map_eq_some_iff.1 hf
    exact h1 e (List.mem_of_find?_eq_some he)

theorem projStep_queueOk (o : Ops F) (t : Nat) (j : Proj F) (ms : List SpikeMessage) (h : QueueOk j) :
    (∀ m ∈ (projStep o t j ms).2, m.header.senderUid = j.ident.uid) ∧ QueueOk (projStep o t j ms).1 := by
  obtain ⟨h1, h2⟩ := stepSingle_sender j.ident (used j ms).proj t j.queue (used j ms).msgs h
  obtain ⟨e1, e2⟩ := projStep_out o t j ms
  refine ⟨by rw [e1]; exact h1, ?_⟩
  unfold QueueOk
  rw [e2, (projStep_ident o t j ms).1]
  exact h2

theorem Trained.queueOk {o : Ops F} {j j' : Proj F} (h : Trained o j j') (hq : QueueOk j) : QueueOk j' := by
  unfold QueueOk
  rw [h.queue, h.ident]
  exact hq

/-! ## Steps and runs -/

theorem learnPops_trained {o : Ops F} {t : Nat} {f : UID → List (SynapticImpactMessage F)} :
    ∀ (ps : List (Pop N B F)) (js : List (Proj F)) (ps' : List (Pop N B F)) (js' : List (Proj F)) (ss : List SpikeMessage),
    learnPops (machine o) t f ps js = .ok ((ps', js'), ss) → AllTrained o js js' := by
  intro ps
  induction ps with
  | nil =>
    intro js ps' js' ss h
    simp only [learnPops, Outcome.ok.injEq, Prod.mk.injEq] at h
    rw [← h.1.2]; exact AllTrained.refl o js
  | cons p ps ih =>
    intro js ps' js' ss h
    unfold learnPops at h
    cases h1 : (machine o).popStep t p js (f ((machine o).popUid p)) with
    | throw w => rw [h1] at h; cases h
    | ub => rw [h1] at h; cases h
    | ok r =>
      obtain ⟨⟨p1, js1⟩, s⟩ := r
      rw [h1] at h
      simp only at h
      cases h2 : learnPops (machine o) t f ps js1 with
      | throw w => rw [h2] at h; cases h
      | ub => rw [h2] at h; cases h
      | ok x =>
        obtain ⟨⟨qs, ks⟩, ss2⟩ := x
        rw [h2] at h
        simp only [Outcome.ok.injEq, Prod.mk.injEq] at h
        rw [← h.1.2]
        exact (popStep_trained h1).2.trans (ih js1 qs ks ss2 h2)

/-- One step, seen from outside. -/
theorem learnStep_ok {o : Ops F} {H : Hearing} {t : Nat} {pops : List (Pop N B F)} {projs : List (Proj F)}
    {pending : List (SynapticImpactMessage F)} {ext : List (Message F)}
    {st : List (Pop N B F) × List (Proj F)} {out : StepOut F}
    (h : learnStep (machine o) H t pops projs pending ext = .ok (st, out)) :
    st.1.map Pop.uid = pops.map Pop.uid ∧
    (∀ u ∈ pops.map Pop.uid, Props.givenTo out u =
      (pending ++ impactsIn ext).filter (fun m => H.impact u m.header.senderUid)) ∧
    (∀ u ∈ projs.map (fun j => j.ident.uid), Props.heardBy out u =
      (spikesIn ext ++ out.spikes).filter (fun m => H.spike u m.header.senderUid)) ∧
    ∃ mids, AllTrained o projs mids ∧
      st.2 = mids.map (fun j => (projStep o t j (Props.heardBy out j.ident.uid)).1) ∧
      out.impacts = mids.flatMap (fun j => (projStep o t j (Props.heardBy out j.ident.uid)).2.toList) := by
  unfold learnStep at h
  simp only at h
  cases hfp : learnPops (machine o) t (fun r => (pending ++ impactsIn ext).filter (fun m => H.impact r m.header.senderUid))
      pops projs with
  | throw w => rw [hfp] at h; cases h
  | ub => rw [hfp] at h; cases h
  | ok y =>
    obtain ⟨⟨ps', mids⟩, ss⟩ := y
    rw [hfp] at h
    simp only [Outcome.ok.injEq, Prod.mk.injEq] at h
    obtain ⟨h1, h2⟩ := h
    have htr := learnPops_trained _ _ _ _ _ hfp
    have huid := htr.uids
    have hh : ∀ u ∈ projs.map (fun j => j.ident.uid), Props.heardBy out u =
        (spikesIn ext ++ ss).filter (fun m => H.spike u m.header.senderUid) := by
      intro u hu
      rw [← h2]
      unfold Props.heardBy
      simp only
      rw [Props.lookup_map (machine (N := N) (B := B) o).projUid
        (fun r => (spikesIn ext ++ ss).filter (fun m => H.spike r m.header.senderUid)) u mids (by
          have : mids.map (machine (N := N) (B := B) o).projUid = projs.map (fun j => j.ident.uid) := huid
          rw [this]; exact hu)]
      rfl
    have hmid : ∀ j ∈ mids, Props.heardBy out j.ident.uid =
        (spikesIn ext ++ ss).filter (fun m => H.spike j.ident.uid m.header.senderUid) := by
      intro j hj
      exact hh _ (by rw [← huid]; exact List.mem_map.2 ⟨j, hj, rfl⟩)
    refine ⟨?_, ?_, ?_, mids, htr, ?_, ?_⟩
    · rw [← h1]
      exact (learnPops_uids (machine_keeps o) _ _ _ _ _ _ _ hfp).1
    · intro u hu
      rw [← h2]
      unfold Props.givenTo
      simp only
      rw [Props.lookup_map (machine (N := N) (B := B) o).popUid
        (fun r => (pending ++ impactsIn ext).filter (fun m => H.impact r m.header.senderUid)) u pops hu]
      rfl
    · intro u hu
      rw [hh u hu, ← h2]
    · rw [← h1]
      simp only
      apply List.map_congr_left
      intro j hj
      rw [hmid j hj]
      rfl
    · have himp : out.impacts = mids.flatMap (fun j => (projStep o t j ((spikesIn ext ++ ss).filter
          (fun m => H.spike j.ident.uid m.header.senderUid))).2.toList) := by rw [← h2]; rfl
      rw [himp, List.flatMap_def, List.flatMap_def]
      congr 1
      apply List.map_congr_left
      intro j hj
      rw [hmid j hj]

/-- What happens to one projection in one step: its state when the populations are done, what it hears, what it sends. -/
structure Entry (F : Type) where
  mid : Proj F
  msgs : List SpikeMessage
  out : Option (SynapticImpactMessage F)

/-- The history of one projection: in every step the populations train it and then it makes its own step. -/
inductive Trace (o : Ops F) : Nat → Proj F → List (Entry F) → Proj F → Prop
  | nil (t : Nat) (j : Proj F) : Trace o t j [] j
  | cons {t : Nat} {j mid j' : Proj F} {ms : List SpikeMessage} {es : List (Entry F)} : Trained o j mid →
      Trace o (t + 1) (projStep o t mid ms).1 es j' → Trace o t j (⟨mid, ms, (projStep o t mid ms).2⟩ :: es) j'

/-- The run of a learning backend as seen from outside, with the history of every projection. -/
theorem learnRun_ok {o : Ops F} {H : Hearing} (exts : List (List (Message F))) : ∀ (t : Nat) (pops : List (Pop N B F))
    (projs : List (Proj F)) (pending : List (SynapticImpactMessage F))
    (st : List (Pop N B F) × List (Proj F)) (os : List (StepOut F)),
    learnRun (machine o) H t pops projs pending exts = .ok (st, os) →
    (projs.map (fun j => j.ident.uid)).Nodup → (∀ j ∈ projs, QueueOk j) →
    os.length = exts.length ∧
    (∀ (i : Nat) (h : i < os.length), ∀ u ∈ projs.map (fun j => j.ident.uid), Props.heardBy os[i] u =
      (spikesIn (exts.getD i []) ++ os[i].spikes).filter (fun m => H.spike u m.header.senderUid)) ∧
    (∀ (n : Nat) (j : Proj F), projs[n]? = some j → ∃ es j', st.2[n]? = some j' ∧ Trace o t j es j' ∧
      es.map (fun e => e.msgs) = os.map (fun out => Props.heardBy out j.ident.uid) ∧
      es.map (fun e => e.out.toList) = os.map (fun out => out.impacts.filter (fun m => m.header.senderUid == j.ident.uid)) ∧
      ∀ i st' os', learnRun (machine o) H t pops projs pending (exts.take i) = .ok (st', os') →
        ∃ j1, st'.2[n]? = some j1 ∧ Trace o t j (es.take i) j1) ∧
    (∀ (h : 0 < os.length), ∀ u ∈ pops.map Pop.uid, Props.givenTo os[0] u =
      (pending ++ impactsIn (exts.getD 0 [])).filter (fun m => H.impact u m.header.senderUid)) ∧
    (∀ (i : Nat) (h : i + 1 < os.length), ∀ u ∈ pops.map Pop.uid, Props.givenTo os[i + 1] u =
      (os[i].impacts ++ impactsIn (exts.getD (i + 1) [])).filter (fun m => H.impact u m.header.senderUid)) := by
  induction exts with
  | nil =>
    intro t pops projs pending st os h _ _
    simp only [learnRun, Outcome.ok.injEq, Prod.mk.injEq] at h
    obtain ⟨rfl, rfl⟩ := h
    refine ⟨rfl, fun i h => by simp at h, ?_, fun h => by simp at h, fun i h => by simp at h⟩
    intro n j hj
    refine ⟨[], j, hj, .nil t j, rfl, rfl, ?_⟩
    intro i st' os' hr
    rw [List.take_nil] at hr
    simp only [learnRun, Outcome.ok.injEq, Prod.mk.injEq] at hr
    rw [← hr.1]
    exact ⟨j, hj, by rw [List.take_nil]; exact .nil t j⟩
  | cons ext exts ih =>
    intro t pops projs pending st os h hnd hq
    unfold learnRun at h
    cases hfs : learnStep (machine o) H t pops projs pending ext with
    | throw w => rw [hfs] at h; cases h
    | ub => rw [hfs] at h; cases h
    | ok x =>
      obtain ⟨st1, out⟩ := x
      rw [hfs] at h
      simp only at h
      cases hfr : learnRun (machine o) H (t + 1) st1.1 st1.2 out.impacts exts with
      | throw w => rw [hfr] at h; cases h
      | ub => rw [hfr] at h; cases h
      | ok y =>
        obtain ⟨st', os'⟩ := y
        rw [hfr] at h
        simp only [Outcome.ok.injEq, Prod.mk.injEq] at h
        obtain ⟨rfl, rfl⟩ := h
        obtain ⟨a1, a2, a3, mids, a4, a5, a6⟩ := learnStep_ok hfs
        have huid : st1.2.map (fun j => j.ident.uid) = projs.map (fun j => j.ident.uid) := by
          rw [a5, List.map_map, ← a4.uids]
          apply List.map_congr_left
          intro j _
          simp only [Function.comp, (projStep_ident o t j _).1]
        have hqm : ∀ j ∈ mids, QueueOk j := by
          intro j hj
          obtain ⟨n, hn⟩ := List.getElem?_of_mem hj
          have hlt : n < projs.length := by
            rw [← a4.1]; exact (List.getElem?_eq_some_iff.1 hn).1
          obtain ⟨j', h1, tr⟩ := a4.2 n projs[n] (List.getElem?_eq_getElem hlt)
          have : j' = j := Option.some.inj (h1.symm.trans hn)
          rw [← this]
          exact tr.queueOk (hq _ (List.getElem_mem hlt))
        have hq1 : ∀ j ∈ st1.2, QueueOk j := by
          intro j hj
          rw [a5] at hj
          obtain ⟨i, hi, rfl⟩ := List.mem_map.1 hj
          exact (projStep_queueOk o t i _ (hqm i hi)).2
        obtain ⟨b1, b2, b3, b4, b5⟩ := ih _ _ _ _ _ _ hfr (by rw [huid]; exact hnd) hq1
        refine ⟨by simp [b1], ?_, ?_, ?_, ?_⟩
        · intro i hi u hu
          cases i with
          | zero => exact a3 u hu
          | succ i =>
            have := b2 i (by simpa using hi) u (by rw [huid]; exact hu)
            simpa using this
        · intro n j hj
          obtain ⟨mid, hm, tr⟩ := a4.2 n j hj
          have hn1 : st1.2[n]? = some (projStep o t mid (Props.heardBy out mid.ident.uid)).1 := by
            rw [a5, List.getElem?_map, hm]; rfl
          obtain ⟨es, j', c1, c2, c3, c4, c5⟩ := b3 n _ hn1
          have hid : (projStep o t mid (Props.heardBy out mid.ident.uid)).1.ident = j.ident := by
            rw [(projStep_ident o t mid _).1, tr.ident]
          rw [hid] at c3 c4
          refine ⟨⟨mid, Props.heardBy out mid.ident.uid, (projStep o t mid (Props.heardBy out mid.ident.uid)).2⟩ :: es, j', c1,
            .cons tr c2, ?_, ?_, ?_⟩
          · rw [List.map_cons, List.map_cons, c3, tr.ident]
          · rw [List.map_cons, List.map_cons, c4]
            congr 1
            rw [a6]
            symm
            refine Props.flatMap_uid (fun i : Proj F => i.ident.uid) (fun m : SynapticImpactMessage F => m.header.senderUid)
              (fun i => (projStep o t i (Props.heardBy out i.ident.uid)).2.toList) j.ident.uid mid mids ?_
              (List.mem_of_getElem? hm) (by rw [tr.ident]) ?_
            · rw [a4.uids]; exact hnd
            · intro a ha b hb
              refine (projStep_queueOk o t a (Props.heardBy out a.ident.uid) (hqm a ha)).1 b ?_
              simpa using hb
          · intro i st2 os2 hr
            cases i with
            | zero =>
              rw [List.take_zero] at hr
              simp only [learnRun, Outcome.ok.injEq, Prod.mk.injEq] at hr
              rw [← hr.1]
              exact ⟨j, hj, by rw [List.take_zero]; exact .nil t j⟩
            | succ i =>
              rw [List.take_succ_cons] at hr
              unfold learnRun at hr
              rw [hfs] at hr
              simp only at hr
              cases hr2 : learnRun (machine o) H (t + 1) st1.1 st1.2 out.impacts (exts.take i) with
              | throw w => rw [hr2] at hr; cases hr
              | ub => rw [hr2] at hr; cases hr
              | ok z =>
                obtain ⟨st3, os3⟩ := z
                rw [hr2] at hr
                simp only [Outcome.ok.injEq, Prod.mk.injEq] at hr
                obtain ⟨j1, d1, d2⟩ := c5 i _ _ hr2
                rw [← hr.1]
                refine ⟨j1, d1, ?_⟩
                rw [List.take_succ_cons]
                exact .cons tr d2
        · intro _ u hu
          exact a2 u hu
        · intro i hi u hu
          cases i with
          | zero =>
            have := b4 (by simpa using hi) u (by rw [a1]; exact hu)
            simpa using this
          | succ i =>
            have := b5 i (by simpa using hi) u (by rw [a1]; exact hu)
            simpa using this

omit [Field F] [LinearOrder F] in
/-- A prefix of a run that ends normally ends normally. -/
theorem learnRun_take {m : Machine P J F} {H : Hearing} (exts : List (List (Message F))) : ∀ (t : Nat) (pops : List P)
    (projs : List J) (pending : List (SynapticImpactMessage F)) (st : List P × List J) (os : List (StepOut F)) (i : Nat),
    learnRun m H t pops projs pending exts = .ok (st, os) →
    ∃ st', learnRun m H t pops projs pending (exts.take i) = .ok (st', os.take i) := by
  induction exts with
  | nil =>
    intro t pops projs pending st os i h
    simp only [learnRun, Outcome.ok.injEq, Prod.mk.injEq] at h
    rw [List.take_nil, ← h.2, List.take_nil]
    exact ⟨_, rfl⟩
  | cons ext exts ih =>
    intro t pops projs pending st os i h
    cases i with
    | zero => exact ⟨_, rfl⟩
    | succ i =>
      unfold learnRun at h
      rw [List.take_succ_cons]
      unfold learnRun
      cases hfs : learnStep m H t pops projs pending ext with
      | throw w => rw [hfs] at h; cases h
      | ub => rw [hfs] at h; cases h
      | ok x =>
        obtain ⟨st1, out⟩ := x
        rw [hfs] at h
        simp only at h ⊢
        cases hfr : learnRun m H (t + 1) st1.1 st1.2 out.impacts exts with
        | throw w => rw [hfr] at h; cases h
        | ub => rw [hfr] at h; cases h
        | ok y =>
          obtain ⟨st', os'⟩ := y
          rw [hfr] at h
          simp only [Outcome.ok.injEq, Prod.mk.injEq] at h
          obtain ⟨st2, h2⟩ := ih _ _ _ _ _ _ i hfr
          rw [h2, ← h.2]
          exact ⟨_, rfl⟩

end Knp.Learn
