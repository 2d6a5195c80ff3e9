import Verif.Lemmas.LearnAgreeRun
import Verif.Lemmas.LearnResource

/-! # Lemmas: what a run of the multi-threaded learning backend does to one projection and to one population -/

namespace Knp.Learn
open Knp Knp.Bus Knp.Spec Knp.Neurons Knp.Sys Knp.Stdp Knp.Lemmas.Stdp

variable {N B F : Type} [Field F] [LinearOrder F]

/-! ## One projection -/

omit [Field F] [LinearOrder F] in
/-- The tasks of a projection write nothing but the step, whatever the parts are. -/
theorem markAll_steps (t part : Nat) (ms : List SpikeMessage) (syns : List (RSyn F)) :
    (markAll t part ms syns).map (touch 0) = syns.map (touch 0) := by
  unfold markAll
  cases ms with
  | nil => rfl
  | cons m ms =>
    simp only
    split
    · rfl
    · refine foldl_keeps (fun l : List (RSyn F) => l.map (touch 0) = syns.map (touch 0)) _ ?_ _ _ rfl
      intro l lo hl
      unfold markPart
      refine foldl_keeps (fun l : List (RSyn F) => l.map (touch 0) = syns.map (touch 0)) _ ?_ _ _ hl
      intro l k hl
      rw [← hl]
      apply List.ext_getElem?
      intro i
      rw [List.getElem?_map, List.getElem?_map, List.getElem?_modify]
      cases l[i]? with
      | none => simp
      | some s =>
        simp only [Option.map_some]
        split
        · simp only [Option.map_eq_map, Option.map_some]
          split <;> rfl
        · rfl

omit [Field F] [LinearOrder F] in
theorem markAll_view (t part : Nat) (ms : List SpikeMessage) (syns : List (RSyn F)) :
    (markAll t part ms syns).map ofR = syns.map ofR := by
  have h := congrArg (List.map (ofR (F := F))) (markAll_steps t part ms syns)
  rw [List.map_map, List.map_map] at h
  exact h

/-- What a projection's own step is. -/
structure StepsM (c : Config F) (t : Nat) (j : Proj F) (ms : List SpikeMessage) (j' : Proj F)
    (out : Option (SynapticImpactMessage F)) : Prop where
  ident : j'.ident = j.ident
  locked : j'.locked = j.locked
  tasks : ∃ ts, ts.Perm (Delta.tasks c.scale j.syns.view t c.projPart ms) ∧
    out = (Delta.stepMulti j.ident t j.queue ts).1 ∧ j'.queue = (Delta.stepMulti j.ident t j.queue ts).2
  delta : ∀ p, j.syns = .delta p → j'.syns = .delta p
  resource : ∀ pops syns pre post, j.syns = .resource pops syns pre post →
    j'.syns = .resource pops (markAll t c.projPart ms syns) pre post
  additive : kindOf j.syns ≠ 2

omit [Field F] [LinearOrder F] in
theorem projStepM_steps {c : Config F} {t : Nat} {j j' : Proj F} {ms : List SpikeMessage} {or : List Nat}
    {out : Option (SynapticImpactMessage F)} (h : projStepM c t j ms or = some (j', out)) : StepsM c t j ms j' out := by
  unfold projStepM at h
  cases hs : j.syns with
  | additive _ _ _ _ => rw [hs] at h; cases h
  | delta p =>
    rw [hs] at h
    simp only at h
    cases hr : reorder or (Delta.tasks c.scale p t c.projPart ms) with
    | none => rw [hr] at h; cases h
    | some ts =>
      rw [hr] at h
      simp only [Option.some.injEq, Prod.mk.injEq] at h
      refine ⟨by rw [← h.1], by rw [← h.1], ⟨ts, ?_, h.2.symm, by rw [← h.1]⟩, ?_, ?_, ?_⟩
      · rw [hs]; exact Props.reorder_perm _ _ _ hr
      · intro q hq; rw [hs] at hq; rw [← h.1]; simp only; exact hq
      · intro a b d e he; rw [hs] at he; cases he
      · rw [hs]; simp [kindOf]
  | resource pops syns pre post =>
    rw [hs] at h
    simp only at h
    cases hr : reorder or (Delta.tasks c.scale (Syns.resource pops syns pre post).view t c.projPart ms) with
    | none => rw [hr] at h; cases h
    | some ts =>
      rw [hr] at h
      simp only [Option.some.injEq, Prod.mk.injEq] at h
      refine ⟨by rw [← h.1], by rw [← h.1], ⟨ts, ?_, h.2.symm, by rw [← h.1]⟩, ?_, ?_, ?_⟩
      · rw [hs]; exact Props.reorder_perm _ _ _ hr
      · intro q hq; rw [hs] at hq; cases hq
      · intro a b d e he; rw [hs] at he; cases he; rw [← h.1]
      · rw [hs]; simp [kindOf]

omit [Field F] [LinearOrder F] in
theorem StepsM.kind {c : Config F} {t : Nat} {j j' : Proj F} {ms : List SpikeMessage}
    {out : Option (SynapticImpactMessage F)} (h : StepsM c t j ms j' out) : kindOf j'.syns = kindOf j.syns := by
  cases hs : j.syns with
  | delta p => rw [h.delta p hs]
  | resource a b d e => rw [h.resource _ _ _ _ hs]; rfl
  | additive a b d e => exact absurd (by rw [hs]; rfl) h.additive

omit [Field F] [LinearOrder F] in
/-- A projection's own step leaves what the impact calculation reads. -/
theorem StepsM.view {c : Config F} {t : Nat} {j j' : Proj F} {ms : List SpikeMessage}
    {out : Option (SynapticImpactMessage F)} (h : StepsM c t j ms j' out) : j'.syns.view = j.syns.view := by
  cases hs : j.syns with
  | delta p => rw [h.delta p hs]
  | resource a b d e =>
    rw [h.resource _ _ _ _ hs]
    unfold Syns.view
    simp only
    rw [markAll_view]
  | additive a b d e => exact absurd (by rw [hs]; rfl) h.additive

omit [Field F] [LinearOrder F] in
theorem qPushM_sender (d : Delta.Ident) (t key : Nat) (im : SynapticImpact F) : ∀ q : Delta.Queue F,
    (∀ e ∈ q, e.2.header.senderUid = d.uid) → ∀ e ∈ Delta.qPush (Delta.mkMulti d t) key im q, e.2.header.senderUid = d.uid := by
  intro q
  induction q with
  | nil =>
    intro _ e he
    simp only [Delta.qPush, List.mem_singleton] at he
    rw [he]; rfl
  | cons a q ih =>
    intro h e he
    obtain ⟨k, m⟩ := a
    unfold Delta.qPush at he
    by_cases hk : k = key
    · rw [if_pos hk] at he
      rcases List.mem_cons.1 he with rfl | he
      · exact h (k, m) (by simp)
      · exact h e (by simp [he])
    · rw [if_neg hk] at he
      rcases List.mem_cons.1 he with rfl | he
      · exact h (k, m) (by simp)
      · exact ih (fun e he => h e (by simp [he])) e he

omit [Field F] [LinearOrder F] in
theorem stepMulti_sender (d : Delta.Ident) (t : Nat) (q : Delta.Queue F) (ts : List (List (Nat × SynapticImpact F)))
    (h : ∀ e ∈ q, e.2.header.senderUid = d.uid) :
    (∀ m ∈ (Delta.stepMulti d t q ts).1, m.header.senderUid = d.uid) ∧
    (∀ e ∈ (Delta.stepMulti d t q ts).2, e.2.header.senderUid = d.uid) := by
  have h1 : ∀ e ∈ ts.foldl (Delta.mergeContainer d t) q, e.2.header.senderUid = d.uid := by
    refine foldl_keeps (fun q : Delta.Queue F => ∀ e ∈ q, e.2.header.senderUid = d.uid) _ ?_ _ _ h
    intro q m hq
    unfold Delta.mergeContainer
    refine foldl_keeps (fun q : Delta.Queue F => ∀ e ∈ q, e.2.header.senderUid = d.uid) _ ?_ _ _ hq
    intro q n hq
    exact qPushM_sender d t _ _ q hq
  unfold Delta.stepMulti
  simp only
  cases hf : Delta.qFind (ts.foldl (Delta.mergeContainer d t) q) t with
  | none => exact ⟨fun m hm => (by cases hm), h1⟩
  | some m =>
    refine ⟨fun m' hm => ?_, fun e he => h1 e (List.mem_filter.1 he).1⟩
    simp only [Option.mem_def, Option.some.injEq] at hm
    subst hm
    unfold Delta.qFind at hf
    obtain ⟨e, he, rfl⟩ := Option.map_eq_some_iff.1 hf
    exact h1 e (List.mem_of_find?_eq_some he)

omit [Field F] [LinearOrder F] in
theorem StepsM.queueOk {c : Config F} {t : Nat} {j j' : Proj F} {ms : List SpikeMessage}
    {out : Option (SynapticImpactMessage F)} (h : StepsM c t j ms j' out) (hq : QueueOk j) :
    (∀ m ∈ out, m.header.senderUid = j.ident.uid) ∧ QueueOk j' := by
  obtain ⟨ts, _, h2, h3⟩ := h.tasks
  obtain ⟨g1, g2⟩ := stepMulti_sender j.ident t j.queue ts hq
  refine ⟨by rw [h2]; exact g1, ?_⟩
  unfold QueueOk
  rw [h3, h.ident]
  exact g2

/-! ## The populations' part -/

omit [Field F] [LinearOrder F] in
theorem computeAll_get {P J : Type} {m : Machine P J F} {th : Threads P J F} {t : Nat}
    {G : UID → List (SynapticImpactMessage F)} : ∀ (pops : List P) (scs : List (List Nat × List Nat)) (ps : List P)
    (ss : List (Option SpikeMessage)), computeAll m th t G pops scs = some (.ok (ps, ss)) →
    ps.length = pops.length ∧ ∀ (n : Nat) (p : P), pops[n]? = some p →
      ∃ sc p1 s, th.compute t p (G (m.popUid p)) sc = some (.ok (p1, s)) ∧ ps[n]? = some p1 ∧ ss[n]? = some s := by
  intro pops
  induction pops with
  | nil =>
    intro scs ps ss h
    cases scs with
    | nil => simp only [computeAll, Option.some.injEq, Outcome.ok.injEq, Prod.mk.injEq] at h; rw [← h.1]; exact ⟨rfl, by simp⟩
    | cons a b => cases h
  | cons p pops ih =>
    intro scs ps ss h
    cases scs with
    | nil => cases h
    | cons sc scs =>
      unfold computeAll at h
      rcases h1 : th.compute t p (G (m.popUid p)) sc with _ | (r | w | _)
      all_goals rw [h1] at h; try cases h
      simp only at h
      rcases h2 : computeAll m th t G pops scs with _ | (⟨ps', ss'⟩ | w | _)
      all_goals rw [h2] at h; try cases h
      obtain ⟨a1, a2⟩ := ih _ _ _ h2
      refine ⟨by simp [a1], ?_⟩
      intro n q hq
      cases n with
      | zero =>
        simp only [List.getElem?_cons_zero, Option.some.injEq] at hq
        subst hq
        exact ⟨sc, r.1, r.2, h1, rfl, rfl⟩
      | succ n => simpa using a2 n q (by simpa using hq)

/-- The training tasks of a phase. -/
theorem tasks_trained {o : Ops F} {c : Config F} {t : Nat} {ss : List (Option SpikeMessage)} : ∀ (l : List Nat)
    (st st' : List (Pop N B F) × List (Proj F)), l.foldlM (trainTask (threads o c) t ss) st = .ok st' →
    st'.1.map Pop.uid = st.1.map Pop.uid ∧ AllTrained o st.2 st'.2 := by
  intro l
  induction l with
  | nil => intro st st' h; cases h; exact ⟨rfl, AllTrained.refl o _⟩
  | cons k l ih =>
    intro st st' h
    rw [List.foldlM_cons] at h
    cases h1 : trainTask (threads o c) t ss st k with
    | throw w => rw [h1] at h; cases h
    | ub => rw [h1] at h; cases h
    | ok st1 =>
      rw [h1, Outcome.bind_ok] at h
      obtain ⟨i1, i2⟩ := ih _ _ h
      have key : st1.1.map Pop.uid = st.1.map Pop.uid ∧ AllTrained o st.2 st1.2 := by
        cases hp : st.1[k]? with
        | none =>
          rw [trainTask_none _ _ _ _ _ (Or.inl hp)] at h1
          cases h1
          exact ⟨rfl, AllTrained.refl o _⟩
        | some p =>
          cases hs : ss[k]? with
          | none =>
            rw [trainTask_none _ _ _ _ _ (Or.inr hs)] at h1
            cases h1
            exact ⟨rfl, AllTrained.refl o _⟩
          | some s =>
            unfold trainTask at h1
            rw [hp, hs] at h1
            simp only at h1
            cases h2 : (threads o c).train t p st.2 s with
            | throw w => rw [h2] at h1; cases h1
            | ub => rw [h2] at h1; cases h1
            | ok r =>
              rw [h2] at h1
              simp only [Outcome.ok.injEq] at h1
              obtain ⟨f1, _, _, f4, _⟩ := trainM_facts (o := o) (p1 := r.1) (js1 := r.2) h2
              rw [← h1]
              refine ⟨?_, f4⟩
              simp only
              rw [List.map_set, f1]
              apply List.ext_getElem?
              intro i
              rw [List.getElem?_set]
              split
              · rename_i he
                subst he
                rw [List.getElem?_map, hp]
                simp [(List.getElem?_eq_some_iff.1 hp).1]
              · rfl
      exact ⟨i1.trans key.1, key.2.trans i2⟩

/-! ## Steps and runs -/

/-- One step, seen from outside. -/
theorem learnStepM_ok {o : Ops F} {c : Config F} {H : Hearing} {t : Nat} {pops : List (Pop N B F)} {projs : List (Proj F)}
    {pending : List (SynapticImpactMessage F)} {ext : List (Message F)} {sc : Sched}
    {st : List (Pop N B F) × List (Proj F)} {out : StepOut F}
    (h : learnStepM (machine o) (threads o c) H t pops projs pending ext sc = some (.ok (st, out))) :
    st.1.map Pop.uid = pops.map Pop.uid ∧
    (∀ u ∈ pops.map Pop.uid, Props.givenTo out u = pending.filter (fun m => H.impact u m.header.senderUid)) ∧
    (∀ u ∈ projs.map (fun j => j.ident.uid), Props.heardBy out u =
      (out.spikes ++ spikesIn ext).filter (fun m => H.spike u m.header.senderUid)) ∧
    ∃ rs : List (Proj F × Proj F × Option (SynapticImpactMessage F)), AllTrained o projs (rs.map (·.1)) ∧
      (∀ r ∈ rs, ∃ or, projStepM c t r.1 (Props.heardBy out r.1.ident.uid) or = some r.2) ∧
      st.2 = rs.map (·.2.1) ∧ out.impacts = rs.flatMap (·.2.2.toList) := by
  obtain ⟨G, hG, ps, ss, h1, ps1, js1, h2, A, hA, js2, ms, h3, h4, h5⟩ := stepM_ok h
  obtain ⟨c1, c2⟩ := computeAll_get _ _ _ _ h1
  have hu0 : ps.map Pop.uid = pops.map Pop.uid := by
    apply List.ext_getElem?
    intro n
    rw [List.getElem?_map, List.getElem?_map]
    cases hp : pops[n]? with
    | none =>
      rw [List.getElem?_eq_none_iff] at hp
      rw [List.getElem?_eq_none (by omega)]
    | some p =>
      obtain ⟨sc', p1, s, d1, d2, _⟩ := c2 n p hp
      rw [d2, Option.map_some, Option.map_some, computeM_uid (c := c) d1]
  have htr : ps1.map Pop.uid = ps.map Pop.uid ∧ AllTrained o projs js1 := by
    unfold trainPhase at h2
    split at h2
    · exact tasks_trained _ _ _ (Option.some.inj h2)
    · cases h2
  have huid := htr.2.uids
  have hh : ∀ u ∈ projs.map (fun j => j.ident.uid), Props.heardBy out u = A u := by
    intro u hu
    rw [h5]
    unfold Props.heardBy
    simp only
    rw [Props.lookup_map (fun j : Proj F => j.ident.uid) A u js1 (by rw [huid]; exact hu)]
    rfl
  have hmid : ∀ j ∈ js1, Props.heardBy out j.ident.uid = A j.ident.uid := by
    intro j hj
    exact hh _ (by rw [← huid]; exact List.mem_map.2 ⟨j, hj, rfl⟩)
  have hrs : ∀ (js : List (Proj F)) (os : List (List Nat)) (js2 : List (Proj F)) (ms : List (SynapticImpactMessage F)),
      (∀ j ∈ js, Props.heardBy out j.ident.uid = A j.ident.uid) →
      projectAll (machine (N := N) (B := B) o) (threads o c) t A js os = some (js2, ms) →
      ∃ rs : List (Proj F × Proj F × Option (SynapticImpactMessage F)), rs.map (·.1) = js ∧
      (∀ r ∈ rs, ∃ or, projStepM c t r.1 (Props.heardBy out r.1.ident.uid) or = some r.2) ∧
      js2 = rs.map (·.2.1) ∧ ms = rs.flatMap (·.2.2.toList) := by
    intro js
    induction js with
    | nil =>
      intro os js2 ms _ hx
      have := projectAll_nil hx
      simp only [Prod.mk.injEq] at this
      exact ⟨[], rfl, by simp, this.1, this.2⟩
    | cons j js ih =>
      intro os js2 ms hm hx
      obtain ⟨or, os', r, js', ms', e1, e2, e3⟩ := projectAll_cons hx
      obtain ⟨rs, r1, r2, r3, r4⟩ := ih _ _ _ (fun j hj => hm j (by simp [hj])) e2
      simp only [Prod.mk.injEq] at e3
      refine ⟨(j, r) :: rs, by simp [r1], ?_, by rw [e3.1, r3]; rfl, by rw [e3.2, r4]; rfl⟩
      intro x hx
      rcases List.mem_cons.1 hx with rfl | hx
      · exact ⟨or, by rw [hm j (by simp)]; exact e1⟩
      · exact r2 x hx
  obtain ⟨rs, r1, r2, r3, r4⟩ := hrs _ _ _ _ hmid h3
  refine ⟨by rw [h4]; exact htr.1.trans hu0, ?_, ?_, rs, by rw [r1]; exact htr.2, r2, by rw [h4]; exact r3, by rw [h5]; exact r4⟩
  · intro u hu
    rw [h5]
    unfold Props.givenTo
    simp only
    rw [Props.lookup_map Pop.uid G u pops hu, hG]
    rfl
  · intro u hu
    rw [hh u hu, hA, h5]

/-- The history of one projection on the multi-threaded backend. -/
inductive TraceM (o : Ops F) (c : Config F) : Nat → Proj F → List (Entry F) → Proj F → Prop
  | nil (t : Nat) (j : Proj F) : TraceM o c t j [] j
  | cons {t : Nat} {j mid j1 j' : Proj F} {ms : List SpikeMessage} {out : Option (SynapticImpactMessage F)} {es : List (Entry F)} :
      Trained o j mid → StepsM c t mid ms j1 out → TraceM o c (t + 1) j1 es j' → TraceM o c t j (⟨mid, ms, out⟩ :: es) j'

/-- The run of a learning backend as seen from outside, with the history of every projection. -/
theorem learnRunM_ok {o : Ops F} {c : Config F} {H : Hearing} (exts : List (List (Message F) × Sched)) : ∀ (t : Nat)
    (pops : List (Pop N B F)) (projs : List (Proj F)) (pending : List (SynapticImpactMessage F))
    (st : List (Pop N B F) × List (Proj F)) (os : List (StepOut F)),
    learnRunM (machine o) (threads o c) H t pops projs pending exts = some (.ok (st, os)) →
    (projs.map (fun j => j.ident.uid)).Nodup → (∀ j ∈ projs, QueueOk j) →
    os.length = exts.length ∧
    (∀ (i : Nat) (h : i < os.length), ∀ u ∈ projs.map (fun j => j.ident.uid), Props.heardBy os[i] u =
      (os[i].spikes ++ spikesIn (exts.getD i ([], ⟨[], [], []⟩)).1).filter (fun m => H.spike u m.header.senderUid)) ∧
    (∀ (n : Nat) (j : Proj F), projs[n]? = some j → ∃ es j', st.2[n]? = some j' ∧ TraceM o c t j es j' ∧
      es.map (fun e => e.msgs) = os.map (fun out => Props.heardBy out j.ident.uid) ∧
      es.map (fun e => e.out.toList) = os.map (fun out => out.impacts.filter (fun m => m.header.senderUid == j.ident.uid)) ∧
      ∀ i st' os', learnRunM (machine o) (threads o c) H t pops projs pending (exts.take i) = some (.ok (st', os')) →
        ∃ j1, st'.2[n]? = some j1 ∧ TraceM o c t j (es.take i) j1) ∧
    (∀ (h : 0 < os.length), ∀ u ∈ pops.map Pop.uid, Props.givenTo os[0] u =
      pending.filter (fun m => H.impact u m.header.senderUid)) ∧
    (∀ (i : Nat) (h : i + 1 < os.length), ∀ u ∈ pops.map Pop.uid, Props.givenTo os[i + 1] u =
      (impactsIn (exts.getD i ([], ⟨[], [], []⟩)).1 ++ os[i].impacts).filter (fun m => H.impact u m.header.senderUid)) := by
  induction exts with
  | nil =>
    intro t pops projs pending st os h _ _
    simp only [learnRunM, Option.some.injEq, Outcome.ok.injEq, Prod.mk.injEq] at h
    obtain ⟨rfl, rfl⟩ := h
    refine ⟨rfl, fun i h => by simp at h, ?_, fun h => by simp at h, fun i h => by simp at h⟩
    intro n j hj
    refine ⟨[], j, hj, .nil t j, rfl, rfl, ?_⟩
    intro i st' os' hr
    rw [List.take_nil] at hr
    simp only [learnRunM, Option.some.injEq, Outcome.ok.injEq, Prod.mk.injEq] at hr
    rw [← hr.1]
    exact ⟨j, hj, by rw [List.take_nil]; exact .nil t j⟩
  | cons ext exts ih =>
    intro t pops projs pending st os h hnd hq
    unfold learnRunM at h
    rcases hfs : learnStepM (machine o) (threads o c) H t pops projs pending ext.1 ext.2 with _ | (⟨st1, out⟩ | w | _)
    all_goals rw [hfs] at h; try cases h
    simp only at h
    rcases hfr : learnRunM (machine o) (threads o c) H (t + 1) st1.1 st1.2 (impactsIn ext.1 ++ out.impacts) exts with _ | (⟨st', os'⟩ | w | _)
    all_goals rw [hfr] at h; try cases h
    obtain ⟨a1, a2, a3, rs, a4, a5, a6, a7⟩ := learnStepM_ok hfs
    have hstep : ∀ r ∈ rs, StepsM c t r.1 (Props.heardBy out r.1.ident.uid) r.2.1 r.2.2 := by
      intro r hr
      obtain ⟨or, hx⟩ := a5 r hr
      exact projStepM_steps (by rw [hx])
    have huid : st1.2.map (fun j => j.ident.uid) = projs.map (fun j => j.ident.uid) := by
      rw [a6, List.map_map, ← a4.uids, List.map_map]
      apply List.map_congr_left
      intro r hr
      simp only [Function.comp, (hstep r hr).ident]
    have hqm : ∀ r ∈ rs, QueueOk r.1 := by
      intro r hr
      obtain ⟨j, g1, tr⟩ := allTrained_mem a4 (List.mem_map.2 ⟨r, hr, rfl⟩)
      exact tr.queueOk (hq _ g1)
    have hq1 : ∀ j ∈ st1.2, QueueOk j := by
      intro j hj
      rw [a6] at hj
      obtain ⟨i, hi, rfl⟩ := List.mem_map.1 hj
      exact ((hstep i hi).queueOk (hqm i hi)).2
    obtain ⟨b1, b2, b3, b4, b5⟩ := ih _ _ _ _ _ _ hfr (by rw [huid]; exact hnd) hq1
    refine ⟨by simp [b1], ?_, ?_, ?_, ?_⟩
    · intro i hi u hu
      cases i with
      | zero => exact a3 u hu
      | succ i =>
        have := b2 i (by simpa using hi) u (by rw [huid]; exact hu)
        simpa using this
    · intro n j hj
      obtain ⟨mid, hm, tr⟩ := a4.2 n j hj
      rw [List.getElem?_map] at hm
      obtain ⟨r, hr, hrm⟩ := Option.map_eq_some_iff.1 hm
      subst hrm
      have hrr := List.mem_of_getElem? hr
      have hn1 : st1.2[n]? = some r.2.1 := by rw [a6, List.getElem?_map, hr]; rfl
      obtain ⟨es, j', c1, c2, c3, c4, c5⟩ := b3 n _ hn1
      have hid : r.2.1.ident = j.ident := by rw [(hstep r hrr).ident, tr.ident]
      rw [hid] at c3 c4
      refine ⟨⟨r.1, Props.heardBy out r.1.ident.uid, r.2.2⟩ :: es, j', c1, .cons tr (hstep r hrr) c2, ?_, ?_, ?_⟩
      · rw [List.map_cons, List.map_cons, c3, tr.ident]
      · rw [List.map_cons, List.map_cons, c4]
        congr 1
        rw [a7]
        symm
        refine Props.flatMap_uid (fun i : Proj F × Proj F × Option (SynapticImpactMessage F) => i.1.ident.uid)
          (fun m : SynapticImpactMessage F => m.header.senderUid)
          (fun i => i.2.2.toList) j.ident.uid r rs ?_ hrr (by rw [tr.ident]) ?_
        · have := a4.uids
          rw [List.map_map] at this
          exact this ▸ hnd
        · intro a ha b hb
          refine ((hstep a ha).queueOk (hqm a ha)).1 b ?_
          simpa using hb
      · intro i st2 os2 hr2
        cases i with
        | zero =>
          rw [List.take_zero] at hr2
          simp only [learnRunM, Option.some.injEq, Outcome.ok.injEq, Prod.mk.injEq] at hr2
          rw [← hr2.1]
          exact ⟨j, hj, by rw [List.take_zero]; exact .nil t j⟩
        | succ i =>
          rw [List.take_succ_cons] at hr2
          unfold learnRunM at hr2
          rw [hfs] at hr2
          simp only at hr2
          rcases hr3 : learnRunM (machine o) (threads o c) H (t + 1) st1.1 st1.2 (impactsIn ext.1 ++ out.impacts) (exts.take i) with _ | (⟨st3, os3⟩ | w | _)
          all_goals rw [hr3] at hr2; try cases hr2
          obtain ⟨j1, d1, d2⟩ := c5 i _ _ hr3
          refine ⟨j1, d1, ?_⟩
          rw [List.take_succ_cons]
          exact .cons tr (hstep r hrr) d2
    · intro _ u hu
      exact a2 u hu
    · intro i hi u hu
      cases i with
      | zero =>
        have := b4 (by simpa using hi) u (by rw [a1]; exact hu)
        simpa using this
      | succ i =>
        have := b5 i (by simpa using hi) u (by rw [a1]; exact hu)
        simpa using this

omit [Field F] [LinearOrder F] in
/-- A prefix of a run that ends normally ends normally. -/
theorem learnRunM_take {P J : Type} {m : Machine P J F} {th : Threads P J F} {H : Hearing}
    (exts : List (List (Message F) × Sched)) : ∀ (t : Nat) (pops : List P)
    (projs : List J) (pending : List (SynapticImpactMessage F)) (st : List P × List J) (os : List (StepOut F)) (i : Nat),
    learnRunM m th H t pops projs pending exts = some (.ok (st, os)) →
    ∃ st', learnRunM m th H t pops projs pending (exts.take i) = some (.ok (st', os.take i)) := by
  induction exts with
  | nil =>
    intro t pops projs pending st os i h
    simp only [learnRunM, Option.some.injEq, Outcome.ok.injEq, Prod.mk.injEq] at h
    rw [List.take_nil, ← h.2, List.take_nil]
    exact ⟨_, rfl⟩
  | cons ext exts ih =>
    intro t pops projs pending st os i h
    cases i with
    | zero => exact ⟨_, rfl⟩
    | succ i =>
      unfold learnRunM at h
      rw [List.take_succ_cons]
      unfold learnRunM
      rcases hfs : learnStepM m th H t pops projs pending ext.1 ext.2 with _ | (⟨st1, out⟩ | w | _)
      all_goals rw [hfs] at h; try cases h
      simp only at h ⊢
      rcases hfr : learnRunM m th H (t + 1) st1.1 st1.2 (impactsIn ext.1 ++ out.impacts) exts with _ | (⟨st', os'⟩ | w | _)
      all_goals rw [hfr] at h; try cases h
      obtain ⟨st2, h2⟩ := ih _ _ _ _ _ _ i hfr
      rw [h2]
      exact ⟨_, rfl⟩

/-! ## Histories -/

theorem TraceM.same {o : Ops F} {c : Config F} {t : Nat} {j j' : Proj F} {es : List (Entry F)} (h : TraceM o c t j es j') :
    (j'.ident = j.ident ∧ j'.locked = j.locked ∧ kindOf j'.syns = kindOf j.syns ∧ skeleton j'.syns.view = skeleton j.syns.view) ∧
    ∀ e ∈ es, e.mid.ident = j.ident ∧ kindOf e.mid.syns = kindOf j.syns ∧ skeleton e.mid.syns.view = skeleton j.syns.view := by
  induction h with
  | nil t j => exact ⟨⟨rfl, rfl, rfl, rfl⟩, by simp⟩
  | @cons t j mid j1 j' ms out es h1 hs h2 ih =>
    obtain ⟨⟨a1, a2, a3, a4⟩, b⟩ := ih
    have p1 := hs.ident
    have p2 := hs.locked
    have p3 := hs.kind
    have p4 : skeleton j1.syns.view = skeleton mid.syns.view := by rw [hs.view]
    refine ⟨⟨a1.trans (p1.trans h1.ident), a2.trans (p2.trans h1.locked), a3.trans (p3.trans h1.kind),
      a4.trans (p4.trans h1.skeleton)⟩, ?_⟩
    intro e he
    rcases List.mem_cons.1 he with rfl | he
    · exact ⟨h1.ident, h1.kind, h1.skeleton⟩
    · obtain ⟨c1, c2, c3⟩ := b e he
      exact ⟨c1.trans (p1.trans h1.ident), c2.trans (p3.trans h1.kind), c3.trans (p4.trans h1.skeleton)⟩

/-- What the projection sends: the tasks of every step in some order. -/
theorem TraceM.sends {o : Ops F} {c : Config F} {t : Nat} {j j' : Proj F} {es : List (Entry F)} (h : TraceM o c t j es j') :
    ∃ orders, Props.Scheduled c.scale c.projPart t (es.map (fun e => ⟨e.mid.syns.view, e.msgs⟩)) orders ∧
      (Delta.runMulti j.ident t j.queue orders).1 = es.map (fun e => e.out) := by
  induction h with
  | nil t j => exact ⟨[], trivial, rfl⟩
  | @cons t j mid j1 j' ms out es h1 hs h2 ih =>
    obtain ⟨orders, i1, i2⟩ := ih
    obtain ⟨ts, t1, t2, t3⟩ := hs.tasks
    refine ⟨ts :: orders, ⟨t1, i1⟩, ?_⟩
    rw [List.map_cons, ← i2, hs.ident, t3, t2, h1.ident, h1.queue]
    rfl

/-- The last step of a history. -/
theorem TraceM.last {o : Ops F} {c : Config F} {t : Nat} {j j' : Proj F} {es : List (Entry F)} (h : TraceM o c t j es j') :
    ∀ (i : Nat) (hi : i + 1 = es.length), j'.syns.view = (es[i]'(by omega)).mid.syns.view := by
  induction h with
  | nil t j => intro i hi; simp at hi
  | @cons t j mid j1 j' ms out es h1 hs h2 ih =>
    intro i hi
    cases i with
    | zero =>
      have : es = [] := by simpa using hi
      subst this
      cases h2
      exact hs.view
    | succ i =>
      have := ih i (by simpa using hi)
      rw [this]
      simp only [List.getElem_cons_succ]

/-! ## The resource of a neuron -/

/-- Free resource and drain flag. -/
def budget (n : Res B F) : F × Nat := (n.rule.free, n.rule.drain)

omit [Field F] [LinearOrder F] in
theorem set_budget {l : List (Res B F)} {i : Nat} {n n' : Res B F} (hn : l[i]? = some n) (h : budget n' = budget n) :
    (l.set i n').map budget = l.map budget := by
  apply List.ext_getElem?
  intro k
  rw [List.map_set, List.getElem?_set]
  split
  · rename_i he
    subst he
    rw [List.getElem?_map, hn, h]
    simp [(List.getElem?_eq_some_iff.1 hn).1]
  · rfl

omit [Field F] [LinearOrder F] in
theorem KeepsResource.multi {k : Kind (Res B F) F} (hk : KeepsResource k) {u : UID} {t part : Nat} {ns ns' : List (Res B F)}
    {ms : List (SynapticImpactMessage F)} {s1 s2 : List Nat} {s : Option SpikeMessage}
    (h : multiPopulation k u t part ns ms s1 s2 = some (.ok (ns', s))) : ns'.map budget = ns.map budget := by
  unfold multiPopulation at h
  cases hp : postedTasks ns.length part with
  | none => rw [hp] at h; cases h
  | some tasks =>
    rw [hp] at h
    simp only at h
    have g1 : ∀ (l : List Nat) (st : Par (Res B F)), st.pop.map budget = ns.map budget →
        (l.foldl (preMove k) st).pop.map budget = ns.map budget := by
      refine foldl_keeps (fun st : Par (Res B F) => st.pop.map budget = ns.map budget) _ ?_
      intro st i hst
      unfold preMove
      split
      · exact hst
      · split
        · exact hst
        · split
          · split
            · rename_i n hn
              exact (set_budget hn (by unfold budget; rw [(hk.pre n).1, (hk.pre n).2])).trans hst
            · exact hst
          · exact hst
    have g2 : ∀ (l : List Nat) (st : Par (Res B F)), st.pop.map budget = ns.map budget →
        (l.foldl (postMove k) st).pop.map budget = ns.map budget := by
      refine foldl_keeps (fun st : Par (Res B F) => st.pop.map budget = ns.map budget) _ ?_
      intro st i hst
      unfold postMove
      split
      · exact hst
      · split
        · exact hst
        · split
          · split
            · rename_i n hn
              exact (set_budget hn (by unfold budget; rw [(hk.post n).1, (hk.post n).2])).trans hst
            · exact hst
          · exact hst
    have g3 : ∀ (l : List (SynapticImpact F)) (b : Bool) (p q : List (Res B F)),
        l.foldlM (fun q i => impactAt k q i b) p = Outcome.ok q → q.map budget = p.map budget := by
      intro l b
      induction l with
      | nil => intro p q hc; cases hc; rfl
      | cons x l ih =>
        intro p q hc
        rw [List.foldlM_cons] at hc
        cases hx : impactAt k p x b with
        | throw w => rw [hx] at hc; cases hc
        | ub => rw [hx] at hc; cases hc
        | ok m =>
          rw [hx, Outcome.bind_ok] at hc
          refine (ih _ _ hc).trans ?_
          unfold impactAt at hx
          cases hn : p[x.postsynapticNeuronIndex]? with
          | none => rw [hn] at hx; cases hx
          | some n =>
            rw [hn] at hx
            simp only at hx
            cases hi : k.impact n x b with
            | throw w => rw [hi] at hx; cases hx
            | ub => rw [hi] at hx; cases hx
            | ok n' =>
              rw [hi, Outcome.bind_ok] at hx
              have := Outcome.ok.inj hx
              rw [← this]
              obtain ⟨j1, j2⟩ := hk.impact _ _ _ _ hi
              exact set_budget hn (by unfold budget; rw [j1, j2])
    have g4 : ∀ (l : List (SynapticImpactMessage F)) (p q : List (Res B F)),
        impactPopulation k p l = Outcome.ok q → q.map budget = p.map budget := by
      intro l
      unfold impactPopulation
      induction l with
      | nil => intro p q hc; cases hc; rfl
      | cons x l ih =>
        intro p q hc
        rw [List.foldlM_cons] at hc
        cases hx : x.impacts.foldlM (fun q i => impactAt k q i x.isForcing) p with
        | throw w => rw [hx] at hc; cases hc
        | ub => rw [hx] at hc; cases hc
        | ok m =>
          rw [hx, Outcome.bind_ok] at hc
          exact (ih _ _ hc).trans (g3 _ _ _ _ hx)
    split at h
    · cases hi : impactPopulation k (s1.foldl (preMove k) ⟨ns, [], tasks⟩).pop ms with
      | throw w => rw [hi] at h; cases h
      | ub => rw [hi] at h; cases h
      | ok p2 =>
        rw [hi] at h
        simp only at h
        split at h
        · simp only [Option.some.injEq, Outcome.ok.injEq, Prod.mk.injEq] at h
          rw [← h.1]
          exact g2 _ _ ((g4 _ _ _ hi).trans (g1 _ _ rfl))
        · cases h
    · cases h

omit [LinearOrder F] in
theorem budget_between {u : UID} {ns ns' : List (Res B F)} (h : ns'.map budget = ns.map budget) (rs : List (RProj F)) :
    Props.Between u (⟨ns, rs⟩ : Stdp.State B F) ⟨ns', rs⟩ := by
  have each : ∀ i : Nat, (ns'[i]?).map budget = (ns[i]?).map budget := by
    intro i
    rw [← List.getElem?_map, ← List.getElem?_map, h]
  refine ⟨fun i => ?_, fun i => ?_, rfl, fun h => h⟩
  · have := congrArg (Option.map Prod.fst) (each i)
    rw [Option.map_map, Option.map_map] at this
    unfold freeOf
    simp only
    cases h1 : ns'[i]? <;> cases h2 : ns[i]? <;> rw [h1, h2] at this
    · cases this
    · cases this
    · exact Option.some.inj this
  · have := congrArg (Option.map Prod.snd) (each i)
    rw [Option.map_map, Option.map_map] at this
    exact this

/-- The training tasks, as one population sees them. -/
theorem tasks_history {o : Ops F} {c : Config F} {t : Nat} {ss : List (Option SpikeMessage)} {u : UID} {k : Kind (Res B F) F}
    {b : BaseOps B F} {a : Stdp.State B F} : ∀ (l : List Nat) (st st' : List (Pop N B F) × List (Proj F)),
    l.foldlM (trainTask (threads o c) t ss) st = .ok st' → (st.1.map Pop.uid).Nodup →
    ∀ (n : Nat) (ns : List (Res B F)), st.1[n]? = some (.trained u k b ns) → Props.History o b u a ⟨ns, st.2.map Proj.toR⟩ →
      ∃ ns', st'.1[n]? = some (.trained u k b ns') ∧ Props.History o b u a ⟨ns', st'.2.map Proj.toR⟩ := by
  intro l
  induction l with
  | nil => intro st st' h _ n ns hn hh; cases h; exact ⟨ns, hn, hh⟩
  | cons x l ih =>
    intro st st' h hnd n ns hn hh
    rw [List.foldlM_cons] at h
    cases h1 : trainTask (threads o c) t ss st x with
    | throw w => rw [h1] at h; cases h
    | ub => rw [h1] at h; cases h
    | ok st1 =>
      rw [h1, Outcome.bind_ok] at h
      have huid : st1.1.map Pop.uid = st.1.map Pop.uid := (tasks_trained [x] st st1 (by rw [List.foldlM_cons, h1]; rfl)).1
      have key : ∃ ns', st1.1[n]? = some (.trained u k b ns') ∧ Props.History o b u a ⟨ns', st1.2.map Proj.toR⟩ := by
        cases hp : st.1[x]? with
        | none =>
          rw [trainTask_none _ _ _ _ _ (Or.inl hp)] at h1
          cases h1
          exact ⟨ns, hn, hh⟩
        | some p =>
          cases hs : ss[x]? with
          | none =>
            rw [trainTask_none _ _ _ _ _ (Or.inr hs)] at h1
            cases h1
            exact ⟨ns, hn, hh⟩
          | some s =>
            unfold trainTask at h1
            rw [hp, hs] at h1
            simp only at h1
            cases h2 : (threads o c).train t p st.2 s with
            | throw w => rw [h2] at h1; cases h1
            | ub => rw [h2] at h1; cases h1
            | ok r =>
              rw [h2] at h1
              simp only [Outcome.ok.injEq] at h1
              rw [← h1]
              simp only
              have h3 : trainM o t p st.2 s = .ok r := h2
              by_cases hx : x = n
              · subst hx
                have : p = .trained u k b ns := Option.some.inj (hp.symm.trans hn)
                subst this
                simp only [trainM] at h3
                cases h4 : train o b u (spikedIn s) t ⟨ns, st.2.map Proj.toR⟩ with
                | throw w => rw [h4] at h3; cases h3
                | ub => rw [h4] at h3; cases h3
                | ok z =>
                  rw [h4] at h3
                  simp only [Outcome.ok.injEq] at h3
                  refine ⟨z.neurons, ?_, ?_⟩
                  · rw [List.getElem?_set_self (List.getElem?_eq_some_iff.1 hp).1, ← h3]
                  · rw [← h3]
                    simp only
                    rw [(putAll_trained h4).2]
                    exact .train hh h4
              · refine ⟨ns, by rw [List.getElem?_set_ne hx]; exact hn, ?_⟩
                have hne : p.uid ≠ u := by
                  intro he
                  apply hx
                  refine (List.Nodup.getElem_inj_iff hnd (i := x) (j := n) (hi := ?_) (hj := ?_)).1 ?_
                  · rw [List.length_map]; exact (List.getElem?_eq_some_iff.1 hp).1
                  · rw [List.length_map]; exact (List.getElem?_eq_some_iff.1 hn).1
                  · rw [List.getElem_map, List.getElem_map, (List.getElem?_eq_some_iff.1 hp).2,
                      (List.getElem?_eq_some_iff.1 hn).2, he]
                    rfl
                cases p with
                | plain v k' qs =>
                  simp only [trainM, Outcome.ok.injEq] at h3
                  rw [← h3]
                  exact hh
                | trained v k' b' qs =>
                  simp only [trainM] at h3
                  cases h4 : train o b' v (spikedIn s) t ⟨qs, st.2.map Proj.toR⟩ with
                  | throw w => rw [h4] at h3; cases h3
                  | ub => rw [h4] at h3; cases h3
                  | ok z =>
                    rw [h4] at h3
                    simp only [Outcome.ok.injEq] at h3
                    rw [← h3]
                    simp only
                    rw [(putAll_trained h4).2]
                    exact .between hh (train_between hne h4 ns)
      obtain ⟨ns1, q1, q2⟩ := key
      exact ih st1 st' h (by rw [huid]; exact hnd) n ns1 q1 q2

omit [Field F] [LinearOrder F] in
theorem StepsM.toR {c : Config F} {t : Nat} {j j' : Proj F} {ms : List SpikeMessage}
    {out : Option (SynapticImpactMessage F)} (h : StepsM c t j ms j' out) :
    j'.toR.post = j.toR.post ∧ j'.toR.locked = j.toR.locked ∧ j'.toR.find = j.toR.find ∧
      j'.toR.syns.map (touch 0) = j.toR.syns.map (touch 0) := by
  have h1 := h.ident
  have h2 := h.locked
  unfold Proj.toR
  cases hs : j.syns with
  | delta p => rw [h.delta p hs, h1]; exact ⟨rfl, rfl, rfl, rfl⟩
  | additive a b d e => exact absurd (by rw [hs]; rfl) h.additive
  | resource pops syns pre post =>
    rw [h.resource _ _ _ _ hs, h1, h2]
    exact ⟨rfl, rfl, rfl, markAll_steps _ _ _ _⟩

omit [LinearOrder F] in
theorem stepsM_between {c : Config F} {t : Nat} (u : UID) (rs : List (Proj F × Proj F × Option (SynapticImpactMessage F)))
    (g : UID → List SpikeMessage) (h : ∀ r ∈ rs, StepsM c t r.1 (g r.1.ident.uid) r.2.1 r.2.2) (ns : List (Res B F)) :
    Props.Between u (⟨ns, (rs.map (·.1)).map Proj.toR⟩ : Stdp.State B F) ⟨ns, (rs.map (·.2.1)).map Proj.toR⟩ := by
  refine ⟨fun _ => rfl, fun _ => rfl, filter_map_ext ?_, ?_⟩
  · rw [List.map_map, List.map_map, List.map_map, List.map_map]
    apply List.map_congr_left
    intro r hr
    obtain ⟨h2, h3, _, h5⟩ := (h r hr).toR
    simp only [Function.comp]
    have ht : Trains u r.2.1.toR ↔ Trains u r.1.toR := by
      unfold Trains; rw [h2, h3]
    have hm := congrArg (List.map (fun s : RSyn F => (s.target, s.rule.resource))) h5
    rw [List.map_map, List.map_map] at hm
    by_cases hc : Trains u r.1.toR
    · rw [if_pos hc, if_pos (ht.2 hc)]
      exact congrArg some hm
    · rw [if_neg hc, if_neg (fun h => hc (ht.1 h))]
  · intro hf p hp
    simp only [List.map_map] at hp hf
    obtain ⟨r, hr, rfl⟩ := List.mem_map.1 hp
    obtain ⟨_, _, h4, h5⟩ := (h r hr).toR
    exact untimed_find h4 h5 (hf _ (List.mem_map.2 ⟨r, hr, rfl⟩))

/-- A population of trained neurons in a run has a history in the sense of C56. -/
theorem learnRunM_history {o : Ops F} {c : Config F} {H : Hearing} {u : UID} {k : Kind (Res B F) F} {b : BaseOps B F}
    (hk : KeepsResource k) {a : Stdp.State B F} (exts : List (List (Message F) × Sched)) : ∀ (t : Nat) (pops : List (Pop N B F))
    (projs : List (Proj F)) (pending : List (SynapticImpactMessage F))
    (st : List (Pop N B F) × List (Proj F)) (os : List (StepOut F)),
    learnRunM (machine o) (threads o c) H t pops projs pending exts = some (.ok (st, os)) → (pops.map Pop.uid).Nodup →
    ∀ (n : Nat) (ns : List (Res B F)), pops[n]? = some (.trained u k b ns) →
      Props.History o b u a ⟨ns, projs.map Proj.toR⟩ →
      ∃ ns', st.1[n]? = some (.trained u k b ns') ∧ Props.History o b u a ⟨ns', st.2.map Proj.toR⟩ := by
  induction exts with
  | nil =>
    intro t pops projs pending st os h _ n ns hn hh
    simp only [learnRunM, Option.some.injEq, Outcome.ok.injEq, Prod.mk.injEq] at h
    rw [← h.1]
    exact ⟨ns, hn, hh⟩
  | cons ext exts ih =>
    intro t pops projs pending st os h hnd n ns hn hh
    unfold learnRunM at h
    rcases hfs : learnStepM (machine o) (threads o c) H t pops projs pending ext.1 ext.2 with _ | (⟨st1, out⟩ | w | _)
    all_goals rw [hfs] at h; try cases h
    simp only at h
    rcases hfr : learnRunM (machine o) (threads o c) H (t + 1) st1.1 st1.2 (impactsIn ext.1 ++ out.impacts) exts with _ | (⟨st', os'⟩ | w | _)
    all_goals rw [hfr] at h; try cases h
    have a1 := (learnStepM_ok hfs).1
    obtain ⟨G, hG, ps, ss, h1, ps1, js1, h2, A, hA, js2, ms, h3, h4, h5⟩ := stepM_ok hfs
    obtain ⟨c1, c2⟩ := computeAll_get _ _ _ _ h1
    have hu0 : ps.map Pop.uid = pops.map Pop.uid := by
      apply List.ext_getElem?
      intro n
      rw [List.getElem?_map, List.getElem?_map]
      cases hp : pops[n]? with
      | none =>
        rw [List.getElem?_eq_none_iff] at hp
        rw [List.getElem?_eq_none (by omega)]
      | some p =>
        obtain ⟨sc', p1, s, d1, d2, _⟩ := c2 n p hp
        rw [d2, Option.map_some, Option.map_some, computeM_uid (c := c) d1]
    -- the population computes
    obtain ⟨sc', p1, s, d1, d2, _⟩ := c2 n _ hn
    have d3 : computeM c t (Pop.trained u k b ns) (G u) sc' = some (.ok (p1, s)) := d1
    unfold computeM at d3
    simp only [Option.map_eq_some_iff] at d3
    obtain ⟨x, e1, e2⟩ := d3
    cases x with
    | throw w => simp only [computed] at e2; cases e2
    | ub => simp only [computed] at e2; cases e2
    | ok z =>
      simp only [computed, Outcome.ok.injEq, Prod.mk.injEq] at e2
      have hz : Props.History o b u a ⟨z.1, projs.map Proj.toR⟩ :=
        .between hh (budget_between (hk.multi (ns' := z.1) (s := z.2) e1) _)
      -- training
      have h2' : ∃ ns', ps1[n]? = some (.trained u k b ns') ∧ Props.History o b u a ⟨ns', js1.map Proj.toR⟩ := by
        unfold trainPhase at h2
        split at h2
        · exact tasks_history _ (ps, projs) (ps1, js1) (Option.some.inj h2) (by rw [hu0]; exact hnd) n z.1
            (by simp only; rw [d2, ← e2.1]) hz
        · cases h2
      obtain ⟨ns1, q1, q2⟩ := h2'
      -- the projections
      have hrs : ∀ (js : List (Proj F)) (os : List (List Nat)) (js2 : List (Proj F)) (ms : List (SynapticImpactMessage F)),
          projectAll (machine (N := N) (B := B) o) (threads o c) t A js os = some (js2, ms) →
          ∃ rs : List (Proj F × Proj F × Option (SynapticImpactMessage F)), rs.map (·.1) = js ∧ js2 = rs.map (·.2.1) ∧
            ∀ r ∈ rs, StepsM c t r.1 (A r.1.ident.uid) r.2.1 r.2.2 := by
        intro js
        induction js with
        | nil =>
          intro os js2 ms hx
          have := projectAll_nil hx
          simp only [Prod.mk.injEq] at this
          exact ⟨[], rfl, this.1, by simp⟩
        | cons j js ih =>
          intro os js2 ms hx
          obtain ⟨or, os', r, js', ms', e1, e2, e3⟩ := projectAll_cons hx
          obtain ⟨rs, r1, r2, r3⟩ := ih _ _ _ e2
          simp only [Prod.mk.injEq] at e3
          refine ⟨(j, r) :: rs, by simp [r1], by rw [e3.1, r2]; rfl, ?_⟩
          intro x hx
          rcases List.mem_cons.1 hx with rfl | hx
          · exact projStepM_steps e1
          · exact r3 x hx
      obtain ⟨rs, r1, r2, r3⟩ := hrs _ _ _ _ h3
      have k1 : st1.1 = ps1 := by rw [h4]
      have k2 : st1.2 = rs.map (·.2.1) := by rw [h4]; exact r2
      refine ih _ _ _ _ _ _ hfr (by rw [a1]; exact hnd) n ns1 (by rw [k1]; exact q1) ?_
      rw [k2]
      rw [← r1] at q2
      exact .between q2 (stepsM_between u rs A r3 ns1)

end Knp.Learn
