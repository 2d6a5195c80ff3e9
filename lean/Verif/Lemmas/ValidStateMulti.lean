import Verif.Lemmas.ValidState

/-! # Lemmas: the multi-threaded backend and networks that stay in safe states -/

namespace Knp.Learn
open Knp Knp.Bus Knp.Spec Knp.Neurons Knp.Sys Knp.Stdp Knp.Lemmas.Stdp Knp.Props

variable {N B F : Type} {I : N → Prop} {J : B → Prop} [Field F] [LinearOrder F]

omit [Field F] [LinearOrder F] in
theorem computeM_in (c : Config F) (hc : 1 ≤ c.popPart ∧ c.popPart < two64) (t : Nat) (p : Pop N B F) (hp : p.size ≤ 2 ^ 63)
    (ms : List (SynapticImpactMessage F)) (h : PopSteady I J p ∧ ∀ m ∈ ms, ∀ i ∈ m.impacts, AccIn I J p i) (sc : List Nat × List Nat) (r : Outcome (Pop N B F × Option SpikeMessage))
    (hr : computeM c t p ms sc = some r) : ∃ p1 s, r = .ok (p1, s) ∧ StableIn I J p p1 ∧ Fine p1 s := by
  obtain ⟨p1, s, h1, h2⟩ := computeS_in t p ms h.1 h.2
  have hn := computeM_near c hc t p hp ms sc r hr
  rw [h1] at hn
  cases r with
  | throw w => exact hn.elim
  | ub => exact hn.elim
  | ok x =>
    obtain ⟨e1, e2⟩ := hn
    refine ⟨x.1, x.2, rfl, by rw [e1]; exact h2, ?_⟩
    rw [e1]
    exact ((computeS_facts t p p1 ms s h1).2.2.2).same (SameSpikes.symm e2)

theorem computeAll_in (o : Ops F) (c : Config F) (hc : 1 ≤ c.popPart ∧ c.popPart < two64) (t : Nat)
    (G : UID → List (SynapticImpactMessage F)) : ∀ (pops : List (Pop N B F)) (scs : List (List Nat × List Nat))
    (r : Outcome (List (Pop N B F) × List (Option SpikeMessage))), (∀ p ∈ pops, p.size ≤ 2 ^ 63) →
    (∀ p ∈ pops, PopSteady I J p ∧ ∀ m ∈ G p.uid, ∀ i ∈ m.impacts, AccIn I J p i) → computeAll (machine o) (threads o c) t G pops scs = some r →
    ∃ ps ss, r = .ok (ps, ss) ∧ List.Forall₂ (StableIn I J) pops ps ∧ List.Forall₂ Fine ps ss := by
  intro pops
  induction pops with
  | nil =>
    intro scs r _ _ h
    cases scs with
    | nil => cases h; exact ⟨[], [], rfl, .nil, .nil⟩
    | cons a b => cases h
  | cons p pops ih =>
    intro scs r hsz ha h
    cases scs with
    | nil => cases h
    | cons sc scs =>
      unfold computeAll at h
      cases h1 : (threads o c).compute t p (G ((machine (N := N) (B := B) o).popUid p)) sc with
      | none => rw [h1] at h; cases h
      | some x =>
        obtain ⟨p1, s, rfl, s1, f1⟩ := computeM_in (I := I) (J := J) c hc t p (hsz p (by simp)) _ (ha p (by simp)) sc x h1
        rw [h1] at h
        simp only at h
        cases h2 : computeAll (machine o) (threads o c) t G pops scs with
        | none => rw [h2] at h; cases h
        | some y =>
          obtain ⟨ps, ss, rfl, s2, f2⟩ := ih scs y (fun q hq => hsz q (by simp [hq])) (fun q hq => ha q (by simp [hq])) h2
          rw [h2] at h
          simp only [Option.some.injEq] at h
          exact ⟨p1 :: ps, s :: ss, h.symm, .cons s1 s2, .cons f1 f2⟩

omit [Field F] [LinearOrder F] in
theorem stableIn_set {l : List (Pop N B F)} {k : Nat} {p p1 : Pop N B F} (hl : ∀ q ∈ l, PopSteady I J q) (hp : l[k]? = some p)
    (hs : StableIn I J p p1) : List.Forall₂ (StableIn I J) l (l.set k p1) := by
  induction l generalizing k with
  | nil => simp at hp
  | cons a l ih =>
    cases k with
    | zero =>
      simp only [List.getElem?_cons_zero, Option.some.injEq] at hp
      subst hp
      exact .cons hs (stableIn_self l (fun q hq => hl q (by simp [hq])))
    | succ k => exact .cons ⟨rfl, rfl, fun _ _ => Iff.rfl, hl a (by simp)⟩ (ih (fun q hq => hl q (by simp [hq])) (by simpa using hp))

omit [Field F] [LinearOrder F] in
theorem steady_after {a b : List (Pop N B F)} (h : List.Forall₂ (StableIn I J) a b) : ∀ p ∈ b, PopSteady I J p := by
  induction h with
  | nil => intro p hp; simp at hp
  | cons h _ ih =>
    intro p hp
    rcases List.mem_cons.1 hp with rfl | hp
    · exact h.steady
    · exact ih p hp

theorem tasks_in (o : Ops F) (c : Config F) (t : Nat) (ss : List (Option SpikeMessage)) : ∀ (l : List Nat)
    (st : List (Pop N B F) × List (Proj F)), List.Forall₂ Fine st.1 ss → (∀ p ∈ st.1, PopSteady I J p) →
    ∃ st', l.foldlM (trainTask (threads o c) t ss) st = .ok st' ∧ List.Forall₂ (StableIn I J) st.1 st'.1 ∧ AllTrained o st.2 st'.2 := by
  intro l
  induction l with
  | nil =>
    intro st _ hI
    exact ⟨st, rfl, stableIn_self _ hI, AllTrained.refl o _⟩
  | cons k l ih =>
    intro st hf hI
    cases hp : st.1[k]? with
    | none =>
      obtain ⟨st', h1, h2⟩ := ih st hf hI
      exact ⟨st', by rw [List.foldlM_cons, trainTask_none _ _ _ _ _ (Or.inl hp)]; exact h1, h2⟩
    | some p =>
      cases hs : ss[k]? with
      | none =>
        obtain ⟨st', h1, h2⟩ := ih st hf hI
        exact ⟨st', by rw [List.foldlM_cons, trainTask_none _ _ _ _ _ (Or.inr hs)]; exact h1, h2⟩
      | some s =>
        obtain ⟨p1, js1, h1, s1⟩ := trainM_in (I := I) (J := J) o t p st.2 s (hI p (List.mem_of_getElem? hp)) (forall₂_get hf k p s hp hs)
        have hf' : List.Forall₂ Fine (st.1.set k p1) ss :=
          forall₂_set hf k p p1 hp (fun y hy => ⟨hy.1, fun i hi => by rw [s1.size]; exact hy.2 i hi⟩)
        obtain ⟨st', h2, s2, a2⟩ := ih (st.1.set k p1, js1) hf' (steady_after (stableIn_set hI hp s1))
        refine ⟨st', ?_, stableIn_trans (stableIn_set hI hp s1) s2, (trainM_facts h1).2.2.2.1.trans a2⟩
        rw [List.foldlM_cons, trainTask_eq o c t ss st k p s hp hs, h1]
        exact h2

omit [Field F] [LinearOrder F] in
theorem stableIn_size {a b : List (Pop N B F)} (h : List.Forall₂ (StableIn I J) a b) {n : Nat} (hs : ∀ p ∈ a, p.size ≤ n) :
    ∀ p ∈ b, p.size ≤ n := by
  induction h with
  | nil => intro p hp; simp at hp
  | cons h _ ih =>
    intro p hp
    rcases List.mem_cons.1 hp with rfl | hp
    · rw [h.size]; exact hs _ (by simp)
    · exact ih (fun q hq => hs q (by simp [hq])) p hp

variable (I J) in
/-- What the network keeps between the steps. -/
structure SafeMIn (H : Hearing) (c : Config F) (pops0 pops : List (Pop N B F)) (projs : List (Proj F))
    (pending : List (SynapticImpactMessage F)) : Prop where
  stable : List.Forall₂ (StableIn I J) pops0 pops
  size : ∀ p ∈ pops0, p.size ≤ 2 ^ 63
  projs : ∀ j ∈ projs, JSafe (okIn I J H pops0) (fun w v => ∃ n, v = c.scale w n) j
  pending : ∀ m ∈ pending, Fits (okIn I J H pops0) m

theorem learnStepM_in {o : Ops F} {c : Config F} (hc : 1 ≤ c.popPart ∧ c.popPart < two64) {H : Hearing} {t : Nat}
    {pops0 pops : List (Pop N B F)} {projs : List (Proj F)} {pending : List (SynapticImpactMessage F)} {ext : List (Message F)}
    (h : SafeMIn I J H c pops0 pops projs pending) (he : impactsIn ext = []) {sc : Sched}
    {r : Outcome ((List (Pop N B F) × List (Proj F)) × StepOut F)}
    (hr : learnStepM (machine o) (threads o c) H t pops projs pending ext sc = some r) :
    ∃ st out, r = .ok (st, out) ∧ SafeMIn I J H c pops0 st.1 st.2 (impactsIn ext ++ out.impacts) := by
  obtain ⟨G, hG, x, h1, h2⟩ := stepM_parts hr
  have hacc : ∀ p ∈ pops, PopSteady I J p ∧ ∀ m ∈ G p.uid, ∀ i ∈ m.impacts, AccIn I J p i := by rw [hG]; exact given_in h.stable h.pending
  obtain ⟨ps, ss, rfl, s1, f1⟩ := computeAll_in (I := I) (J := J) o c hc t G pops sc.pops x (stableIn_size h.stable h.size) hacc h1
  obtain ⟨y, h3, h4⟩ := h2 ps ss rfl
  obtain ⟨st', t1, t2, t3⟩ := tasks_in (I := I) (J := J) o c t ss sc.train (ps, projs) f1 (steady_after s1)
  have hy : y = .ok st' := by
    unfold trainPhase at h3
    split at h3
    · rw [t1] at h3; exact (Option.some.inj h3).symm
    · cases h3
  obtain ⟨A, hA, js2, ms, h5, h6⟩ := h4 st'.1 st'.2 hy
  refine ⟨_, _, h6, ?_⟩
  rw [h6] at hr
  obtain ⟨_, _, _, rs, r1, r2, r3, r4⟩ := learnStepM_ok hr
  simp only at r3 r4
  have hm : ∀ r ∈ rs, JSafe (okIn I J H pops0) (fun w v => ∃ n, v = c.scale w n) r.1 := by
    intro r hrm
    obtain ⟨i, hi, tr⟩ := allTrained_mem r1 (List.mem_map.2 ⟨r, hrm, rfl⟩)
    exact tr.safe (h.projs i hi)
  refine ⟨stableIn_trans h.stable
    (stableIn_trans s1 t2), h.size, ?_, ?_⟩
  · intro j hj
    simp only [r3] at hj
    obtain ⟨r, hrm, rfl⟩ := List.mem_map.1 hj
    obtain ⟨or, ho⟩ := r2 r hrm
    exact ((projStepM_steps ho).safe (hm r hrm)).2
  · rw [he, List.nil_append]
    intro m hmm
    simp only [r4] at hmm
    obtain ⟨r, hrm, hmi⟩ := List.mem_flatMap.1 hmm
    obtain ⟨or, ho⟩ := r2 r hrm
    exact ((projStepM_steps ho).safe (hm r hrm)).1 m (by simpa using hmi)

theorem learnRunM_in {o : Ops F} {c : Config F} (hc : 1 ≤ c.popPart ∧ c.popPart < two64) {H : Hearing} {pops0 : List (Pop N B F)} :
    ∀ (exts : List (List (Message F) × Sched)) (t : Nat) (pops : List (Pop N B F)) (projs : List (Proj F))
    (pending : List (SynapticImpactMessage F)) (r : Outcome ((List (Pop N B F) × List (Proj F)) × List (StepOut F))),
    SafeMIn I J H c pops0 pops projs pending → (∀ ext ∈ exts, impactsIn ext.1 = []) →
    learnRunM (machine o) (threads o c) H t pops projs pending exts = some r → r.isOk = true := by
  intro exts
  induction exts with
  | nil => intro t pops projs pending r _ _ h; cases h; rfl
  | cons ext exts ih =>
    intro t pops projs pending r h1 h2 h
    unfold learnRunM at h
    cases hs : learnStepM (machine o) (threads o c) H t pops projs pending ext.1 ext.2 with
    | none => rw [hs] at h; cases h
    | some x =>
      obtain ⟨st, out, rfl, hsafe⟩ := learnStepM_in hc h1 (h2 ext (by simp)) hs
      rw [hs] at h
      simp only at h
      cases hr : learnRunM (machine o) (threads o c) H (t + 1) st.1 st.2 (impactsIn ext.1 ++ out.impacts) exts with
      | none => rw [hr] at h; cases h
      | some y =>
        have := ih _ _ _ _ y hsafe (fun x hx => h2 x (by simp [hx])) hr
        cases y with
        | throw w => cases this
        | ub => cases this
        | ok z => rw [hr] at h; cases h; rfl

/-! ## Schedules that complete -/

theorem computeAll_inSome (o : Ops F) (c : Config F) (hc : 1 ≤ c.popPart ∧ c.popPart < two64) (t : Nat)
    (G : UID → List (SynapticImpactMessage F)) : ∀ (pops : List (Pop N B F)), (∀ p ∈ pops, p.size ≤ 2 ^ 63) →
    (∀ p ∈ pops, PopSteady I J p ∧ ∀ m ∈ G p.uid, ∀ i ∈ m.impacts, AccIn I J p i) → ∃ scs r, computeAll (machine o) (threads o c) t G pops scs = some r := by
  intro pops
  induction pops with
  | nil => intro _ _; exact ⟨[], _, rfl⟩
  | cons p pops ih =>
    intro hs ha
    obtain ⟨sc, r, h1⟩ := computeM_some c hc t p (hs p (by simp)) (G p.uid)
    obtain ⟨p1, s, rfl, _⟩ := computeM_in (I := I) (J := J) c hc t p (hs p (by simp)) _ (ha p (by simp)) sc r h1
    obtain ⟨scs, x, h2⟩ := ih (fun q hq => hs q (by simp [hq])) (fun q hq => ha q (by simp [hq]))
    obtain ⟨ps, ss, rfl, _⟩ := computeAll_in (I := I) (J := J) o c hc t G pops scs x (fun q hq => hs q (by simp [hq]))
      (fun q hq => ha q (by simp [hq])) h2
    have h1' : (threads o c).compute t p (G ((machine (N := N) (B := B) o).popUid p)) sc = _ := h1
    refine ⟨sc :: scs, .ok (p1 :: ps, s :: ss), ?_⟩
    unfold computeAll
    rw [h1']
    simp only [h2]

theorem learnStepM_inSome {o : Ops F} {c : Config F} (hc : 1 ≤ c.popPart ∧ c.popPart < two64) {H : Hearing} {t : Nat}
    {pops0 pops : List (Pop N B F)} {projs : List (Proj F)} {pending : List (SynapticImpactMessage F)} (ext : List (Message F))
    (h : SafeMIn I J H c pops0 pops projs pending) (hk : ∀ j ∈ projs, kindOf j.syns ≠ 2) :
    ∃ sc r, learnStepM (machine o) (threads o c) H t pops projs pending ext sc = some r := by
  have hacc := given_in h.stable h.pending
  obtain ⟨scs, x, h1⟩ := computeAll_inSome (I := I) (J := J) o c hc t
    (fun u => pending.filter (fun x => H.impact u x.header.senderUid)) pops (stableIn_size h.stable h.size) hacc
  obtain ⟨ps, ss, rfl, s1, f1⟩ := computeAll_in (I := I) (J := J) o c hc t _ pops scs x (stableIn_size h.stable h.size) hacc h1
  obtain ⟨st', t1, _, t3⟩ := tasks_in (I := I) (J := J) o c t ss (List.range ps.length) (ps, projs) f1 (steady_after s1)
  have h2 : trainPhase (threads o c) t ss ps projs (List.range ps.length) = some (.ok st') := by
    unfold trainPhase
    rw [if_pos (List.Perm.refl _), t1]
  obtain ⟨ors, y, h3⟩ := projectAll_some (N := N) (B := B) o c t
    (fun u => (ss.flatMap Option.toList ++ spikesIn ext).filter (fun x => H.spike u x.header.senderUid)) st'.2 (by
      intro j hj
      obtain ⟨i, hi, tr⟩ := allTrained_mem t3 hj
      rw [tr.kind]; exact hk i hi)
  refine ⟨⟨scs, List.range ps.length, ors⟩, ?_⟩
  unfold learnStepM
  simp only [h1, h2, h3]
  exact ⟨_, rfl⟩

/-- A completed run can be continued. -/
theorem learnRunM_inMore {o : Ops F} {c : Config F} (hc : 1 ≤ c.popPart ∧ c.popPart < two64) {H : Hearing} {pops0 : List (Pop N B F)}
    (more : List (Message F)) :
    ∀ (exts : List (List (Message F) × Sched)) (t : Nat) (pops : List (Pop N B F)) (projs : List (Proj F))
    (pending : List (SynapticImpactMessage F)) (r : Outcome ((List (Pop N B F) × List (Proj F)) × List (StepOut F))),
    SafeMIn I J H c pops0 pops projs pending → (∀ j ∈ projs, kindOf j.syns ≠ 2) → (∀ ext ∈ exts, impactsIn ext.1 = []) →
    impactsIn more = [] → learnRunM (machine o) (threads o c) H t pops projs pending exts = some r →
    ∃ sc r', learnRunM (machine o) (threads o c) H t pops projs pending (exts ++ [(more, sc)]) = some (.ok r') := by
  intro exts
  induction exts with
  | nil =>
    intro t pops projs pending r h1 hk _ hm _
    obtain ⟨sc, x, h2⟩ := learnStepM_inSome (o := o) hc (t := t) more h1 hk
    obtain ⟨st, out, rfl, _⟩ := learnStepM_in hc h1 hm h2
    refine ⟨sc, (st, [out]), ?_⟩
    rw [List.nil_append]
    unfold learnRunM
    simp only [h2]
    rfl
  | cons ext exts ih =>
    intro t pops projs pending r h1 hk h2 hm h
    unfold learnRunM at h
    cases hs : learnStepM (machine o) (threads o c) H t pops projs pending ext.1 ext.2 with
    | none => rw [hs] at h; cases h
    | some x =>
      obtain ⟨st, out, rfl, hsafe⟩ := learnStepM_in hc h1 (h2 ext (by simp)) hs
      rw [hs] at h
      simp only at h
      cases hr : learnRunM (machine o) (threads o c) H (t + 1) st.1 st.2 (impactsIn ext.1 ++ out.impacts) exts with
      | none => rw [hr] at h; cases h
      | some y =>
        obtain ⟨sc, r', h3⟩ := ih _ _ _ _ y hsafe (learnStepM_kind hs) (fun x hx => h2 x (by simp [hx])) hm hr
        refine ⟨sc, (r'.1, out :: r'.2), ?_⟩
        rw [List.cons_append]
        unfold learnRunM
        simp only [hs, h3]

end Knp.Learn
