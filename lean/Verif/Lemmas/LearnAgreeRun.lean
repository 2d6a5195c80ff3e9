import Verif.Lemmas.LearnAgreeProj

/-! # Lemmas: two runs of a learning network that differ in schedules, parts or backend (steps and runs) -/

namespace Knp.Learn
open Knp Knp.Bus Knp.Spec Knp.Neurons Knp.Sys Knp.Stdp Knp.Lemmas.Stdp Knp.Props

variable {N B F : Type} [Field F] [LinearOrder F]

theorem size_orderFree {p : Pop N B F} (h : OrderFree p) : p.size ≤ 2 ^ 63 := by
  cases p <;> exact h.2

theorem computeM_uid {c : Config F} {t : Nat} {p p1 : Pop N B F} {ms : List (SynapticImpactMessage F)} {sc : List Nat × List Nat}
    {s : Option SpikeMessage} (h : computeM c t p ms sc = some (.ok (p1, s))) : p1.uid = p.uid := by
  cases p with
  | plain u k ns =>
    unfold computeM at h
    simp only [Option.map_eq_some_iff] at h
    obtain ⟨x, _, h2⟩ := h
    cases x with
    | ok r => simp only [computed, Outcome.ok.injEq, Prod.mk.injEq] at h2; rw [← h2.1]; rfl
    | throw w => cases h2
    | ub => cases h2
  | trained u k b ns =>
    unfold computeM at h
    simp only [Option.map_eq_some_iff] at h
    obtain ⟨x, _, h2⟩ := h
    cases x with
    | ok r => simp only [computed, Outcome.ok.injEq, Prod.mk.injEq] at h2; rw [← h2.1]; rfl
    | throw w => cases h2
    | ub => cases h2

theorem projStepM_ident {c : Config F} {t : Nat} {j j' : Proj F} {ms : List SpikeMessage} {or : List Nat}
    {s : Option (SynapticImpactMessage F)} (h : projStepM c t j ms or = some (j', s)) : j'.ident = j.ident ∧ j'.locked = j.locked := by
  unfold projStepM at h
  cases hs : j.syns with
  | additive _ _ _ _ => rw [hs] at h; cases h
  | delta p =>
    rw [hs] at h
    simp only at h
    split at h
    · cases h
    · simp only [Option.some.injEq, Prod.mk.injEq] at h
      rw [← h.1]
      exact ⟨rfl, rfl⟩
  | resource pops syns pre post =>
    rw [hs] at h
    simp only at h
    split at h
    · cases h
    · simp only [Option.some.injEq, Prod.mk.injEq] at h
      rw [← h.1]
      exact ⟨rfl, rfl⟩

/-- Names stay. -/
theorem threads_keep (o : Ops F) (c : Config F) : KeepsM (machine (N := N) (B := B) o) (threads o c) := by
  refine ⟨?_, ?_, ?_⟩
  · intro t p ms sc p1 s h
    exact computeM_uid h
  · intro t p js s p1 js1 h
    obtain ⟨f1, _, _, f4, _⟩ := trainM_facts (o := o) h
    exact ⟨f1, f4.uids⟩
  · intro t j ms or j1 s h
    exact congrArg Delta.Ident.uid (projStepM_ident h).1

theorem same_uids {t : Nat} {js js2 : List (Proj F)} (h : List.Forall₂ (SameProjL t) js js2) (g : UID → List SpikeMessage) :
    js2.map (fun j => (j.ident.uid, g j.ident.uid)) = js.map (fun j => (j.ident.uid, g j.ident.uid)) := by
  induction h with
  | nil => rfl
  | cons h _ ih => rw [List.map_cons, List.map_cons, ih, h.ident]

/-- What a step of the multi-threaded backend consists of. -/
theorem stepM_parts {o : Ops F} {c : Config F} {H : Hearing} {t : Nat} {pops : List (Pop N B F)} {js : List (Proj F)}
    {pend : List (SynapticImpactMessage F)} {ext : List (Message F)} {sc : Sched}
    {r : Outcome ((List (Pop N B F) × List (Proj F)) × StepOut F)}
    (h : learnStepM (machine o) (threads o c) H t pops js pend ext sc = some r) :
    ∃ G : UID → List (SynapticImpactMessage F), (G = fun u => pend.filter (fun x => H.impact u x.header.senderUid)) ∧
    ∃ x, computeAll (machine o) (threads o c) t G pops sc.pops = some x ∧ ∀ ps ss, x = .ok (ps, ss) →
    ∃ y, trainPhase (threads o c) t ss ps js sc.train = some y ∧ ∀ ps1 js1, y = .ok (ps1, js1) →
    ∃ A : UID → List SpikeMessage, (A = fun u => (ss.flatMap Option.toList ++ spikesIn ext).filter (fun x => H.spike u x.header.senderUid)) ∧
    ∃ js2 ms, projectAll (machine (N := N) (B := B) o) (threads o c) t A js1 sc.projs = some (js2, ms) ∧
      r = .ok ((ps1, js2), ⟨pops.map (fun p => (p.uid, G p.uid)), ss.flatMap Option.toList,
        js1.map (fun j => (j.ident.uid, A j.ident.uid)), ms⟩) := by
  unfold learnStepM at h
  simp only at h
  refine ⟨_, rfl, ?_⟩
  generalize hG : (fun u => pend.filter (fun x => H.impact u x.header.senderUid)) = G at h ⊢
  cases h1 : computeAll (machine o) (threads o c) t G pops sc.pops with
  | none => rw [h1] at h; cases h
  | some x =>
    refine ⟨x, rfl, ?_⟩
    rintro ps ss rfl
    rw [h1] at h
    simp only at h
    cases h2 : trainPhase (threads o c) t ss ps js sc.train with
    | none => rw [h2] at h; cases h
    | some y =>
      refine ⟨y, rfl, ?_⟩
      rintro ps1 js1 rfl
      rw [h2] at h
      simp only at h
      refine ⟨_, rfl, ?_⟩
      generalize hA : (fun u => (ss.flatMap Option.toList ++ spikesIn ext).filter (fun x => H.spike u x.header.senderUid)) = A at h ⊢
      cases h3 : projectAll (machine (N := N) (B := B) o) (threads o c) t A js1 sc.projs with
      | none => rw [h3] at h; cases h
      | some z =>
        obtain ⟨js2, ms⟩ := z
        rw [h3] at h
        simp only [Option.some.injEq] at h
        refine ⟨js2, ms, rfl, ?_⟩
        rw [← h]
        rfl

/-- If the step of the multi-threaded backend succeeds, all its phases do. -/
theorem stepM_ok {o : Ops F} {c : Config F} {H : Hearing} {t : Nat} {pops : List (Pop N B F)} {js : List (Proj F)}
    {pend : List (SynapticImpactMessage F)} {ext : List (Message F)} {sc : Sched}
    {st : List (Pop N B F) × List (Proj F)} {out : StepOut F}
    (h : learnStepM (machine o) (threads o c) H t pops js pend ext sc = some (.ok (st, out))) :
    ∃ G : UID → List (SynapticImpactMessage F), (G = fun u => pend.filter (fun x => H.impact u x.header.senderUid)) ∧
    ∃ ps ss, computeAll (machine o) (threads o c) t G pops sc.pops = some (.ok (ps, ss)) ∧
    ∃ ps1 js1, trainPhase (threads o c) t ss ps js sc.train = some (.ok (ps1, js1)) ∧
    ∃ A : UID → List SpikeMessage, (A = fun u => (ss.flatMap Option.toList ++ spikesIn ext).filter (fun x => H.spike u x.header.senderUid)) ∧
    ∃ js2 ms, projectAll (machine (N := N) (B := B) o) (threads o c) t A js1 sc.projs = some (js2, ms) ∧
      st = (ps1, js2) ∧ out = ⟨pops.map (fun p => (p.uid, G p.uid)), ss.flatMap Option.toList,
        js1.map (fun j => (j.ident.uid, A j.ident.uid)), ms⟩ := by
  have h0 := h
  obtain ⟨G, hG, x, h1, h2⟩ := stepM_parts h
  refine ⟨G, hG, ?_⟩
  unfold learnStepM at h0
  simp only at h0
  rw [← hG, h1] at h0
  rcases x with ⟨ps, ss⟩ | w | _
  · obtain ⟨y, h3, h4⟩ := h2 ps ss rfl
    refine ⟨ps, ss, h1, ?_⟩
    simp only at h0
    rw [h3] at h0
    rcases y with ⟨ps1, js1⟩ | w | _
    · obtain ⟨A, hA, js2, ms, h5, h6⟩ := h4 ps1 js1 rfl
      simp only [Outcome.ok.injEq, Prod.mk.injEq] at h6
      exact ⟨ps1, js1, h3, A, hA, js2, ms, h5, h6.1, h6.2⟩
    · cases h0
    · cases h0
  · cases h0
  · cases h0

/-- One step under two schedules and part sizes. -/
theorem stepM_same (o : Ops F) (c c' : Config F) (hsc : c'.scale = c.scale) (hc : 1 ≤ c.popPart ∧ c.popPart < two64)
    (hc2 : 1 ≤ c'.popPart ∧ c'.popPart < two64) (hd : 1 ≤ c.projPart ∧ c.projPart < two64)
    (hd2 : 1 ≤ c'.projPart ∧ c'.projPart < two64) (H : Hearing) (t : Nat) (pops : List (Pop N B F)) (js js2 : List (Proj F))
    (pend pend2 : List (SynapticImpactMessage F)) (ext : List (Message F)) (sc sc' : Sched) (hof : ∀ p ∈ pops, OrderFree p)
    (hn : (pops.map Pop.uid).Nodup) (hj : ∀ j ∈ js, JOk j) (hr : List.Forall₂ (SameProjL t) js js2)
    (hp : List.Forall₂ SameImpactMsg pend pend2) (st : List (Pop N B F) × List (Proj F)) (out : StepOut F)
    (h1 : learnStepM (machine o) (threads o c) H t pops js pend ext sc = some (.ok (st, out))) (hb : NoBlocking out)
    (r : Outcome ((List (Pop N B F) × List (Proj F)) × StepOut F))
    (h2 : learnStepM (machine o) (threads o c') H t pops js2 pend2 ext sc' = some r) :
    ∃ js3 out', r = .ok ((st.1, js3), out') ∧ List.Forall₂ (SameProjL (t + 1)) st.2 js3 ∧ SameStep out out' ∧
      (∀ p ∈ st.1, OrderFree p) ∧ (st.1.map Pop.uid).Nodup ∧ ∀ j ∈ st.2, JOk j := by
  obtain ⟨G, hG, ps, ss, a1, ps1, js1, a2, A, hA, js1', ms, a3, rfl, rfl⟩ := stepM_ok h1
  obtain ⟨G2, hG2, x, b1, b2⟩ := stepM_parts h2
  have hGG : ∀ u, List.Forall₂ SameImpactMsg (G u) (G2 u) := by
    intro u
    rw [hG, hG2]
    exact forall₂_filter _ _ hp (fun x y hxy => by rw [hxy.1])
  have hsz : ∀ p ∈ pops, p.size ≤ 2 ^ 63 := fun p hp => size_orderFree (hof p hp)
  obtain ⟨sso, s1, s2⟩ := computeAll_to o c hc t G pops sc.pops ps ss hsz a1
  have s3 : computeAllS t G2 pops = .ok (ps, sso) := by
    refine computeAllS_perm t G G2 pops _ ?_ s1
    intro p hp
    exact ⟨hof p hp, hGG _, hb (p.uid, G p.uid) (List.mem_map.2 ⟨p, hp, rfl⟩)⟩
  obtain ⟨ss2, rfl, s4⟩ := computeAll_from o c' hc2 t G2 pops sc'.pops ps sso x hsz s3 b1
  obtain ⟨y, b3, b4⟩ := b2 ps ss2 rfl
  obtain ⟨u1, u2, u3⟩ := computeAllS_facts t G pops ps sso s1
  have hfind : ∀ q ∈ js.map Proj.toR, FindOk q := by
    intro q hq
    obtain ⟨j, hj', rfl⟩ := List.mem_map.1 hq
    exact (hj j hj').2
  have hready : Ready sso (ps, js) := ⟨by rw [u1]; exact hn, u3, hfind⟩
  have hready2 : Ready sso (ps, js2) := ⟨by rw [u1]; exact hn, u3, by rw [← all_toR hr]; exact hfind⟩
  have e1 := phase_canon o c t ss sso ps js sc.train _ s2 hready a2
  have e2 := phase_canon o c' t ss2 sso ps js2 sc'.train _ s4 hready2 b3
  obtain ⟨k1, k2, k3⟩ := tasks_ready (o := o) (c := c) (t := t) _ (ps, js) (ps1, js1) hready e1.symm
  obtain ⟨js1b, q1, q2⟩ := tasks_queues o c t t sso _ ps ps1 js js2 js1 hr e1.symm
  have e3 : y = .ok (ps1, js1b) := e2.trans q1
  subst e3
  obtain ⟨A2, hA2, js3, ms2, b5, b6⟩ := b4 ps1 js1b rfl
  have hspk : List.Forall₂ SameSpikeMsg (ss.flatMap Option.toList) (ss2.flatMap Option.toList) :=
    forall₂_trans (S := SameSpikeMsg) (fun _ _ _ h h' => h.trans' h') (forall₂_symm (S := SameSpikeMsg) (fun _ _ h => h.symm') (flat_same s2)) (flat_same s4)
  have hAA : ∀ u, List.Forall₂ SameSpikeMsg (A u) (A2 u) := by
    intro u
    rw [hA, hA2]
    exact forall₂_filter _ _ (forall₂_append hspk (forall₂_self (fun x => ⟨rfl, List.Perm.refl _⟩) _)) (fun x y hxy => by rw [hxy.1])
  have hj1 : ∀ j ∈ js1, JOk j := jok_trained hj k2 k1.find
  obtain ⟨w1, w2, w3⟩ := projectAll_same o c c' hsc hd hd2 t A A2 q2 sc.projs sc'.projs js1' js3 ms ms2
    (fun j hj' => ⟨(hj1 j hj').1, hAA _⟩) a3 b5
  refine ⟨js3, _, b6, w1, ⟨?_, hspk, ?_, w2⟩, k3 (u2 hof), k1.nodup, jok_stays w3 hj1⟩
  · exact forall₂_map₂ _ _ _ (fun p _ => ⟨rfl, hGG _⟩)
  · rw [same_uids q2 A2]
    exact forall₂_map₂ _ _ _ (fun j _ => ⟨rfl, hAA _⟩)

theorem runM_same (o : Ops F) (c c' : Config F) (hsc : c'.scale = c.scale) (hc : 1 ≤ c.popPart ∧ c.popPart < two64)
    (hc2 : 1 ≤ c'.popPart ∧ c'.popPart < two64) (hd : 1 ≤ c.projPart ∧ c.projPart < two64)
    (hd2 : 1 ≤ c'.projPart ∧ c'.projPart < two64) (H : Hearing) : ∀ (exts exts' : List (List (Message F) × Sched)) (t : Nat)
    (pops : List (Pop N B F)) (js js2 : List (Proj F)) (pend pend2 : List (SynapticImpactMessage F))
    (st : List (Pop N B F) × List (Proj F)) (os : List (StepOut F))
    (r : Outcome ((List (Pop N B F) × List (Proj F)) × List (StepOut F))),
    exts'.map (·.1) = exts.map (·.1) → (∀ p ∈ pops, OrderFree p) → (pops.map Pop.uid).Nodup → (∀ j ∈ js, JOk j) →
    List.Forall₂ (SameProjL t) js js2 → List.Forall₂ SameImpactMsg pend pend2 →
    learnRunM (machine o) (threads o c) H t pops js pend exts = some (.ok (st, os)) → (∀ out ∈ os, NoBlocking out) →
    learnRunM (machine o) (threads o c') H t pops js2 pend2 exts' = some r →
    ∃ js3 os', r = .ok ((st.1, js3), os') ∧ List.Forall₂ (SameProjL (t + exts.length)) st.2 js3 ∧ List.Forall₂ SameStep os os' := by
  intro exts
  induction exts with
  | nil =>
    intro exts' t pops js js2 pend pend2 st os r he _ _ _ hr _ h1 _ h2
    have he' : exts' = [] := by simpa using he
    subst he'
    cases h1
    cases h2
    exact ⟨js2, [], rfl, hr, .nil⟩
  | cons e exts ih =>
    intro exts' t pops js js2 pend pend2 st os r he hof hn hj hr hp h1 hb h2
    cases exts' with
    | nil => simp at he
    | cons e' exts' =>
      simp only [List.map_cons, List.cons.injEq] at he
      rw [learnRunM] at h1 h2
      rw [he.1] at h2
      rcases hs : learnStepM (machine o) (threads o c) H t pops js pend e.1 e.2 with _ | (x | w | _)
      all_goals rw [hs] at h1; simp only at h1
      · cases h1
      · obtain ⟨st1, out⟩ := x
        simp only at h1
        rcases hf : learnRunM (machine o) (threads o c) H (t + 1) st1.1 st1.2 (impactsIn e.1 ++ out.impacts) exts with
          _ | (y | w | _)
        all_goals rw [hf] at h1; simp only at h1
        · cases h1
        · obtain ⟨st2, os2⟩ := y
          simp only [Option.some.injEq, Outcome.ok.injEq, Prod.mk.injEq] at h1
          obtain ⟨rfl, rfl⟩ := h1
          cases hm : learnStepM (machine o) (threads o c') H t pops js2 pend2 e.1 e'.2 with
          | none => rw [hm] at h2; cases h2
          | some r1 =>
            obtain ⟨js3, out', q1, q2, q3, q4, q5, q6⟩ := stepM_same o c c' hsc hc hc2 hd hd2 H t pops js js2 pend pend2 e.1
              e.2 e'.2 hof hn hj hr hp st1 out hs (hb out (by simp)) r1 hm
            rw [hm, q1] at h2
            simp only at h2
            cases hfm : learnRunM (machine o) (threads o c') H (t + 1) st1.1 js3 (impactsIn e.1 ++ out'.impacts) exts' with
            | none => rw [hfm] at h2; cases h2
            | some r2 =>
              obtain ⟨js4, os4, w1, w2, w3⟩ := ih exts' (t + 1) st1.1 st1.2 js3 _ (impactsIn e.1 ++ out'.impacts) st2 os2 r2 he.2 q4 q5 q6
                q2 (forall₂_append (forall₂_self (fun x => ⟨rfl, rfl, List.Perm.refl _⟩) _) q3.impacts) hf
                (fun x hx => hb x (List.mem_cons_of_mem _ hx)) hfm
              rw [hfm, w1] at h2
              simp only [Option.some.injEq] at h2
              refine ⟨js4, out' :: os4, h2.symm, ?_, .cons q3 w3⟩
              rw [List.length_cons, show t + (exts.length + 1) = t + 1 + exts.length by omega]
              exact w2
        · cases h1
        · cases h1
      · cases h1
      · cases h1

/-- What the single-threaded backend and the multi-threaded one need of a projection to treat it alike. -/
def JPlain (j : Proj F) : Prop := JOk j ∧ ExactFind j.syns.view

omit [Field F] [LinearOrder F] in
theorem jplain_stays {js js' : List (Proj F)} (h : List.Forall₂ Stays js js') (hj : ∀ j ∈ js, JPlain j) : ∀ j ∈ js', JPlain j := by
  induction h with
  | nil => exact hj
  | cons h _ ih =>
    intro x hx
    rcases List.mem_cons.1 hx with rfl | hx
    · exact ⟨(hj _ (by simp)).1.stays h, skeleton_find h.1 (hj _ (by simp)).2⟩
    · exact ih (fun y hy => hj y (by simp [hy])) x hx

/-- One step on both backends. -/
theorem step_same (o : Ops F) (c : Config F) (hsc : ∀ w, c.scale w 1 = w) (hc : 1 ≤ c.popPart ∧ c.popPart < two64)
    (hd : 1 ≤ c.projPart ∧ c.projPart < two64) (H : Hearing) (t : Nat) (pops : List (Pop N B F)) (js js2 : List (Proj F))
    (pend pend2 : List (SynapticImpactMessage F)) (ext : List (Message F)) (sc : Sched) (hext : impactsIn ext = [])
    (hof : ∀ p ∈ pops, OrderFree p)
    (hn : (pops.map Pop.uid).Nodup) (hj : ∀ j ∈ js, JPlain j) (hr : List.Forall₂ (SameProjL t) js js2)
    (hp : List.Forall₂ SameImpactMsg pend pend2) (st : List (Pop N B F) × List (Proj F)) (out : StepOut F)
    (h1 : learnStep (machine o) H t pops js pend ext = .ok (st, out)) (hb : Benign out)
    (r : Outcome ((List (Pop N B F) × List (Proj F)) × StepOut F))
    (h2 : learnStepM (machine o) (threads o c) H t pops js2 pend2 ext sc = some r) :
    ∃ js3 out', r = .ok ((st.1, js3), out') ∧ List.Forall₂ (SameProjL (t + 1)) st.2 js3 ∧ SameStep out out' ∧
      (∀ p ∈ st.1, OrderFree p) ∧ (st.1.map Pop.uid).Nodup ∧ ∀ j ∈ st.2, JPlain j := by
  unfold learnStep at h1
  simp only [hext, List.append_nil] at h1
  generalize hG : (fun u => pend.filter (fun x => H.impact u x.header.senderUid)) = G at h1
  cases hlp : learnPops (machine o) t G pops js with
  | throw w => rw [hlp] at h1; cases h1
  | ub => rw [hlp] at h1; cases h1
  | ok z =>
    obtain ⟨⟨ps1, js1⟩, spk⟩ := z
    rw [hlp] at h1
    simp only [Outcome.ok.injEq, Prod.mk.injEq] at h1
    obtain ⟨d1, d2⟩ := h1
    generalize hA : (fun u => (spikesIn ext ++ spk).filter (fun x => H.spike u x.header.senderUid)) = A at d1 d2
    have d1' : st = (ps1, js1.map (fun j => (projStep o t j (A j.ident.uid)).1)) := by rw [← d1, ← hA]; rfl
    have d2' : out = ⟨pops.map (fun p => (p.uid, G p.uid)), spk, js1.map (fun j => (j.ident.uid, A j.ident.uid)),
        js1.flatMap (fun j => (projStep o t j (A j.ident.uid)).2.toList)⟩ := by rw [← d2, ← hA, ← hG]; rfl
    subst d1' d2'
    obtain ⟨G2, hG2, x, b1, b2⟩ := stepM_parts h2
    have hGG : ∀ u, List.Forall₂ SameImpactMsg (G u) (G2 u) := by
      intro u
      rw [← hG, hG2]
      exact forall₂_filter _ _ hp (fun x y hxy => by rw [hxy.1])
    have hsz : ∀ p ∈ pops, p.size ≤ 2 ^ 63 := fun p hp => size_orderFree (hof p hp)
    obtain ⟨ps, sso, s1, rfl, s5⟩ := learnPops_split o c t G pops js ps1 js1 spk hlp
    have s3 : computeAllS t G2 pops = .ok (ps, sso) := by
      refine computeAllS_perm t G G2 pops _ ?_ s1
      intro p hp
      exact ⟨hof p hp, hGG _, hb.noBlocking (p.uid, G p.uid) (List.mem_map.2 ⟨p, hp, rfl⟩)⟩
    obtain ⟨ss2, rfl, s4⟩ := computeAll_from o c hc t G2 pops sc.pops ps sso x hsz s3 b1
    obtain ⟨y, b3, b4⟩ := b2 ps ss2 rfl
    obtain ⟨u1, u2, u3⟩ := computeAllS_facts t G pops ps sso s1
    have hfind : ∀ q ∈ js.map Proj.toR, FindOk q := by
      intro q hq
      obtain ⟨j, hj', rfl⟩ := List.mem_map.1 hq
      exact (hj j hj').1.2
    have hready : Ready sso (ps, js) := ⟨by rw [u1]; exact hn, u3, hfind⟩
    have hready2 : Ready sso (ps, js2) := ⟨by rw [u1]; exact hn, u3, by rw [← all_toR hr]; exact hfind⟩
    have e1 : (List.range ps.length).foldlM (trainTask (threads o c) t sso) (ps, js) = .ok (ps1, js1) := by
      have := s5 [] [] rfl
      rw [List.range_eq_range']
      simpa using this
    have e2 := phase_canon o c t ss2 sso ps js2 sc.train _ s4 hready2 b3
    obtain ⟨k1, k2, k3⟩ := tasks_ready (o := o) (c := c) (t := t) _ (ps, js) (ps1, js1) hready e1
    obtain ⟨js1b, q1, q2⟩ := tasks_queues o c t t sso _ ps ps1 js js2 js1 hr e1
    have e3 : y = .ok (ps1, js1b) := e2.trans q1
    subst e3
    obtain ⟨A2, hA2, js3, ms2, b5, b6⟩ := b4 ps1 js1b rfl
    have hspk : List.Forall₂ SameSpikeMsg (sso.flatMap Option.toList) (ss2.flatMap Option.toList) := flat_same s4
    have hj1 : ∀ j ∈ js1, JPlain j := by
      intro j' hj'
      obtain ⟨j, g1, g2⟩ := allTrained_mem k2 hj'
      exact ⟨jok_trained (fun x hx => (hj x hx).1) k2 k1.find j' hj', skeleton_find g2.skeleton (hj j g1).2⟩
    have hAA : ∀ j ∈ js1, OneMessage ⟨j.syns.view, A j.ident.uid⟩ ∧ List.Forall₂ SameSpikeMsg (A j.ident.uid) (A2 j.ident.uid) := by
      intro j hj'
      have hm : (j.ident.uid, A j.ident.uid) ∈ js1.map (fun j => (j.ident.uid, A j.ident.uid)) := List.mem_map.2 ⟨j, hj', rfl⟩
      have hone := hb.oneMessage _ hm
      have hnd := hb.noRepeat _ hm
      refine ⟨⟨(hj1 j hj').2, (hj1 j hj').1.1, hone, hnd⟩, ?_⟩
      rw [← hA] at hone ⊢
      rw [hA2]
      exact heard_sim _ (fun a b hab => by rw [hab.1]) _ _ _ hspk hone
    obtain ⟨w1, w2, w3⟩ := projects_same o c hsc hd t A A2 q2 sc.projs js3 ms2 hAA b5
    refine ⟨js3, _, b6, w1, ⟨?_, hspk, ?_, w2⟩, k3 (u2 hof), k1.nodup, jplain_stays w3 hj1⟩
    · exact forall₂_map₂ _ _ _ (fun p _ => ⟨rfl, hGG _⟩)
    · rw [same_uids q2 A2]
      exact forall₂_map₂ _ _ _ (fun j hj' => ⟨rfl, (hAA j hj').2⟩)

theorem run_same (o : Ops F) (c : Config F) (hsc : ∀ w, c.scale w 1 = w) (hc : 1 ≤ c.popPart ∧ c.popPart < two64)
    (hd : 1 ≤ c.projPart ∧ c.projPart < two64) (H : Hearing) : ∀ (exts : List (List (Message F) × Sched)) (t : Nat)
    (pops : List (Pop N B F)) (js js2 : List (Proj F)) (pend pend2 : List (SynapticImpactMessage F))
    (st : List (Pop N B F) × List (Proj F)) (os : List (StepOut F))
    (r : Outcome ((List (Pop N B F) × List (Proj F)) × List (StepOut F))),
    (∀ e ∈ exts, impactsIn e.1 = []) → (∀ p ∈ pops, OrderFree p) → (pops.map Pop.uid).Nodup → (∀ j ∈ js, JPlain j) →
    List.Forall₂ (SameProjL t) js js2 → List.Forall₂ SameImpactMsg pend pend2 →
    learnRun (machine o) H t pops js pend (exts.map (·.1)) = .ok (st, os) → (∀ out ∈ os, Benign out) →
    learnRunM (machine o) (threads o c) H t pops js2 pend2 exts = some r →
    ∃ js3 os', r = .ok ((st.1, js3), os') ∧ List.Forall₂ (SameProjL (t + exts.length)) st.2 js3 ∧ List.Forall₂ SameStep os os' := by
  intro exts
  induction exts with
  | nil =>
    intro t pops js js2 pend pend2 st os r _ _ _ _ hr _ h1 _ h2
    cases h1
    cases h2
    exact ⟨js2, [], rfl, hr, .nil⟩
  | cons e exts ih =>
    intro t pops js js2 pend pend2 st os r hext hof hn hj hr hp h1 hb h2
    rw [List.map_cons, learnRun] at h1
    rw [learnRunM] at h2
    cases hs : learnStep (machine o) H t pops js pend e.1 with
    | throw w => rw [hs] at h1; cases h1
    | ub => rw [hs] at h1; cases h1
    | ok x =>
      obtain ⟨st1, out⟩ := x
      rw [hs] at h1
      simp only at h1
      cases hf : learnRun (machine o) H (t + 1) st1.1 st1.2 out.impacts (exts.map (·.1)) with
      | throw w => rw [hf] at h1; cases h1
      | ub => rw [hf] at h1; cases h1
      | ok y =>
        obtain ⟨st2, os2⟩ := y
        rw [hf] at h1
        simp only [Outcome.ok.injEq, Prod.mk.injEq] at h1
        obtain ⟨rfl, rfl⟩ := h1
        cases hm : learnStepM (machine o) (threads o c) H t pops js2 pend2 e.1 e.2 with
        | none => rw [hm] at h2; cases h2
        | some r1 =>
          obtain ⟨js3, out', q1, q2, q3, q4, q5, q6⟩ := step_same o c hsc hc hd H t pops js js2 pend pend2 e.1
            e.2 (hext e (by simp)) hof hn hj hr hp st1 out hs (hb out (by simp)) r1 hm
          rw [hm, q1, hext e (by simp)] at h2
          simp only [List.nil_append] at h2
          cases hfm : learnRunM (machine o) (threads o c) H (t + 1) st1.1 js3 out'.impacts exts with
          | none => rw [hfm] at h2; cases h2
          | some r2 =>
            obtain ⟨js4, os4, w1, w2, w3⟩ := ih (t + 1) st1.1 st1.2 js3 _ out'.impacts st2 os2 r2
              (fun x hx => hext x (List.mem_cons_of_mem _ hx)) q4 q5 q6 q2 q3.impacts hf
              (fun x hx => hb x (List.mem_cons_of_mem _ hx)) hfm
            rw [hfm, w1] at h2
            simp only [Option.some.injEq] at h2
            refine ⟨js4, out' :: os4, h2.symm, ?_, .cons q3 w3⟩
            rw [List.length_cons, show t + (exts.length + 1) = t + 1 + exts.length by omega]
            exact w2

end Knp.Learn
