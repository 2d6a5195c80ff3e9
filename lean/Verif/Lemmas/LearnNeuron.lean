import Verif.Lemmas.LearnResource

/-! # Lemmas: one population in one step of a running network -/

namespace Knp.Learn
open Knp Knp.Spec Knp.Neurons Knp.Sys Knp.Stdp Knp.Lemmas.Stdp

variable {P J N B F : Type} [Field F] [LinearOrder F]

omit [Field F] [LinearOrder F] in
/-- Step `i` of a run, with the states before and after. -/
theorem learnRun_at {m : Machine P J F} {H : Hearing} (exts : List (List (Message F))) : ∀ (t : Nat) (pops : List P)
    (projs : List J) (pending : List (SynapticImpactMessage F)) (st : List P × List J) (os : List (StepOut F)) (i : Nat)
    (hi : i < os.length), learnRun m H t pops projs pending exts = .ok (st, os) →
    ∃ st0 st1 pend ext, learnRun m H t pops projs pending (exts.take i) = .ok (st0, os.take i) ∧
      learnRun m H t pops projs pending (exts.take (i + 1)) = .ok (st1, os.take (i + 1)) ∧
      learnStep m H (t + i) st0.1 st0.2 pend ext = .ok (st1, os[i]) := by
  induction exts with
  | nil =>
    intro t pops projs pending st os i hi h
    simp only [learnRun, Outcome.ok.injEq, Prod.mk.injEq] at h
    rw [← h.2] at hi
    simp at hi
  | cons ext exts ih =>
    intro t pops projs pending st os i hi h
    unfold learnRun at h
    cases hfs : learnStep m H t pops projs pending ext with
    | throw w => rw [hfs] at h; cases h
    | ub => rw [hfs] at h; cases h
    | ok x =>
      obtain ⟨st1, out⟩ := x
      rw [hfs] at h
      simp only at h
      cases hfr : learnRun m H (t + 1) st1.1 st1.2 out.impacts exts with
      | throw w => rw [hfr] at h; cases h
      | ub => rw [hfr] at h; cases h
      | ok y =>
        obtain ⟨st', os'⟩ := y
        rw [hfr] at h
        simp only [Outcome.ok.injEq, Prod.mk.injEq] at h
        obtain ⟨rfl, rfl⟩ := h
        cases i with
        | zero =>
          refine ⟨(pops, projs), st1, pending, ext, rfl, ?_, hfs⟩
          simp only [List.take_succ_cons, List.take_zero]
          unfold learnRun
          rw [hfs]
          rfl
        | succ i =>
          obtain ⟨a, b, pend, e, h1, h2, h3⟩ := ih _ _ _ _ _ _ i (by simpa using hi) hfr
          refine ⟨a, b, pend, e, ?_, ?_, ?_⟩
          · rw [List.take_succ_cons]
            unfold learnRun
            rw [hfs]
            simp only
            rw [h1]
            rfl
          · rw [List.take_succ_cons (i := i + 1)]
            unfold learnRun
            rw [hfs]
            simp only
            rw [h2]
            rfl
          · rw [show t + (i + 1) = t + 1 + i by omega]
            exact h3

/-- The message a population sends bears its name and the step. -/
theorem popStep_header {o : Ops F} {t : Nat} {p : Pop N B F} {js : List (Proj F)} {ms : List (SynapticImpactMessage F)}
    {p1 : Pop N B F} {js1 : List (Proj F)} {s : Option SpikeMessage} (h : popStep o t p js ms = .ok ((p1, js1), s)) :
    ∀ m ∈ s.toList, m.header = ⟨p.uid, t⟩ := by
  have gen : ∀ {M : Type} (k : Kind M F) (u : UID) (ns : List M) (r : List M × Option SpikeMessage),
      stepPopulation k u t ns ms = .ok r → ∀ m ∈ r.2.toList, m.header = ⟨u, t⟩ := by
    intro M k u ns r hr m hm
    obtain ⟨_, _, _, _, he⟩ := Props.C55_each_neuron k u t ns r.1 ms r.2 hr
    rw [he] at hm
    split at hm
    · simp at hm
    · simp only [Option.toList_some, List.mem_singleton] at hm
      rw [hm]
  unfold popStep at h
  cases p with
  | plain u k ns =>
    simp only at h
    cases h1 : stepPopulation k u t ns ms with
    | throw w => rw [h1] at h; cases h
    | ub => rw [h1] at h; cases h
    | ok r =>
      rw [h1] at h
      simp only [Outcome.ok.injEq, Prod.mk.injEq] at h
      rw [← h.2]
      exact gen k u ns r h1
  | trained u k b ns =>
    simp only at h
    cases h1 : stepPopulation k u t ns ms with
    | throw w => rw [h1] at h; cases h
    | ub => rw [h1] at h; cases h
    | ok r =>
      rw [h1] at h
      simp only at h
      cases h2 : train o b u (spikedIn r.2) t ⟨r.1, js.map Proj.toR⟩ with
      | throw w => rw [h2] at h; cases h
      | ub => rw [h2] at h; cases h
      | ok st =>
        rw [h2] at h
        simp only [Outcome.ok.injEq, Prod.mk.injEq] at h
        rw [← h.2]
        exact gen k u ns r h1

omit [Field F] [LinearOrder F] in
theorem putR_toR (j : Proj F) : j.putR j.toR = j := by
  unfold Proj.putR Proj.toR
  obtain ⟨a, b, c, d⟩ := j
  cases c <;> rfl

/-- A population leaves the projections another one is trained with alone. -/
theorem popStep_keeps {o : Ops F} {t : Nat} {p : Pop N B F} {js : List (Proj F)} {ms : List (SynapticImpactMessage F)}
    {p1 : Pop N B F} {js1 : List (Proj F)} {s : Option SpikeMessage} (h : popStep o t p js ms = .ok ((p1, js1), s))
    {u : UID} (hne : p.uid ≠ u) {m : Nat} {j : Proj F} (hj : js[m]? = some j) (ht : Trains u j.toR) : js1[m]? = some j := by
  unfold popStep at h
  cases p with
  | plain v k ns =>
    simp only at h
    cases h1 : stepPopulation k v t ns ms with
    | throw w => rw [h1] at h; cases h
    | ub => rw [h1] at h; cases h
    | ok r =>
      rw [h1] at h
      simp only [Outcome.ok.injEq, Prod.mk.injEq] at h
      rw [← h.1.2]
      exact hj
  | trained v k b ns =>
    simp only at h
    cases h1 : stepPopulation k v t ns ms with
    | throw w => rw [h1] at h; cases h
    | ub => rw [h1] at h; cases h
    | ok r =>
      rw [h1] at h
      simp only at h
      cases h2 : train o b v (spikedIn r.2) t ⟨r.1, js.map Proj.toR⟩ with
      | throw w => rw [h2] at h; cases h
      | ub => rw [h2] at h; cases h
      | ok st =>
        rw [h2] at h
        simp only [Outcome.ok.injEq, Prod.mk.injEq] at h
        rw [← h.1.2]
        have hr := Props.C86_other_projections h2 m j.toR (by simp [hj]) (fun hv => hne (hv.1.symm.trans ht.1))
        unfold putAll
        rw [List.getElem?_zipWith, hj, hr]
        simp only [putR_toR]

theorem learnPops_at {o : Ops F} {t : Nat} {f : UID → List (SynapticImpactMessage F)} :
    ∀ (ps : List (Pop N B F)) (js : List (Proj F)) (ps' : List (Pop N B F)) (js' : List (Proj F)) (ss : List SpikeMessage),
    learnPops (machine o) t f ps js = .ok ((ps', js'), ss) → (ps.map Pop.uid).Nodup →
    (∀ u, (∀ p ∈ ps, p.uid ≠ u) → (∀ (m : Nat) (j : Proj F), js[m]? = some j → Trains u j.toR → js'[m]? = some j) ∧
      ∀ x ∈ ss, x.header.senderUid ≠ u) ∧
    ∀ (n : Nat) (p : Pop N B F), ps[n]? = some p → ∃ a a' p1 s, popStep o t p a (f p.uid) = .ok ((p1, a'), s) ∧
      ps'[n]? = some p1 ∧ (∀ (m : Nat) (j : Proj F), js[m]? = some j → Trains p.uid j.toR → a[m]? = some j) ∧
      (∀ (m : Nat) (j : Proj F), a'[m]? = some j → Trains p.uid j.toR → js'[m]? = some j) ∧
      ∀ x, x.header.senderUid = p.uid → (x ∈ ss ↔ x ∈ s.toList) := by
  intro ps
  induction ps with
  | nil =>
    intro js ps' js' ss h _
    simp only [learnPops, Outcome.ok.injEq, Prod.mk.injEq] at h
    rw [← h.1.2, ← h.2]
    exact ⟨fun _ _ => ⟨fun _ _ hj _ => hj, fun x hx => by simp at hx⟩, fun n p hn => by simp at hn⟩
  | cons q ps ih =>
    intro js ps' js' ss h hnd
    rw [List.map_cons, List.nodup_cons] at hnd
    unfold learnPops at h
    cases h1 : (machine o).popStep t q js (f ((machine o).popUid q)) with
    | throw w => rw [h1] at h; cases h
    | ub => rw [h1] at h; cases h
    | ok r =>
      obtain ⟨⟨q1, js1⟩, s⟩ := r
      rw [h1] at h
      simp only at h
      cases h2 : learnPops (machine o) t f ps js1 with
      | throw w => rw [h2] at h; cases h
      | ub => rw [h2] at h; cases h
      | ok x =>
        obtain ⟨⟨qs, ks⟩, ss2⟩ := x
        rw [h2] at h
        simp only [Outcome.ok.injEq, Prod.mk.injEq] at h
        rw [← h.1.2, ← h.1.1, ← h.2]
        obtain ⟨i1, i2⟩ := ih js1 qs ks ss2 h2 hnd.2
        have hsend := popStep_header (o := o) (p := q) (js := js) h1
        refine ⟨?_, ?_⟩
        · intro u hne
          obtain ⟨k1, k2⟩ := i1 u (fun p hp => hne p (by simp [hp]))
          refine ⟨fun m j hj ht => k1 m j (popStep_keeps h1 (hne q (by simp)) hj ht) ht, ?_⟩
          intro x hx
          rcases List.mem_append.1 hx with hx | hx
          · rw [hsend x hx]
            exact hne q (by simp)
          · exact k2 x hx
        · intro n p hn
          cases n with
          | zero =>
            simp only [List.getElem?_cons_zero, Option.some.injEq] at hn
            subst hn
            obtain ⟨k1, k2⟩ := i1 q.uid (fun p hp he => hnd.1 (List.mem_map.2 ⟨p, hp, he⟩))
            refine ⟨js, js1, q1, s, h1, by simp, fun _ _ hj _ => hj, k1, ?_⟩
            intro x hx
            rw [List.mem_append]
            exact ⟨fun h => h.resolve_right (fun h => k2 x h hx), Or.inl⟩
          | succ n =>
            rw [List.getElem?_cons_succ] at hn
            have hne : q.uid ≠ p.uid := fun he => hnd.1 (List.mem_map.2 ⟨_, List.mem_of_getElem? hn, he.symm⟩)
            obtain ⟨a, a', p1, s', e1, e2, e3, e4, e5⟩ := i2 n p hn
            refine ⟨a, a', p1, s', e1, by simpa using e2, ?_, e4, ?_⟩
            · intro m j hj ht
              exact e3 m j (popStep_keeps h1 hne hj ht) ht
            · intro x hx
              rw [List.mem_append, ← e5 x hx]
              exact ⟨fun h => h.resolve_left (fun h => hne (by rw [← hx, hsend x h])), Or.inr⟩

/-- Population UIDs never change. -/
theorem learnRun_popUids {o : Ops F} {H : Hearing} (exts : List (List (Message F))) : ∀ (t : Nat) (pops : List (Pop N B F))
    (projs : List (Proj F)) (pending : List (SynapticImpactMessage F)) (st : List (Pop N B F) × List (Proj F))
    (os : List (StepOut F)), learnRun (machine o) H t pops projs pending exts = .ok (st, os) →
    st.1.map Pop.uid = pops.map Pop.uid := by
  induction exts with
  | nil =>
    intro t pops projs pending st os h
    simp only [learnRun, Outcome.ok.injEq, Prod.mk.injEq] at h
    rw [← h.1]
  | cons ext exts ih =>
    intro t pops projs pending st os h
    unfold learnRun at h
    cases hfs : learnStep (machine o) H t pops projs pending ext with
    | throw w => rw [hfs] at h; cases h
    | ub => rw [hfs] at h; cases h
    | ok x =>
      obtain ⟨st1, out⟩ := x
      rw [hfs] at h
      simp only at h
      cases hfr : learnRun (machine o) H (t + 1) st1.1 st1.2 out.impacts exts with
      | throw w => rw [hfr] at h; cases h
      | ub => rw [hfr] at h; cases h
      | ok y =>
        rw [hfr] at h
        simp only [Outcome.ok.injEq, Prod.mk.injEq] at h
        rw [← h.1, ih _ _ _ _ _ _ hfr]
        exact (learnStep_ok hfs).1

/-- One population in one step of the dataflow. -/
theorem learnStep_at {o : Ops F} {H : Hearing} {t : Nat} {pops : List (Pop N B F)} {projs : List (Proj F)}
    {pending : List (SynapticImpactMessage F)} {ext : List (Message F)}
    {st : List (Pop N B F) × List (Proj F)} {out : StepOut F}
    (h : learnStep (machine o) H t pops projs pending ext = .ok (st, out)) (hnd : (pops.map Pop.uid).Nodup)
    (n : Nat) (p : Pop N B F) (hp : pops[n]? = some p) :
    ∃ a a' p1 s, popStep o t p a (Props.givenTo out p.uid) = .ok ((p1, a'), s) ∧ st.1[n]? = some p1 ∧
      (∀ (m : Nat) (j : Proj F), projs[m]? = some j → Trains p.uid j.toR → a[m]? = some j) ∧
      (∀ (m : Nat) (j : Proj F), a'[m]? = some j → Trains p.uid j.toR → ∃ ms, st.2[m]? = some (projStep o t j ms).1) ∧
      ∀ x, x.header.senderUid = p.uid → (x ∈ out.spikes ↔ x ∈ s.toList) := by
  obtain ⟨_, hg, _⟩ := learnStep_ok h
  have hgp := hg p.uid (List.mem_map.2 ⟨p, List.mem_of_getElem? hp, rfl⟩)
  unfold learnStep at h
  simp only at h
  cases hfp : learnPops (machine o) t (fun r => (pending ++ impactsIn ext).filter (fun m => H.impact r m.header.senderUid))
      pops projs with
  | throw w => rw [hfp] at h; cases h
  | ub => rw [hfp] at h; cases h
  | ok y =>
    obtain ⟨⟨ps', mids⟩, ss⟩ := y
    rw [hfp] at h
    simp only [Outcome.ok.injEq, Prod.mk.injEq] at h
    obtain ⟨h1, h2⟩ := h
    obtain ⟨a, a', p1, s, e1, e2, e3, e4, e5⟩ := (learnPops_at _ _ _ _ _ hfp hnd).2 n p hp
    refine ⟨a, a', p1, s, ?_, ?_, e3, ?_, ?_⟩
    · rw [hgp]; exact e1
    · rw [← h1]; exact e2
    · intro m j hj ht
      rw [← h1]
      simp only [List.getElem?_map, e4 m j hj ht, Option.map_some]
      exact ⟨_, rfl⟩
    · intro x hx
      rw [← h2]
      exact e5 x hx

end Knp.Learn
