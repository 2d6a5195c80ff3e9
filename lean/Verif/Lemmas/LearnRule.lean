import Verif.Lemmas.LearnNeuron
import Verif.Spec.StdpRule

/-! # Lemmas: the projections a population is trained with, in a running network -/

namespace Knp.Learn
open Knp Knp.Spec Knp.Neurons Knp.Sys Knp.Stdp Knp.Spec.OneNeuron Knp.Lemmas.Stdp

variable {N B F : Type}

/-- The projections population `u` is trained with; the others are blanked. -/
def trainView (u : UID) (ps : List (RProj F)) : List (Option (RProj F)) := ps.map (fun p => if Trains u p then some p else none)

theorem incoming_view {u : UID} {ps qs : List (RProj F)} (h : trainView u ps = trainView u qs) (i : Nat) :
    incoming u ps i = incoming u qs i := by
  have e : ∀ l : List (RProj F), incoming u l i =
      (trainView u l).flatMap (fun x => match x with | some p => (p.find i).filterMap (fun k => p.syns[k]?) | none => []) := by
    intro l
    unfold incoming trainView
    rw [List.flatMap_map]
    apply List.flatMap_congr
    intro p _
    by_cases hp : Trains u p <;> simp [hp]
  rw [e, e, h]

variable [Field F] [LinearOrder F]

/-- Training another population. -/
theorem train_view {o : Ops F} {b : BaseOps B F} {u v : UID} (hne : v ≠ u) {sp : List Nat} {t : Nat}
    {st st' : Stdp.State B F} (h : train o b v sp t st = .ok st') : trainView u st'.projs = trainView u st.projs := by
  obtain ⟨f1, _, _, _⟩ := train_frame h
  apply List.ext_getElem?
  intro i
  unfold trainView
  simp only [List.getElem?_map]
  cases hp : st.projs[i]? with
  | none =>
    have hl : st'.projs.length = st.projs.length := by simpa [shapeOf] using congrArg List.length f1
    rw [List.getElem?_eq_none_iff] at hp
    rw [List.getElem?_eq_none (by omega)]
  | some p =>
    obtain ⟨p', hp', _, g2, g3, _, _⟩ := shape_get f1 hp
    by_cases hu : Trains u p
    · have := Props.C86_other_projections h i p hp (fun hv => hne (hv.1.symm.trans hu.1))
      rw [this]
    · have hu' : ¬ Trains u p' := by
        rintro ⟨h1, h2⟩
        exact hu ⟨g2.symm.trans h1, g3.symm.trans h2⟩
      rw [hp', Option.map_some, Option.map_some, if_neg hu, if_neg hu']

/-- A population's step and the projections of the others; exact lookups stay exact. -/
theorem popStep_view {o : Ops F} {t : Nat} {p : Pop N B F} {js : List (Proj F)} {ms : List (SynapticImpactMessage F)}
    {p1 : Pop N B F} {js1 : List (Proj F)} {s : Option SpikeMessage} (h : popStep o t p js ms = .ok ((p1, js1), s)) :
    (∀ u, p.uid ≠ u → trainView u (js1.map Proj.toR) = trainView u (js.map Proj.toR)) ∧
    ((∀ r ∈ js.map Proj.toR, FindOk r) → ∀ r ∈ js1.map Proj.toR, FindOk r) := by
  unfold popStep at h
  cases p with
  | plain v k qs =>
    simp only at h
    cases h1 : stepPopulation k v t qs ms with
    | throw w => rw [h1] at h; cases h
    | ub => rw [h1] at h; cases h
    | ok r =>
      rw [h1] at h
      simp only [Outcome.ok.injEq, Prod.mk.injEq] at h
      rw [← h.1.2]
      exact ⟨fun _ _ => rfl, id⟩
  | trained v k b qs =>
    simp only at h
    cases h1 : stepPopulation k v t qs ms with
    | throw w => rw [h1] at h; cases h
    | ub => rw [h1] at h; cases h
    | ok r =>
      rw [h1] at h
      simp only at h
      cases h2 : train o b v (spikedIn r.2) t ⟨r.1, js.map Proj.toR⟩ with
      | throw w => rw [h2] at h; cases h
      | ub => rw [h2] at h; cases h
      | ok st =>
        rw [h2] at h
        simp only [Outcome.ok.injEq, Prod.mk.injEq] at h
        rw [← h.1.2, (putAll_trained h2).2]
        exact ⟨fun u hu => train_view hu h2, train_findOk h2⟩

/-- One population among the others, with the projections it is trained with as they were before the step and after it. -/
theorem learnPops_view {o : Ops F} {t : Nat} {f : UID → List (SynapticImpactMessage F)} :
    ∀ (ps : List (Pop N B F)) (js : List (Proj F)) (ps' : List (Pop N B F)) (js' : List (Proj F)) (ss : List SpikeMessage),
    learnPops (machine o) t f ps js = .ok ((ps', js'), ss) → (ps.map Pop.uid).Nodup → (∀ r ∈ js.map Proj.toR, FindOk r) →
    (∀ u, (∀ p ∈ ps, p.uid ≠ u) → trainView u (js'.map Proj.toR) = trainView u (js.map Proj.toR) ∧ ∀ x ∈ ss, x.header.senderUid ≠ u) ∧
    (∀ r ∈ js'.map Proj.toR, FindOk r) ∧
    ∀ (n : Nat) (p : Pop N B F), ps[n]? = some p → ∃ a a' p1 s, popStep o t p a (f p.uid) = .ok ((p1, a'), s) ∧
      ps'[n]? = some p1 ∧ trainView p.uid (a.map Proj.toR) = trainView p.uid (js.map Proj.toR) ∧ (∀ r ∈ a.map Proj.toR, FindOk r) ∧
      trainView p.uid (js'.map Proj.toR) = trainView p.uid (a'.map Proj.toR) ∧
      ∀ x, x.header.senderUid = p.uid → (x ∈ ss ↔ x ∈ s.toList) := by
  intro ps
  induction ps with
  | nil =>
    intro js ps' js' ss h _ hf
    simp only [learnPops, Outcome.ok.injEq, Prod.mk.injEq] at h
    rw [← h.1.2, ← h.2]
    exact ⟨fun _ _ => ⟨rfl, fun x hx => by simp at hx⟩, hf, fun n p hn => by simp at hn⟩
  | cons q ps ih =>
    intro js ps' js' ss h hnd hf
    rw [List.map_cons, List.nodup_cons] at hnd
    unfold learnPops at h
    cases h1 : (machine o).popStep t q js (f ((machine o).popUid q)) with
    | throw w => rw [h1] at h; cases h
    | ub => rw [h1] at h; cases h
    | ok r =>
      obtain ⟨⟨q1, js1⟩, s⟩ := r
      rw [h1] at h
      simp only at h
      cases h2 : learnPops (machine o) t f ps js1 with
      | throw w => rw [h2] at h; cases h
      | ub => rw [h2] at h; cases h
      | ok x =>
        obtain ⟨⟨qs, ks⟩, ss2⟩ := x
        rw [h2] at h
        simp only [Outcome.ok.injEq, Prod.mk.injEq] at h
        rw [← h.1.2, ← h.1.1, ← h.2]
        have hview := popStep_view (o := o) (p := q) (js := js) h1
        obtain ⟨i1, i2, i3⟩ := ih js1 qs ks ss2 h2 hnd.2 (hview.2 hf)
        have hsend := popStep_header (o := o) (p := q) (js := js) h1
        refine ⟨?_, i2, ?_⟩
        · intro u hne
          obtain ⟨k1, k2⟩ := i1 u (fun p hp => hne p (by simp [hp]))
          refine ⟨k1.trans (hview.1 u (hne q (by simp))), ?_⟩
          intro x hx
          rcases List.mem_append.1 hx with hx | hx
          · rw [hsend x hx]
            exact hne q (by simp)
          · exact k2 x hx
        · intro n p hn
          cases n with
          | zero =>
            simp only [List.getElem?_cons_zero, Option.some.injEq] at hn
            subst hn
            obtain ⟨k1, k2⟩ := i1 q.uid (fun p hp he => hnd.1 (List.mem_map.2 ⟨p, hp, he⟩))
            refine ⟨js, js1, q1, s, h1, by simp, rfl, hf, k1, ?_⟩
            intro x hx
            rw [List.mem_append]
            exact ⟨fun h => h.resolve_right (fun h => k2 x h hx), Or.inl⟩
          | succ n =>
            rw [List.getElem?_cons_succ] at hn
            have hne : q.uid ≠ p.uid := fun he => hnd.1 (List.mem_map.2 ⟨_, List.mem_of_getElem? hn, he.symm⟩)
            obtain ⟨a, a', p1, s', e1, e2, e3, e4, e5, e6⟩ := i3 n p hn
            refine ⟨a, a', p1, s', e1, by simpa using e2, e3.trans (hview.1 _ hne), e4, e5, ?_⟩
            intro x hx
            rw [List.mem_append, ← e6 x hx]
            exact ⟨fun h => h.resolve_left (fun h => hne (by rw [← hx, hsend x h])), Or.inr⟩

/-- The projections' own steps change no more than the recorded spike steps of their synapses. -/
theorem projSteps_incoming (o : Ops F) (t : Nat) (u : UID) (g : UID → List SpikeMessage) (js : List (Proj F)) (i : Nat) :
    (incoming u ((js.map (fun j => (projStep o t j (g j.ident.uid)).1)).map Proj.toR) i).map (touch 0) =
      (incoming u (js.map Proj.toR) i).map (touch 0) := by
  unfold incoming
  rw [List.map_flatMap, List.map_flatMap, List.map_map, List.flatMap_map, List.flatMap_map]
  apply List.flatMap_congr
  intro j _
  obtain ⟨_, h2, h3, h4, h5⟩ := projStep_toR o t j (g j.ident.uid)
  simp only [Function.comp]
  have ht : Trains u (projStep o t j (g j.ident.uid)).1.toR ↔ Trains u j.toR := by
    unfold Trains; rw [h2, h3]
  by_cases hc : Trains u j.toR
  · rw [if_pos hc, if_pos (ht.2 hc), h4, List.map_filterMap, List.map_filterMap]
    apply List.filterMap_congr
    intro k _
    have e := congrArg (fun l => l[k]?) h5
    simpa only [List.getElem?_map] using e
  · rw [if_neg hc, if_neg (fun h => hc (ht.1 h))]

/-- One population in one step of the dataflow. -/
theorem learnStep_view {o : Ops F} {H : Hearing} {t : Nat} {pops : List (Pop N B F)} {projs : List (Proj F)}
    {pending : List (SynapticImpactMessage F)} {ext : List (Message F)}
    {st : List (Pop N B F) × List (Proj F)} {out : StepOut F}
    (h : learnStep (machine o) H t pops projs pending ext = .ok (st, out)) (hnd : (pops.map Pop.uid).Nodup)
    (hf : ∀ r ∈ projs.map Proj.toR, FindOk r) :
    (∀ r ∈ st.2.map Proj.toR, FindOk r) ∧
    ∀ (n : Nat) (p : Pop N B F), pops[n]? = some p →
    ∃ a a' p1 s, popStep o t p a (Props.givenTo out p.uid) = .ok ((p1, a'), s) ∧ st.1[n]? = some p1 ∧
      (∀ i, incoming p.uid (a.map Proj.toR) i = incoming p.uid (projs.map Proj.toR) i) ∧ (∀ r ∈ a.map Proj.toR, FindOk r) ∧
      (∀ i, (incoming p.uid (st.2.map Proj.toR) i).map (touch 0) = (incoming p.uid (a'.map Proj.toR) i).map (touch 0)) ∧
      ∀ x, x.header.senderUid = p.uid → (x ∈ out.spikes ↔ x ∈ s.toList) := by
  obtain ⟨_, hg, _⟩ := learnStep_ok h
  unfold learnStep at h
  simp only at h
  cases hfp : learnPops (machine o) t (fun r => (pending ++ impactsIn ext).filter (fun m => H.impact r m.header.senderUid))
      pops projs with
  | throw w => rw [hfp] at h; cases h
  | ub => rw [hfp] at h; cases h
  | ok y =>
    obtain ⟨⟨ps', mids⟩, ss⟩ := y
    rw [hfp] at h
    simp only [Outcome.ok.injEq, Prod.mk.injEq] at h
    obtain ⟨h1, h2⟩ := h
    obtain ⟨_, k2, k3⟩ := learnPops_view _ _ _ _ _ hfp hnd hf
    refine ⟨?_, ?_⟩
    · rw [← h1]
      exact (projSteps_between (B := B) o t 0 (fun r => (spikesIn ext ++ ss).filter (fun x => H.spike r x.header.senderUid)) mids []).lookup k2
    · intro n p hp
      have hgp := hg p.uid (List.mem_map.2 ⟨p, List.mem_of_getElem? hp, rfl⟩)
      obtain ⟨a, a', p1, s, e1, e2, e3, e4, e5, e6⟩ := k3 n p hp
      refine ⟨a, a', p1, s, ?_, ?_, fun i => incoming_view e3 i, e4, ?_, ?_⟩
      · rw [hgp]; exact e1
      · rw [← h1]; exact e2
      · intro i
        rw [← h1]
        exact (projSteps_incoming o t p.uid (fun r => (spikesIn ext ++ ss).filter (fun x => H.spike r x.header.senderUid)) mids i).trans (congrArg (List.map (touch 0)) (incoming_view e5 i))
      · intro x hx
        rw [← h2]
        exact e6 x hx

/-- Exact lookups stay exact through a run. -/
theorem learnRun_findOk {o : Ops F} {H : Hearing} (exts : List (List (Message F))) : ∀ (t : Nat) (pops : List (Pop N B F))
    (projs : List (Proj F)) (pending : List (SynapticImpactMessage F)) (st : List (Pop N B F) × List (Proj F))
    (os : List (StepOut F)), learnRun (machine o) H t pops projs pending exts = .ok (st, os) → (pops.map Pop.uid).Nodup →
    (∀ r ∈ projs.map Proj.toR, FindOk r) → ∀ r ∈ st.2.map Proj.toR, FindOk r := by
  induction exts with
  | nil =>
    intro t pops projs pending st os h _ hf
    simp only [learnRun, Outcome.ok.injEq, Prod.mk.injEq] at h
    rw [← h.1]
    exact hf
  | cons ext exts ih =>
    intro t pops projs pending st os h hnd hf
    unfold learnRun at h
    cases hfs : learnStep (machine o) H t pops projs pending ext with
    | throw w => rw [hfs] at h; cases h
    | ub => rw [hfs] at h; cases h
    | ok x =>
      obtain ⟨st1, out⟩ := x
      rw [hfs] at h
      simp only at h
      cases hfr : learnRun (machine o) H (t + 1) st1.1 st1.2 out.impacts exts with
      | throw w => rw [hfr] at h; cases h
      | ub => rw [hfr] at h; cases h
      | ok y =>
        rw [hfr] at h
        simp only [Outcome.ok.injEq, Prod.mk.injEq] at h
        rw [← h.1]
        exact ih _ _ _ _ _ _ hfr (by rw [(learnStep_ok hfs).1]; exact hnd) (learnStep_view hfs hnd hf).1

end Knp.Learn
