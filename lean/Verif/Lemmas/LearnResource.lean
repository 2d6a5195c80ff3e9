import Verif.Lemmas.LearnTrace
import Verif.Props.StdpRules

/-! # Lemmas: the resource of a neuron in a running network -/

namespace Knp.Learn
open Knp Knp.Spec Knp.Neurons Knp.Sys Knp.Stdp Knp.Lemmas.Stdp

variable {N B F : Type} [Field F] [LinearOrder F]

/-- The calculation functions of a neuron type leave the resource alone (C56_population_step: both trained types of the code). -/
structure KeepsResource (k : Kind (Res B F) F) : Prop where
  pre : ∀ n, (k.pre n).rule.free = n.rule.free ∧ (k.pre n).rule.drain = n.rule.drain
  post : ∀ n, (k.post n).1.rule.free = n.rule.free ∧ (k.post n).1.rule.drain = n.rule.drain
  impact : ∀ n i f n', k.impact n i f = .ok n' → n'.rule.free = n.rule.free ∧ n'.rule.drain = n.rule.drain

omit [Field F] [LinearOrder F] in
theorem KeepsResource.step {k : Kind (Res B F) F} (h : KeepsResource k) {n n' : Res B F} {b : Bool}
    {imps : List (SynapticImpact F × Bool)} (hs : Props.neuronStep k n imps = .ok (n', b)) :
    n'.rule.free = n.rule.free ∧ n'.rule.drain = n.rule.drain := by
  have gen : ∀ (l : List (SynapticImpact F × Bool)) (a c : Res B F),
      l.foldlM (fun m i => k.impact m i.1 i.2) a = Outcome.ok c → c.rule.free = a.rule.free ∧ c.rule.drain = a.rule.drain := by
    intro l
    induction l with
    | nil => intro a c hc; cases hc; exact ⟨rfl, rfl⟩
    | cons x l ih =>
      intro a c hc
      rw [List.foldlM_cons] at hc
      cases hx : k.impact a x.1 x.2 with
      | throw w => rw [hx] at hc; cases hc
      | ub => rw [hx] at hc; cases hc
      | ok m =>
        rw [hx, Outcome.bind_ok] at hc
        obtain ⟨i1, i2⟩ := ih m c hc
        obtain ⟨j1, j2⟩ := h.impact _ _ _ _ hx
        exact ⟨i1.trans j1, i2.trans j2⟩
  unfold Props.neuronStep at hs
  cases hm : imps.foldlM (fun m i => k.impact m i.1 i.2) (k.pre n) with
  | throw w => rw [hm] at hs; cases hs
  | ub => rw [hm] at hs; cases hs
  | ok m =>
    rw [hm, Outcome.bind_ok] at hs
    obtain ⟨g1, g2⟩ := gen _ _ _ hm
    have : n' = (k.post m).1 := by
      have := Outcome.ok.inj hs
      rw [this]
    rw [this]
    exact ⟨(h.post m).1.trans (g1.trans (h.pre n).1), (h.post m).2.trans (g2.trans (h.pre n).2)⟩

omit [Field F] [LinearOrder F] in
theorem filter_map_ext {u : UID} {ps qs : List (RProj F)}
    (h : qs.map (fun p => if Trains u p then some (p.syns.map (fun s => (s.target, s.rule.resource))) else none) =
      ps.map (fun p => if Trains u p then some (p.syns.map (fun s => (s.target, s.rule.resource))) else none)) :
    (qs.filter (fun p => decide (Trains u p))).map (fun p => p.syns.map (fun s => (s.target, s.rule.resource))) =
    (ps.filter (fun p => decide (Trains u p))).map (fun p => p.syns.map (fun s => (s.target, s.rule.resource))) := by
  have e : ∀ l : List (RProj F), (l.filter (fun p => decide (Trains u p))).map (fun p => p.syns.map (fun s => (s.target, s.rule.resource))) =
      (l.map (fun p => if Trains u p then some (p.syns.map (fun s => (s.target, s.rule.resource))) else none)).filterMap id := by
    intro l
    induction l with
    | nil => rfl
    | cons a l ih =>
      by_cases ha : Trains u a
      · simp [ha, ih]
      · simp [ha, ih]
  rw [e, e, h]

/-- Training another population. -/
theorem train_between {o : Ops F} {b : BaseOps B F} {u v : UID} (hne : v ≠ u) {sp : List Nat} {t : Nat}
    {st st' : Stdp.State B F} (h : train o b v sp t st = .ok st') {C : Type} (ns : List (Res C F)) :
    Props.Between u (⟨ns, st.projs⟩ : Stdp.State C F) ⟨ns, st'.projs⟩ := by
  obtain ⟨f1, _, _, _⟩ := train_frame h
  have hlook := train_findOk h
  refine ⟨fun _ => rfl, fun _ => rfl, filter_map_ext ?_, hlook⟩
  apply List.ext_getElem?
  intro i
  simp only [List.getElem?_map]
  cases hp : st.projs[i]? with
  | none =>
    have hl : st'.projs.length = st.projs.length := by simpa [shapeOf] using congrArg List.length f1
    rw [List.getElem?_eq_none_iff] at hp
    rw [List.getElem?_eq_none (by omega)]
  | some p =>
    obtain ⟨p', hp', _, g2, g3, _, _⟩ := shape_get f1 hp
    by_cases hu : Trains u p
    · have := Props.C86_other_projections h i p hp (fun hv => hne (hv.1.symm.trans hu.1))
      rw [this]
    · have hu' : ¬ Trains u p' := by
        rintro ⟨h1, h2⟩
        exact hu ⟨g2.symm.trans h1, g3.symm.trans h2⟩
      rw [hp', Option.map_some, Option.map_some, if_neg hu, if_neg hu']

omit [LinearOrder F] in
/-- Nothing happens. -/
theorem between_refl (u : UID) {C : Type} (st : Stdp.State C F) : Props.Between u st st :=
  ⟨fun _ => rfl, fun _ => rfl, rfl, fun h => h⟩

theorem popStep_between {o : Ops F} {t : Nat} {p : Pop N B F} {js : List (Proj F)} {ms : List (SynapticImpactMessage F)}
    {p1 : Pop N B F} {js1 : List (Proj F)} {s : Option SpikeMessage} (h : popStep o t p js ms = .ok ((p1, js1), s))
    {u : UID} (hne : p.uid ≠ u) (ns : List (Res B F)) :
    Props.Between u (⟨ns, js.map Proj.toR⟩ : Stdp.State B F) ⟨ns, js1.map Proj.toR⟩ := by
  unfold popStep at h
  cases p with
  | plain v k qs =>
    simp only at h
    cases h1 : stepPopulation k v t qs ms with
    | throw w => rw [h1] at h; cases h
    | ub => rw [h1] at h; cases h
    | ok r =>
      rw [h1] at h
      simp only [Outcome.ok.injEq, Prod.mk.injEq] at h
      rw [← h.1.2]
      exact between_refl u _
  | trained v k b qs =>
    simp only at h
    cases h1 : stepPopulation k v t qs ms with
    | throw w => rw [h1] at h; cases h
    | ub => rw [h1] at h; cases h
    | ok r =>
      rw [h1] at h
      simp only at h
      cases h2 : train o b v (spikedIn r.2) t ⟨r.1, js.map Proj.toR⟩ with
      | throw w => rw [h2] at h; cases h
      | ub => rw [h2] at h; cases h
      | ok st =>
        rw [h2] at h
        simp only [Outcome.ok.injEq, Prod.mk.injEq] at h
        rw [← h.1.2, (putAll_trained h2).2]
        exact train_between hne h2 ns

/-- The population's own step: input processing, then training. -/
theorem popStep_own {o : Ops F} {t : Nat} {u : UID} {k : Kind (Res B F) F} {b : BaseOps B F} {ns : List (Res B F)}
    {js : List (Proj F)} {ms : List (SynapticImpactMessage F)} {p1 : Pop N B F} {js1 : List (Proj F)} {s : Option SpikeMessage}
    (h : popStep o t (Pop.trained u k b ns) js ms = .ok ((p1, js1), s)) (hk : KeepsResource k)
    {a : Stdp.State B F} (ha : Props.History o b u a ⟨ns, js.map Proj.toR⟩) :
    ∃ ns', p1 = .trained u k b ns' ∧ Props.History o b u a ⟨ns', js1.map Proj.toR⟩ := by
  unfold popStep at h
  simp only at h
  cases h1 : stepPopulation k u t ns ms with
  | throw w => rw [h1] at h; cases h
  | ub => rw [h1] at h; cases h
  | ok r =>
    rw [h1] at h
    simp only at h
    cases h2 : train o b u (spikedIn r.2) t ⟨r.1, js.map Proj.toR⟩ with
    | throw w => rw [h2] at h; cases h
    | ub => rw [h2] at h; cases h
    | ok st =>
      rw [h2] at h
      simp only [Outcome.ok.injEq, Prod.mk.injEq] at h
      refine ⟨st.neurons, h.1.1.symm, ?_⟩
      rw [← h.1.2, (putAll_trained h2).2]
      refine Props.History.train (b := ⟨r.1, js.map Proj.toR⟩) (Props.History.between ha ?_) h2
      obtain ⟨hl, sp, _, he, _⟩ := Props.C55_each_neuron k u t ns r.1 ms r.2 h1
      have each : ∀ i : Nat, (r.1[i]? = none ∧ ns[i]? = none) ∨ ∃ n n', ns[i]? = some n ∧ r.1[i]? = some n' ∧
          n'.rule.free = n.rule.free ∧ n'.rule.drain = n.rule.drain := by
        intro i
        cases hn : ns[i]? with
        | none =>
          left
          rw [List.getElem?_eq_none_iff] at hn
          exact ⟨List.getElem?_eq_none (by omega), rfl⟩
        | some n =>
          obtain ⟨n', c, q1, q2, _⟩ := he i n hn
          exact Or.inr ⟨n, n', rfl, q2, hk.step q1⟩
      refine ⟨fun i => ?_, fun i => ?_, rfl, fun h => h⟩
      · unfold freeOf
        rcases each i with ⟨e1, e2⟩ | ⟨n, n', e1, e2, e3, _⟩
        · simp only [e1, e2]
        · simp only [e1, e2]; exact e3
      · rcases each i with ⟨e1, e2⟩ | ⟨n, n', e1, e2, _, e3⟩
        · simp only [e1, e2]
        · simp only [e1, e2, Option.map_some, e3]

theorem learnPops_history {o : Ops F} {t : Nat} {f : UID → List (SynapticImpactMessage F)} {u : UID} {k : Kind (Res B F) F}
    {b : BaseOps B F} (hk : KeepsResource k) {a : Stdp.State B F} :
    ∀ (ps : List (Pop N B F)) (js : List (Proj F)) (ps' : List (Pop N B F)) (js' : List (Proj F)) (ss : List SpikeMessage),
    learnPops (machine o) t f ps js = .ok ((ps', js'), ss) → (ps.map Pop.uid).Nodup →
    ((∀ p ∈ ps, p.uid ≠ u) → ∀ ns, Props.History o b u a ⟨ns, js.map Proj.toR⟩ → Props.History o b u a ⟨ns, js'.map Proj.toR⟩) ∧
    ∀ (n : Nat) (ns : List (Res B F)), ps[n]? = some (.trained u k b ns) → Props.History o b u a ⟨ns, js.map Proj.toR⟩ →
      ∃ ns', ps'[n]? = some (.trained u k b ns') ∧ Props.History o b u a ⟨ns', js'.map Proj.toR⟩ := by
  intro ps
  induction ps with
  | nil =>
    intro js ps' js' ss h _
    simp only [learnPops, Outcome.ok.injEq, Prod.mk.injEq] at h
    rw [← h.1.2]
    exact ⟨fun _ ns hh => hh, fun n ns hn => by simp at hn⟩
  | cons p ps ih =>
    intro js ps' js' ss h hnd
    rw [List.map_cons, List.nodup_cons] at hnd
    unfold learnPops at h
    cases h1 : (machine o).popStep t p js (f ((machine o).popUid p)) with
    | throw w => rw [h1] at h; cases h
    | ub => rw [h1] at h; cases h
    | ok r =>
      obtain ⟨⟨p1, js1⟩, s⟩ := r
      rw [h1] at h
      simp only at h
      cases h2 : learnPops (machine o) t f ps js1 with
      | throw w => rw [h2] at h; cases h
      | ub => rw [h2] at h; cases h
      | ok x =>
        obtain ⟨⟨qs, ks⟩, ss2⟩ := x
        rw [h2] at h
        simp only [Outcome.ok.injEq, Prod.mk.injEq] at h
        rw [← h.1.2, ← h.1.1]
        obtain ⟨i1, i2⟩ := ih js1 qs ks ss2 h2 hnd.2
        refine ⟨?_, ?_⟩
        · intro hne ns hh
          exact i1 (fun p hp => hne p (by simp [hp])) ns (.between hh (popStep_between h1 (hne p (by simp)) ns))
        · intro n ns hn hh
          cases n with
          | zero =>
            simp only [List.getElem?_cons_zero, Option.some.injEq] at hn
            subst hn
            obtain ⟨ns', q1, q2⟩ := popStep_own h1 hk hh
            refine ⟨ns', by simp [q1], i1 (fun p hp he => hnd.1 ?_) ns' q2⟩
            exact List.mem_map.2 ⟨p, hp, he⟩
          | succ n =>
            rw [List.getElem?_cons_succ] at hn
            have hne : p.uid ≠ u := fun he => hnd.1 (List.mem_map.2 ⟨_, List.mem_of_getElem? hn, he.symm⟩)
            obtain ⟨ns', q1, q2⟩ := i2 n ns hn (.between hh (popStep_between h1 hne ns))
            exact ⟨ns', by simpa using q1, q2⟩

/-- A projection's own step, as training sees it. -/
theorem projStep_toR (o : Ops F) (t : Nat) (j : Proj F) (ms : List SpikeMessage) :
    (projStep o t j ms).1.toR.uid = j.toR.uid ∧ (projStep o t j ms).1.toR.post = j.toR.post ∧
    (projStep o t j ms).1.toR.locked = j.toR.locked ∧ (projStep o t j ms).1.toR.find = j.toR.find ∧
    (projStep o t j ms).1.toR.syns.map (touch 0) = j.toR.syns.map (touch 0) := by
  unfold projStep Proj.toR
  cases hs : j.syns with
  | delta p => exact ⟨rfl, rfl, rfl, rfl, rfl⟩
  | additive a b c d => exact ⟨rfl, rfl, rfl, rfl, rfl⟩
  | resource pops syns pre post => exact ⟨rfl, rfl, rfl, rfl, touchAll_untimed t pre ms syns⟩

omit [Field F] [LinearOrder F] in
theorem untimed_find {p q : RProj F} (hf : q.find = p.find) (hs : q.syns.map (touch 0) = p.syns.map (touch 0))
    (h : FindOk p) : FindOk q := by
  intro n
  obtain ⟨h1, h2⟩ := h n
  rw [hf]
  refine ⟨h1, fun k => (h2 k).trans ?_⟩
  have e := congrArg (fun l => (l[k]?).map RSyn.target) hs
  simp only [List.getElem?_map, Option.map_map] at e
  constructor
  · rintro ⟨s, hk, ht⟩
    rw [hk] at e
    cases hq : q.syns[k]? with
    | none => rw [hq] at e; cases e
    | some s' =>
      rw [hq] at e
      refine ⟨s', rfl, ?_⟩
      rw [← ht]
      exact Option.some.inj e
  · rintro ⟨s, hk, ht⟩
    rw [hk] at e
    cases hq : p.syns[k]? with
    | none => rw [hq] at e; cases e
    | some s' =>
      rw [hq] at e
      refine ⟨s', rfl, ?_⟩
      rw [← ht]
      exact (Option.some.inj e).symm

theorem projSteps_between (o : Ops F) (t : Nat) (u : UID) (g : UID → List SpikeMessage) (js : List (Proj F))
    (ns : List (Res B F)) :
    Props.Between u (⟨ns, js.map Proj.toR⟩ : Stdp.State B F)
      ⟨ns, (js.map (fun j => (projStep o t j (g j.ident.uid)).1)).map Proj.toR⟩ := by
  refine ⟨fun _ => rfl, fun _ => rfl, filter_map_ext ?_, ?_⟩
  · rw [List.map_map, List.map_map, List.map_map]
    apply List.map_congr_left
    intro j _
    obtain ⟨_, h2, h3, _, h5⟩ := projStep_toR o t j (g j.ident.uid)
    simp only [Function.comp]
    have ht : Trains u (projStep o t j (g j.ident.uid)).1.toR ↔ Trains u j.toR := by
      unfold Trains; rw [h2, h3]
    have hm := congrArg (List.map (fun s : RSyn F => (s.target, s.rule.resource))) h5
    rw [List.map_map, List.map_map] at hm
    by_cases hc : Trains u j.toR
    · rw [if_pos hc, if_pos (ht.2 hc)]
      exact congrArg some hm
    · rw [if_neg hc, if_neg (fun h => hc (ht.1 h))]
  · intro hf p hp
    rw [List.map_map] at hp
    obtain ⟨j, hj, rfl⟩ := List.mem_map.1 hp
    obtain ⟨_, _, _, h4, h5⟩ := projStep_toR o t j (g j.ident.uid)
    exact untimed_find h4 h5 (hf _ (List.mem_map.2 ⟨j, hj, rfl⟩))

/-- A population of trained neurons in a run has a history in the sense of C56. -/
theorem learnRun_history {o : Ops F} {H : Hearing} {u : UID} {k : Kind (Res B F) F} {b : BaseOps B F} (hk : KeepsResource k)
    {a : Stdp.State B F} (exts : List (List (Message F))) : ∀ (t : Nat) (pops : List (Pop N B F))
    (projs : List (Proj F)) (pending : List (SynapticImpactMessage F))
    (st : List (Pop N B F) × List (Proj F)) (os : List (StepOut F)),
    learnRun (machine o) H t pops projs pending exts = .ok (st, os) → (pops.map Pop.uid).Nodup →
    ∀ (n : Nat) (ns : List (Res B F)), pops[n]? = some (.trained u k b ns) →
      Props.History o b u a ⟨ns, projs.map Proj.toR⟩ →
      ∃ ns', st.1[n]? = some (.trained u k b ns') ∧ Props.History o b u a ⟨ns', st.2.map Proj.toR⟩ := by
  induction exts with
  | nil =>
    intro t pops projs pending st os h _ n ns hn hh
    simp only [learnRun, Outcome.ok.injEq, Prod.mk.injEq] at h
    rw [← h.1]
    exact ⟨ns, hn, hh⟩
  | cons ext exts ih =>
    intro t pops projs pending st os h hnd n ns hn hh
    unfold learnRun at h
    cases hfs : learnStep (machine o) H t pops projs pending ext with
    | throw w => rw [hfs] at h; cases h
    | ub => rw [hfs] at h; cases h
    | ok x =>
      obtain ⟨st1, out⟩ := x
      have a1 := (learnStep_ok hfs).1
      rw [hfs] at h
      simp only at h
      cases hfr : learnRun (machine o) H (t + 1) st1.1 st1.2 out.impacts exts with
      | throw w => rw [hfr] at h; cases h
      | ub => rw [hfr] at h; cases h
      | ok y =>
        obtain ⟨st', os'⟩ := y
        rw [hfr] at h
        simp only [Outcome.ok.injEq, Prod.mk.injEq] at h
        obtain ⟨rfl, rfl⟩ := h
        unfold learnStep at hfs
        simp only at hfs
        cases hfp : learnPops (machine o) t (fun r => (pending ++ impactsIn ext).filter (fun m => H.impact r m.header.senderUid))
            pops projs with
        | throw w => rw [hfp] at hfs; cases hfs
        | ub => rw [hfp] at hfs; cases hfs
        | ok y =>
          obtain ⟨⟨ps', mids⟩, ss⟩ := y
          rw [hfp] at hfs
          simp only [Outcome.ok.injEq, Prod.mk.injEq] at hfs
          obtain ⟨ns1, q1, q2⟩ := (learnPops_history hk _ _ _ _ _ hfp hnd).2 n ns hn hh
          have e1 : st1.1 = ps' := by rw [← hfs.1]
          have e2 : st1.2 = mids.map (fun j => (projStep o t j ((fun r => (spikesIn ext ++ ss).filter
              (fun x => H.spike r x.header.senderUid)) j.ident.uid)).1) := by rw [← hfs.1]; rfl
          refine ih _ _ _ _ _ _ hfr (by rw [a1]; exact hnd) n ns1 (by rw [e1]; exact q1) ?_
          rw [e2]
          exact .between q2 (projSteps_between o t u (fun r => (spikesIn ext ++ ss).filter (fun x => H.spike r x.header.senderUid)) mids ns1)

end Knp.Learn
