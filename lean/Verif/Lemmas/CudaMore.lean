import Verif.Lemmas.CudaRun

/-! # Lemmas: single steps of a run of the CUDA backend, undefined behaviour -/

namespace Knp.Cuda
open Knp Knp.Bus Knp.Spec Knp.Neurons

variable {F : Type}

/-- Every step of a run is a step from a state between two steps. -/
theorem run_each [Arith F] {H : Hearing} {inputs : List (UID × UID)} {chans : Nat} (envs : List (List (Op F) × Sched)) :
    ∀ (s : State F) (projs : List (Sys.ProjSt F)) (pending : List (SynapticImpactMessage F)) (e0 : Endpoint F),
    Btw H inputs chans s projs pending e0 → s.step + envs.length ≤ two64 → (∀ x ∈ envs, ∀ op ∈ x.1, Foreign chans op) →
    ∀ s' os, run s envs = .ok (s', os) → os.length = envs.length ∧ ∀ (k : Nat) (env : List (Op F)) (sc : Sched),
      envs[k]? = some (env, sc) → ∃ s1 projs1 pending1 e1 s2 o, os[k]? = some o ∧ Btw H inputs chans s1 projs1 pending1 e1 ∧
        s1.step = s.step + k ∧ s1.dev.pops.map (·.uid) = s.dev.pops.map (·.uid) ∧
        projs1.map (·.ident.uid) = projs.map (·.ident.uid) ∧
        step sc { s1 with world := s1.world.run env } = .ok (s2, o) := by
  induction envs with
  | nil =>
    intro s projs pending e0 hb _ _ s' os h
    simp only [run, Outcome.ok.injEq, Prod.mk.injEq] at h
    rw [← h.2]
    exact ⟨rfl, fun k env sc hk => by simp at hk⟩
  | cons x envs ih =>
    intro s projs pending e0 hb hle hf s' os h
    obtain ⟨env, sc⟩ := x
    rw [List.length_cons] at hle
    have hs := step_spec hb (by omega) env (hf (env, sc) (by simp)) sc
    unfold run at h
    cases h1 : step sc { s with world := s.world.run env } with
    | throw w => rw [h1] at h; cases h
    | ub => rw [h1] at h; cases h
    | ok r =>
      obtain ⟨s1, o⟩ := r
      rw [h1] at hs h
      simp only at hs h
      obtain ⟨a1, a2, ⟨e', a3⟩, _⟩ := hs
      cases h2 : run s1 envs with
      | throw w => rw [h2] at h; cases h
      | ub => rw [h2] at h; cases h
      | ok q =>
        obtain ⟨s2, os2⟩ := q
        rw [h2] at h
        simp only [Outcome.ok.injEq, Prod.mk.injEq] at h
        obtain ⟨b1, b2⟩ := ih s1 _ _ e' a3 (by rw [a2]; omega) (fun y hy => hf y (by simp [hy])) s2 os2 h2
        have hu1 : s1.dev.pops.map (·.uid) = s.dev.pops.map (·.uid) := (computePops_spec _ _ _ _ a1.computed).1
        have hlen : o.heard.length = projs.length := (forall₂_length a1.heard).symm
        have hu2 : (projsAfter s.step projs o.heard).map (·.ident.uid) = projs.map (·.ident.uid) := by
          unfold projsAfter
          generalize o.heard = hd at hlen
          clear a1 a3 ih b2 h2 hb
          induction projs generalizing hd with
          | nil => simp
          | cons j js ih =>
            cases hd with
            | nil => simp at hlen
            | cons x hd =>
              rw [List.zipWith_cons_cons, List.map_cons, List.map_cons, ih hd (by simpa using hlen)]
              rfl
        rw [← h.2]
        refine ⟨by simp [b1], ?_⟩
        intro k env' sc' hk
        cases k with
        | zero =>
          rw [List.getElem?_cons_zero, Option.some.injEq, Prod.mk.injEq] at hk
          rw [← hk.1, ← hk.2]
          exact ⟨s, projs, pending, e0, s1, o, rfl, hb, rfl, rfl, rfl, h1⟩
        | succ k =>
          rw [List.getElem?_cons_succ] at hk
          obtain ⟨t1, p1, q1, f1, t2, o1, c0, c1, c2, c3, c4, c5⟩ := b2 k env' sc' hk
          exact ⟨t1, p1, q1, f1, t2, o1, by rw [List.getElem?_cons_succ]; exact c0, c1, by rw [c2, a2]; omega, by rw [c3, hu1],
            by rw [c4, hu2], c5⟩

/-! ## Undefined behaviour -/

/-- An impact a population of `n` neurons can take. -/
def SafeImpact [Arith F] (n : Nat) (i : SynapticImpact F) : Prop :=
  i.postsynapticNeuronIndex < n ∧ (i.synapseType = .blocking → ∃ v, Arith.toI64 i.impactValue = some v ∧ 0 ≤ v ∧ v < two32)

theorem impactNeuron_safe [Arith F] {k : Nat} (n : Blifat F) {i : SynapticImpact F} (h : SafeImpact k i) :
    ∃ n', impactNeuron n i = .ok n' := by
  unfold impactNeuron
  cases ht : i.synapseType with
  | blocking =>
    obtain ⟨v, h1, h2, h3⟩ := h.2 ht
    simp only [h1]
    rw [if_pos ⟨h2, h3⟩]
    exact ⟨_, rfl⟩
  | _ => exact ⟨_, rfl⟩

theorem impactMessage_safe [Arith F] : ∀ (is : List (SynapticImpact F)) (ns : List (Blifat F)), (∀ i ∈ is, SafeImpact ns.length i) →
    ∃ ns', impactMessage is ns = .ok ns' ∧ ns'.length = ns.length := by
  intro is
  induction is with
  | nil => intro ns _; exact ⟨ns, rfl, rfl⟩
  | cons i is ih =>
    intro ns h
    have hi := h i (by simp)
    obtain ⟨n', hn⟩ := impactNeuron_safe (ns[i.postsynapticNeuronIndex]'hi.1) hi
    obtain ⟨ns', h1, h2⟩ := ih (ns.set i.postsynapticNeuronIndex n') (fun x hx => by
      rw [List.length_set]; exact h x (by simp [hx]))
    refine ⟨ns', ?_, by rw [h2, List.length_set]⟩
    unfold impactMessage impactAt
    rw [List.getElem?_eq_getElem hi.1]
    simp only [hn]
    exact h1

theorem impactAll_safe [Arith F] : ∀ (ms : List (SynapticImpactMessage F)) (ns : List (Blifat F)),
    (∀ m ∈ ms, ∀ i ∈ m.impacts, SafeImpact ns.length i) → ∃ ns', impactAll ms ns = .ok ns' ∧ ns'.length = ns.length := by
  intro ms
  induction ms with
  | nil => intro ns _; exact ⟨ns, rfl, rfl⟩
  | cons m ms ih =>
    intro ns h
    obtain ⟨n1, h1, h2⟩ := impactMessage_safe m.impacts ns (h m (by simp))
    obtain ⟨n2, h3, h4⟩ := ih n1 (fun x hx => by rw [h2]; exact h x (by simp [hx]))
    refine ⟨n2, ?_, by rw [h4, h2]⟩
    unfold impactAll
    simp only [h1]
    exact h3

theorem calcPop_safe [Arith F] (t : Nat) (p : Pop F) (ms : List (SynapticImpactMessage F))
    (h : ∀ m ∈ ms, ∀ i ∈ m.impacts, SafeImpact p.neurons.length i) : ∃ r, calcPop t p ms = .ok r := by
  obtain ⟨ns, h1, _⟩ := impactAll_safe ms (p.neurons.map preNeuron) (by simpa using h)
  unfold calcPop
  simp only [h1]
  exact ⟨_, rfl⟩

theorem impactMessage_length [Arith F] : ∀ (is : List (SynapticImpact F)) (ns ns' : List (Blifat F)), impactMessage is ns = .ok ns' →
    ns'.length = ns.length := by
  intro is
  induction is with
  | nil => intro ns ns' h; simp only [impactMessage, Outcome.ok.injEq] at h; rw [h]
  | cons i is ih =>
    intro ns ns' h
    unfold impactMessage impactAt at h
    cases h1 : ns[i.postsynapticNeuronIndex]? with
    | none => simp only [h1] at h; cases h
    | some n =>
      simp only [h1] at h
      cases h2 : impactNeuron n i with
      | throw w => simp only [h2] at h; cases h
      | ub => simp only [h2] at h; cases h
      | ok n' =>
        simp only [h2] at h
        rw [ih _ _ h, List.length_set]

theorem impactAll_length [Arith F] : ∀ (ms : List (SynapticImpactMessage F)) (ns ns' : List (Blifat F)), impactAll ms ns = .ok ns' →
    ns'.length = ns.length := by
  intro ms
  induction ms with
  | nil => intro ns ns' h; simp only [impactAll, Outcome.ok.injEq] at h; rw [h]
  | cons m ms ih =>
    intro ns ns' h
    unfold impactAll at h
    cases h1 : impactMessage m.impacts ns with
    | throw w => simp only [h1] at h; cases h
    | ub => simp only [h1] at h; cases h
    | ok n1 =>
      simp only [h1] at h
      rw [ih _ _ h, impactMessage_length _ _ _ h1]

theorem postLoop_length [Arith F] (uid : UID) (t : Nat) (ms : List (SynapticImpactMessage F)) : ∀ (ns : List (Blifat F)) (i : Nat),
    (postLoop uid t ms i ns).1.length = ns.length := by
  intro ns
  induction ns with
  | nil => intro i; simp [postLoop]
  | cons n ns ih =>
    intro i
    cases ms with
    | nil => simp [postLoop, ih]
    | cons m ms => simp [postLoop]

theorem calcPop_shape [Arith F] {t : Nat} {p : Pop F} {ms : List (SynapticImpactMessage F)} {r : Pop F × Option SpikeMessage}
    (h : calcPop t p ms = .ok r) : (r.1.uid, r.1.neurons.length) = (p.uid, p.neurons.length) := by
  unfold calcPop at h
  cases hx : impactAll ms (p.neurons.map preNeuron) with
  | throw a => rw [hx] at h; cases h
  | ub => rw [hx] at h; cases h
  | ok ns =>
    rw [hx] at h
    simp only [Outcome.ok.injEq] at h
    rw [← h]
    simp [postLoop_length, impactAll_length _ _ _ hx]

/-- UID and number of neurons. -/
def Pop.shape (p : Pop F) : UID × Nat := (p.uid, p.neurons.length)

theorem computePops_shape [Arith F] (t : Nat) : ∀ (ps : List (Pop F)) (gs : List (List (SynapticImpactMessage F)))
    (r : List (Pop F) × List (Option SpikeMessage)), computePops t ps gs = .ok r → r.1.map Pop.shape = ps.map Pop.shape := by
  intro ps
  induction ps with
  | nil => intro gs r h; simp only [computePops, Outcome.ok.injEq] at h; rw [← h]
  | cons p ps ih =>
    intro gs r h
    unfold computePops at h
    cases hx : calcPop t p (gs.headD []) with
    | throw a => rw [hx] at h; cases h
    | ub => rw [hx] at h; cases h
    | ok a =>
      rw [hx] at h
      simp only at h
      cases hy : computePops t ps gs.tail with
      | throw a => rw [hy] at h; cases h
      | ub => rw [hy] at h; cases h
      | ok q =>
        rw [hy] at h
        simp only [Outcome.ok.injEq] at h
        rw [← h, List.map_cons, List.map_cons, ih _ _ hy]
        congr 1
        exact calcPop_shape hx

theorem computePops_safe [Arith F] (t : Nat) (R : UID → SynapticImpactMessage F → Prop) : ∀ (ps : List (Pop F))
    (gs : List (List (SynapticImpactMessage F))), List.Forall₂ (fun p g => ∀ m ∈ g, R p.uid m) ps gs →
    (∀ p ∈ ps, ∀ m, R p.uid m → ∀ i ∈ m.impacts, SafeImpact p.neurons.length i) → computePops t ps gs ≠ .ub := by
  intro ps gs h
  induction h with
  | nil => intro _ hx; simp [computePops] at hx
  | @cons p g ps gs hg _ ih =>
    intro hs hx
    obtain ⟨r, hr⟩ := calcPop_safe t p g (fun m hm i hi => hs p (by simp) m (hg m hm) i hi)
    have := ih (fun q hq => hs q (by simp [hq]))
    unfold computePops at hx
    simp only [List.headD_cons, List.tail_cons, hr] at hx
    cases hy : computePops t ps gs with
    | throw w => rw [hy] at hx; cases hx
    | ub => exact this hy
    | ok q => rw [hy] at hx; cases hx

/-! ## Where impacts come from -/

/-- The impacts of `m` are those of synapses of the list. -/
def FromSyn (synapses : List (Delta.Syn F)) (m : SynapticImpactMessage F) : Prop :=
  ∀ i ∈ m.impacts, ∃ k s, synapses[k]? = some s ∧ i = Delta.impactOf k s

theorem push_from {synapses : List (Delta.Syn F)} (d : Delta.Ident) (future k : Nat) {s : Delta.Syn F} (hk : synapses[k]? = some s) :
    ∀ q : List (SynapticImpactMessage F), (∀ m ∈ q, FromSyn synapses m ∧ m.header.senderUid = d.uid) →
    ∀ m ∈ pushImpact d future (Delta.impactOf k s) q, FromSyn synapses m ∧ m.header.senderUid = d.uid := by
  intro q
  induction q with
  | nil =>
    intro _ m hm
    simp only [pushImpact, List.mem_singleton] at hm
    rw [hm]
    exact ⟨fun i hi => ⟨k, s, hk, by simpa using hi⟩, rfl⟩
  | cons x q ih =>
    intro h m hm
    unfold pushImpact at hm
    split at hm
    · rcases List.mem_cons.1 hm with hm | hm
      · rw [hm]
        obtain ⟨h1, h2⟩ := h x (by simp)
        refine ⟨fun i hi => ?_, h2⟩
        rcases List.mem_append.1 hi with hi | hi
        · exact h1 i hi
        · exact ⟨k, s, hk, by simpa using hi⟩
      · exact h m (by simp [hm])
    · rcases List.mem_cons.1 hm with hm | hm
      · rw [hm]; exact h x (by simp)
      · exact ih (fun y hy => h y (by simp [hy])) m hm

theorem foldl_inv {α β : Type} (P : β → Prop) (f : β → α → β) : ∀ (l : List α) (b : β), P b → (∀ b, ∀ a ∈ l, P b → P (f b a)) →
    P (l.foldl f b) := by
  intro l
  induction l with
  | nil => intro b h _; exact h
  | cons a l ih => intro b h hf; exact ih _ (hf b a (by simp) h) (fun b x hx => hf b x (by simp [hx]))

theorem calcProj_from (t : Nat) (j : Proj F) (ms : List SpikeMessage)
    (h : ∀ m ∈ j.queue, FromSyn j.synapses m ∧ m.header.senderUid = j.ident.uid) :
    ∀ m ∈ (calcProj t j ms).queue, FromSyn j.synapses m ∧ m.header.senderUid = j.ident.uid := by
  unfold calcProj
  refine foldl_inv (fun q => ∀ m ∈ q, FromSyn j.synapses m ∧ m.header.senderUid = j.ident.uid) _ ms j.queue h ?_
  intro q m _ hq
  refine foldl_inv (fun q => ∀ m ∈ q, FromSyn j.synapses m ∧ m.header.senderUid = j.ident.uid) _ m.neuronIndexes q hq ?_
  intro q n _ hq
  unfold pushSpike
  refine foldl_inv (fun q => ∀ m ∈ q, FromSyn j.synapses m ∧ m.header.senderUid = j.ident.uid) _ j.synapses.zipIdx q hq ?_
  intro q s hs hq
  split
  · exact hq
  · refine push_from _ _ _ ?_ q hq
    obtain ⟨x, k⟩ := s
    exact List.mk_mem_zipIdx_iff_getElem?.1 hs

theorem extract_mem (t : Nat) : ∀ q : List (SynapticImpactMessage F),
    (∀ m ∈ (extract t q).1, m ∈ q) ∧ (∀ m ∈ (extract t q).2, m ∈ q) := by
  intro q
  induction q using extract.induct t with
  | case1 => simp [extract]
  | case2 m => unfold extract; split <;> simp
  | case3 m h => unfold extract; split <;> simp
  | case4 m m' q h ih =>
    unfold extract
    rw [if_pos h]
    refine ⟨fun x hx => ?_, fun x hx => ?_⟩
    · rcases List.mem_cons.1 hx with hx | hx
      · simp [hx]
      · simp [ih.1 x hx]
    · rcases List.mem_cons.1 hx with hx | hx
      · simp [hx]
      · simp [ih.2 x hx]
  | case5 m m' q h ih =>
    unfold extract
    rw [if_neg h]
    refine ⟨fun x hx => ?_, fun x hx => ?_⟩
    · exact List.mem_cons_of_mem _ (ih.1 x hx)
    · rcases List.mem_cons.1 hx with hx | hx
      · simp [hx]
      · exact List.mem_cons_of_mem _ (ih.2 x hx)

/-- What never changes, and where the impacts on the device come from. -/
structure Made (shapes : List (UID × Nat)) (kinds : List (Delta.Ident × List (Delta.Syn F))) (d : Device F) : Prop where
  pops : d.pops.map Pop.shape = shapes
  projs : d.projs.map (fun j => (j.ident, j.synapses)) = kinds
  queue : ∀ j ∈ d.projs, ∀ m ∈ j.queue, FromSyn j.synapses m ∧ m.header.senderUid = j.ident.uid
  msgs : ∀ g ∈ d.msgs, ∀ m, g.body = .impact m → ∃ j ∈ kinds, FromSyn j.2 m ∧ m.header.senderUid = j.1.uid

theorem made_step [Arith F] {shapes : List (UID × Nat)} {kinds : List (Delta.Ident × List (Delta.Syn F))} {s s' : State F}
    {sc : Sched} {o : Out F} (hm : Made shapes kinds s.dev) (h : step sc s = .ok (s', o)) : Made shapes kinds s'.dev := by
  unfold step at h
  split at h
  · cases h
  · simp only at h
    split at h
    · cases h
    · rename_i e0 _ _ e1 _
      split at h
      · cases h
      · cases h
      · rename_i d2 spikes hc
        simp only [Outcome.ok.injEq, Prod.mk.injEq] at h
        rw [← h.1]
        unfold calcPops at hc
        split at hc
        · rename_i ps ss hk
          simp only [Outcome.ok.injEq, Prod.mk.injEq] at hc
          have hd2p : d2.pops = ps := by rw [← hc.1]
          have hd2j : d2.projs = s.dev.projs := by rw [← hc.1]; rfl
          rw [popKernel_eq] at hk
          have hsh := computePops_shape _ _ _ _ hk
          simp only at hsh
          refine ⟨?_, ?_, ?_, ?_⟩
          · show d2.pops.map Pop.shape = shapes
            rw [hd2p, hsh]
            exact hm.pops
          · rw [← hm.projs]
            show ((d2.projs.mapIdx _).map _).map _ = _
            rw [hd2j]
            rw [List.map_map]
            refine List.ext_getElem? (fun i => ?_)
            simp only [List.getElem?_map, List.getElem?_mapIdx, Option.map_map]
            rfl
          · intro j hj m hmq
            obtain ⟨j1, hj1, rfl⟩ := List.mem_map.1 hj
            have hj1' : j1 ∈ d2.projs.mapIdx (fun i j => calcProj s.step j (heardBy sc d2.subs d2.msgs i j.ident.uid)) := hj1
            obtain ⟨i, hi, rfl⟩ := List.mem_mapIdx.1 hj1'
            have hin : d2.projs[i] ∈ s.dev.projs := by rw [← hd2j]; exact List.getElem_mem hi
            exact calcProj_from _ _ _ (hm.queue _ hin) m ((extract_mem _ _).2 m hmq)
          · intro g hg m hgm
            obtain ⟨j1, hj1, hg1⟩ := List.mem_flatMap.1 hg
            have hj1' : j1 ∈ d2.projs.mapIdx (fun i j => calcProj s.step j (heardBy sc d2.subs d2.msgs i j.ident.uid)) := hj1
            obtain ⟨i, hi, rfl⟩ := List.mem_mapIdx.1 hj1'
            obtain ⟨m1, hm1, rfl⟩ := List.mem_map.1 hg1
            simp only [Message.impact.injEq] at hgm
            rw [← hgm]
            have hin : d2.projs[i] ∈ s.dev.projs := by rw [← hd2j]; exact List.getElem_mem hi
            refine ⟨(d2.projs[i].ident, d2.projs[i].synapses), ?_, ?_⟩
            · rw [← hm.projs]
              exact List.mem_map.2 ⟨_, hin, rfl⟩
            · exact calcProj_from _ _ _ (hm.queue _ hin) m1 ((extract_mem _ _).1 m1 hm1)
        · cases hc
        · cases hc

/-- Every population has the neurons the projections into it refer to, and blocking synapses have a weight that can be converted. -/
def SafeNet [Arith F] (shapes : List (UID × Nat)) (kinds : List (Delta.Ident × List (Delta.Syn F))) : Prop :=
  ∀ p ∈ shapes, ∀ j ∈ kinds, j.1.post = p.1 → ∀ s ∈ j.2, s.target % Delta.two32 < p.2 ∧
    (s.outType = .blocking → ∃ v, Arith.toI64 s.weight = some v ∧ 0 ≤ v ∧ v < two32)

theorem run_safe [Arith F] {H : Hearing} {inputs : List (UID × UID)} {chans : Nat} {shapes : List (UID × Nat)}
    {kinds : List (Delta.Ident × List (Delta.Syn F))} (hsafe : SafeNet shapes kinds) (hnd : (kinds.map (·.1.uid)).Nodup)
    (hH : ∀ r s, H.impact r s = true → ∃ j ∈ kinds, j.1.post = r ∧ j.1.uid = s) (envs : List (List (Op F) × Sched)) :
    ∀ (s : State F) (projs : List (Sys.ProjSt F)) (pending : List (SynapticImpactMessage F)) (e0 : Endpoint F),
    Btw H inputs chans s projs pending e0 → Made shapes kinds s.dev → s.step + envs.length ≤ two64 →
    (∀ x ∈ envs, ∀ op ∈ x.1, Foreign chans op) → ∃ s' os, run s envs = .ok (s', os) := by
  induction envs with
  | nil => intro s projs pending e0 _ _ _ _; exact ⟨s, [], rfl⟩
  | cons x envs ih =>
    intro s projs pending e0 hb hm hle hf
    obtain ⟨env, sc⟩ := x
    rw [List.length_cons] at hle
    have hs := step_spec hb (by omega) env (hf (env, sc) (by simp)) sc
    cases h1 : step sc { s with world := s.world.run env } with
    | throw w => rw [h1] at hs; exact hs.elim
    | ub =>
      rw [h1] at hs
      simp only at hs
      obtain ⟨given, g1, g2⟩ := hs
      exfalso
      refine computePops_safe s.step (fun u m => m ∈ pending ∧ H.impact u m.header.senderUid = true) _ _ ?_ ?_ g2
      · exact g1.imp (fun p g hp m hmg => by
          have := hp.mem_iff.1 hmg
          exact List.mem_filter.1 this)
      · intro p hp m ⟨hm1, hm2⟩ i hi
        obtain ⟨j, hj, hj1, hj2⟩ := hH _ _ hm2
        obtain ⟨j', hj', f1, f2⟩ := hm.msgs ⟨.impact m, false⟩ (by rw [hb.msgs]; exact List.mem_map.2 ⟨m, hm1, rfl⟩) m rfl
        have : j' = j := List.inj_on_of_nodup_map hnd hj' hj (by rw [← f2, hj2])
        rw [this] at f1
        obtain ⟨k, sy, k1, k2⟩ := f1 i hi
        have hps : p.shape ∈ shapes := by rw [← hm.pops]; exact List.mem_map.2 ⟨p, hp, rfl⟩
        obtain ⟨z1, z2⟩ := hsafe _ hps j hj hj1 sy (List.mem_of_getElem? k1)
        rw [k2]
        exact ⟨z1, z2⟩
    | ok r =>
      obtain ⟨s1, o⟩ := r
      rw [h1] at hs
      simp only at hs
      obtain ⟨_, a2, ⟨e', a3⟩, _⟩ := hs
      obtain ⟨s2, os, h2⟩ := ih s1 _ _ e' a3 (made_step (s := { s with world := s.world.run env }) hm h1) (by rw [a2]; omega)
        (fun y hy => hf y (by simp [hy]))
      exact ⟨s2, o :: os, by unfold run; simp only [h1, h2]⟩

end Knp.Cuda
