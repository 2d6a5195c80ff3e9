import Verif.Lemmas.Valid
import Verif.Props.ProgramThreads

/-! Lemmas about what a run leaves of a network: sizes, wiring, spikes of neurons that exist. -/

namespace Knp.Learn
open Knp Knp.Spec Knp.Neurons Knp.Stdp Knp.Sys Knp.Lemmas.Stdp

variable {N B F : Type} [Field F] [LinearOrder F]

/-- The message is one of a population of the list and names neurons of it, each once. -/
def Named (ps : List (Pop N B F)) (x : SpikeMessage) : Prop :=
  ∃ p ∈ ps, p.uid = x.header.senderUid ∧ x.neuronIndexes.Nodup ∧ ∀ i ∈ x.neuronIndexes, i < p.size

omit [Field F] [LinearOrder F] in
theorem named_stable {ps qs : List (Pop N B F)} (h : List.Forall₂ Stable ps qs) {x : SpikeMessage} (hx : Named qs x) : Named ps x := by
  obtain ⟨q, hq, h1, h2, h3⟩ := hx
  induction h with
  | nil => simp at hq
  | @cons a b ps qs hab _ ih =>
    rcases List.mem_cons.1 hq with rfl | hq
    · exact ⟨a, by simp, by rw [← hab.uid]; exact h1, h2, fun i hi => by rw [← hab.size]; exact h3 i hi⟩
    · obtain ⟨p, hp, hr⟩ := ih hq
      exact ⟨p, by simp [hp], hr⟩

theorem learnPops_named {o : Ops F} {t : Nat} {f : UID → List (SynapticImpactMessage F)} :
    ∀ (ps : List (Pop N B F)) (js : List (Proj F)) (ps' : List (Pop N B F)) (js' : List (Proj F)) (ss : List SpikeMessage),
    learnPops (machine o) t f ps js = .ok ((ps', js'), ss) → List.Forall₂ Stable ps ps' ∧ ∀ x ∈ ss, Named ps x := by
  intro ps
  induction ps with
  | nil =>
    intro js ps' js' ss h
    simp only [learnPops, Outcome.ok.injEq, Prod.mk.injEq] at h
    rw [← h.1.1, ← h.2]
    exact ⟨.nil, by simp⟩
  | cons q ps ih =>
    intro js ps' js' ss h
    unfold learnPops at h
    cases h1 : (machine o).popStep t q js (f ((machine o).popUid q)) with
    | throw w => rw [h1] at h; cases h
    | ub => rw [h1] at h; cases h
    | ok r1 =>
      obtain ⟨⟨q1, js1⟩, s⟩ := r1
      rw [h1] at h
      simp only at h
      cases h2 : learnPops (machine o) t f ps js1 with
      | throw w => rw [h2] at h; cases h
      | ub => rw [h2] at h; cases h
      | ok x =>
        obtain ⟨⟨qs, ks⟩, ss2⟩ := x
        rw [h2] at h
        simp only [Outcome.ok.injEq, Prod.mk.injEq] at h
        obtain ⟨⟨e1, e2⟩, e3⟩ := h
        obtain ⟨a, b⟩ := ih js1 _ _ ss2 h2
        obtain ⟨q0, c1, c2⟩ := popStep_split (o := o) h1
        have f1 := computeS_facts t _ _ _ _ c1
        rw [← e1, ← e3]
        refine ⟨.cons ((computeS_stable c1).trans (trainM_stable c2)) a, ?_⟩
        intro x hx
        rcases List.mem_append.1 hx with hx | hx
        · have hs : s = some x := by simpa using hx
          have hst := Prog.popStep_stamp (o := o) h1 x hs
          refine ⟨q, by simp, by rw [hst], ?_⟩
          have hf := f1.2.2.2
          rw [hs] at hf
          exact ⟨hf.1, fun i hi => by rw [← f1.2.1]; exact hf.2 i hi⟩
        · obtain ⟨p, hp, hr⟩ := b x hx
          exact ⟨p, by simp [hp], hr⟩

/-- Populations keep UID and size, and all spikes of a run are spikes of neurons that exist. -/
theorem learnRun_named {o : Ops F} {H : Hearing} (exts : List (List (Message F))) : ∀ (t : Nat) (pops : List (Pop N B F))
    (projs : List (Proj F)) (pending : List (SynapticImpactMessage F)) (st : List (Pop N B F) × List (Proj F)) (os : List (StepOut F)),
    learnRun (machine o) H t pops projs pending exts = .ok (st, os) →
    List.Forall₂ Stable pops st.1 ∧ ∀ out ∈ os, ∀ x ∈ out.spikes, Named pops x := by
  induction exts with
  | nil =>
    intro t pops projs pending st os h
    simp only [learnRun, Outcome.ok.injEq, Prod.mk.injEq] at h
    rw [← h.2, ← h.1]
    exact ⟨stable_self pops, by simp⟩
  | cons ext exts ih =>
    intro t pops projs pending st os h
    unfold learnRun at h
    cases hfs : learnStep (machine o) H t pops projs pending ext with
    | throw w => rw [hfs] at h; cases h
    | ub => rw [hfs] at h; cases h
    | ok x =>
      obtain ⟨st1, out1⟩ := x
      rw [hfs] at h
      simp only at h
      cases hfr : learnRun (machine o) H (t + 1) st1.1 st1.2 out1.impacts exts with
      | throw w => rw [hfr] at h; cases h
      | ub => rw [hfr] at h; cases h
      | ok y =>
        obtain ⟨st', os'⟩ := y
        rw [hfr] at h
        simp only [Outcome.ok.injEq, Prod.mk.injEq] at h
        obtain ⟨a, b⟩ := ih _ _ _ _ _ _ hfr
        unfold learnStep at hfs
        simp only at hfs
        cases hfp : learnPops (machine o) t (fun r => (pending ++ impactsIn ext).filter (fun x => H.impact r x.header.senderUid)) pops projs with
        | throw w => rw [hfp] at hfs; cases hfs
        | ub => rw [hfp] at hfs; cases hfs
        | ok z =>
          obtain ⟨⟨ps', js'⟩, ss⟩ := z
          rw [hfp] at hfs
          simp only [Outcome.ok.injEq, Prod.mk.injEq] at hfs
          obtain ⟨c, d⟩ := learnPops_named _ _ _ _ _ hfp
          have hst1 : st1.1 = ps' := by rw [← hfs.1]
          rw [hst1] at a b
          rw [← h.1, ← h.2]
          refine ⟨stable_trans c a, ?_⟩
          intro out ho x hx
          rcases List.mem_cons.1 ho with rfl | ho
          · rw [← hfs.2] at hx
            exact d x hx
          · exact named_stable c (b out ho x hx)

/-- What a run leaves of a projection: only weights, rules and waiting messages can differ. -/
structure Grown (j j' : Proj F) : Prop where
  ident : j'.ident = j.ident
  kind : kindOf j'.syns = kindOf j.syns
  skeleton : skeleton (wired j'.syns) = skeleton (wired j.syns)
  plain : ∀ d, j.syns = .delta d → j'.syns = .delta d
  learns : ∀ sp ss x y, j.syns = .resource sp ss x y → ∃ ss', j'.syns = .resource sp ss' x y

omit [Field F] [LinearOrder F] in
theorem grown_lock {j j' : Proj F} (h : Grown j j') (q : Delta.Queue F) (l : Bool) : Grown j { j' with queue := q, locked := l } :=
  ⟨h.ident, h.kind, h.skeleton, h.plain, h.learns⟩

theorem Trace.grown {o : Ops F} {t : Nat} {j j' : Proj F} {es : List (Entry F)} (h : Trace o t j es j') : Grown j j' := by
  have hs := h.same.1
  obtain ⟨a1, a2, a3, a4⟩ := hs
  refine ⟨a1, a3, by rw [← Props.view_wired, ← Props.view_wired]; exact a4, ?_, ?_⟩
  · intro d hd
    clear a1 a2 a3 a4
    induction h with
    | nil t a => exact hd
    | @cons t a mid b ms es p1 p2 ih =>
      have hm := p1.other (by rw [hd]; intro _ _ _ _ hc; cases hc)
      subst hm
      exact ih (by unfold projStep; rw [hd])
  · intro sp ss x y hs
    clear a1 a2 a3 a4
    induction h generalizing ss with
    | nil t a => exact ⟨ss, hs⟩
    | @cons t a mid b ms es p1 p2 ih =>
      obtain ⟨ss', hm, _⟩ := p1.syns _ _ _ _ hs
      exact ih (touchAll t x ms ss') (by unfold projStep; rw [hm])

theorem learnRun_uids {o : Ops F} {H : Hearing} (exts : List (List (Message F))) : ∀ (t : Nat) (pops : List (Pop N B F))
    (projs : List (Proj F)) (pending : List (SynapticImpactMessage F)) (st : List (Pop N B F) × List (Proj F)) (os : List (StepOut F)),
    learnRun (machine o) H t pops projs pending exts = .ok (st, os) →
    st.2.map (fun j => j.ident.uid) = projs.map (fun j => j.ident.uid) := by
  induction exts with
  | nil =>
    intro t pops projs pending st os h
    simp only [learnRun, Outcome.ok.injEq, Prod.mk.injEq] at h
    rw [← h.1]
  | cons ext exts ih =>
    intro t pops projs pending st os h
    unfold learnRun at h
    cases hfs : learnStep (machine o) H t pops projs pending ext with
    | throw w => rw [hfs] at h; cases h
    | ub => rw [hfs] at h; cases h
    | ok x =>
      obtain ⟨st1, out1⟩ := x
      rw [hfs] at h
      simp only at h
      cases hfr : learnRun (machine o) H (t + 1) st1.1 st1.2 out1.impacts exts with
      | throw w => rw [hfr] at h; cases h
      | ub => rw [hfr] at h; cases h
      | ok y =>
        obtain ⟨st', os'⟩ := y
        rw [hfr] at h
        simp only [Outcome.ok.injEq, Prod.mk.injEq] at h
        rw [← h.1, ih _ _ _ _ _ _ hfr]
        exact (Prog.learnStep_uids (machine_keeps o) hfs).2

omit [Field F] [LinearOrder F] in
/-- A copy of a part of a valid network, after a run of any length, is valid. -/
theorem valid_copy {out : F → F → Prop} {pops pops' : List (Pop N B F)} {projs projs' : List (Proj F)} (h : ValidNet out pops projs)
    (hp : List.Forall₂ Stable pops pops') (hj : List.Forall₂ Grown projs projs') (kp : UID → Bool) (kj : UID → Bool) (l : Proj F → Bool) :
    ValidNet out (pops'.filter (fun q => kp q.uid)) ((projs'.filter (fun j => kj j.ident.uid)).map (fun j => { j with queue := [], locked := l j })) := by
  have up : pops'.map Pop.uid = pops.map Pop.uid := by
    clear h hj
    induction hp with
    | nil => rfl
    | cons a _ ih => rw [List.map_cons, List.map_cons, a.uid, ih]
  have uj : projs'.map (fun j => j.ident.uid) = projs.map (fun j => j.ident.uid) := by
    clear h hp
    induction hj with
    | nil => rfl
    | cons a _ ih => rw [List.map_cons, List.map_cons, a.ident, ih]
  have findP : ∀ q ∈ pops', ∃ p ∈ pops, Stable p q := by
    clear h hj up
    induction hp with
    | nil => intro q hq; simp at hq
    | cons a _ ih =>
      intro q hq
      rcases List.mem_cons.1 hq with rfl | hq
      · exact ⟨_, by simp, a⟩
      · obtain ⟨p, h1, h2⟩ := ih q hq
        exact ⟨p, by simp [h1], h2⟩
  have findJ : ∀ q ∈ projs', ∃ p ∈ projs, Grown p q := by
    clear h hp uj
    induction hj with
    | nil => intro q hq; simp at hq
    | cons a _ ih =>
      intro q hq
      rcases List.mem_cons.1 hq with rfl | hq
      · exact ⟨_, by simp, a⟩
      · obtain ⟨p, h1, h2⟩ := ih q hq
        exact ⟨p, by simp [h1], h2⟩
  refine ⟨?_, ?_, ?_, ?_, ?_, ?_⟩
  · exact (List.filter_sublist.map _).nodup (up ▸ h.popUids)
  · rw [List.map_map]
    exact (List.filter_sublist.map _).nodup (uj ▸ h.projUids)
  · intro j hj
    obtain ⟨j', _, rfl⟩ := List.mem_map.1 hj
    rfl
  · intro q hq
    obtain ⟨p, hp, hs⟩ := findP q (List.mem_filter.1 hq).1
    rw [size_eq, hs.size, ← size_eq]
    exact h.sizes p hp
  · intro j hj q hq hpost s hs
    obtain ⟨j', hj', rfl⟩ := List.mem_map.1 hj
    obtain ⟨p, hp, hsP⟩ := findP q (List.mem_filter.1 hq).1
    obtain ⟨i, hi, hg⟩ := findJ j' (List.mem_filter.1 hj').1
    obtain ⟨k, hk⟩ := List.getElem?_of_mem hs
    obtain ⟨s', g1, _, g3, _, _⟩ := skeleton_get hg.skeleton.symm hk
    rw [size_eq, hsP.size, ← size_eq, ← g3]
    exact h.targets i hi p hp (by rw [← hsP.uid, ← hg.ident]; exact hpost) s' (List.mem_of_getElem? g1)
  · intro j hj q hq hpost s hs v hv
    obtain ⟨j', hj', rfl⟩ := List.mem_map.1 hj
    obtain ⟨p, hp, hsP⟩ := findP q (List.mem_filter.1 hq).1
    obtain ⟨i, hi, hg⟩ := findJ j' (List.mem_filter.1 hj').1
    obtain ⟨k, hk⟩ := List.getElem?_of_mem hs
    obtain ⟨s', g1, _, g3, _, g5⟩ := skeleton_get hg.skeleton.symm hk
    rw [hsP.takes, ← g5]
    refine h.types i hi p hp (by rw [← hsP.uid, ← hg.ident]; exact hpost) s' (List.mem_of_getElem? g1) v ?_
    have hv : Carries out j'.syns s.weight v := hv
    cases hsy : i.syns with
    | delta d =>
      rw [hg.plain d hsy] at hv
      have hk' : (wired j'.syns).synapses[k]? = some s := hk
      rw [hg.plain d hsy, ← hsy, g1] at hk'
      simp only [Option.some.injEq] at hk'
      rw [hk']
      exact hv
    | resource _ _ _ _ => trivial
    | additive _ _ _ _ => trivial

end Knp.Learn

namespace Knp.Props
open Knp Knp.Spec Knp.Neurons Knp.Stdp Knp.Prog

variable {σ N B F : Type} [Field F] [LinearOrder F]
variable {o : Ops F} {L : Layout} {c : Code σ F} {pops : List (Learn.Pop N B F)} {projs : List (Learn.Proj F)}
  {inputs : List (UID × UID)} {u0 : σ} {acts : List (Act σ)} {s : Prog.State σ (Learn.Pop N B F) (Learn.Proj F) F}
  {tr : List (Item F)}

/-- What a program on the single-threaded backend leaves of its network. -/
theorem prog_keeps (h : ProgRun .single o L c pops projs inputs u0 acts s tr) :
    List.Forall₂ Learn.Stable pops s.core.pops ∧ List.Forall₂ Learn.Grown projs s.core.projs ∧
    ∀ i ∈ iters tr, ∀ x ∈ i.out.spikes, Learn.Named pops x := by
  have hd := (C119_dataflow h).1
  obtain ⟨a, b⟩ := Learn.learnRun_named _ _ _ _ _ _ _ hd
  refine ⟨a, ?_, fun i hi x hx => b _ (List.mem_map_of_mem hi) x hx⟩
  have hq : ∀ j ∈ projs, Learn.QueueOk j := by
    intro j hj e he
    rw [h.queues j hj] at he
    simp at he
  have h3 := (Learn.learnRun_ok _ _ _ _ _ _ _ hd h.projUids hq).2.2.1
  have hlen : s.core.projs.length = projs.length := by
    have := congrArg List.length (Learn.learnRun_uids _ _ _ _ _ _ _ hd)
    simpa using this
  rw [List.forall₂_iff_get]
  refine ⟨hlen.symm, fun n h1 h2 => ?_⟩
  obtain ⟨es, j', g1, g2, _⟩ := h3 n projs[n] (List.getElem?_eq_getElem h1)
  have : s.core.projs[n] = j' := by
    rw [List.getElem?_eq_getElem h2] at g1
    simpa using g1
  show Learn.Grown projs[n] s.core.projs[n]
  rw [this]
  exact g2.grown

end Knp.Props
