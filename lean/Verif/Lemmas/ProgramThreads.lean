import Verif.Lemmas.ProgramLearn
import Verif.Lemmas.LearnMultiTrace

/-! # Lemmas: times and senders of the messages of a program on the multi-threaded backend -/

namespace Knp.Prog
open Knp Knp.Bus Knp.Spec Knp.Sys Knp.Learn Knp.Stdp Knp.Neurons

variable {N B F : Type}

theorem multiPopulation_stamp {k : Kind N F} {u : UID} {t part : Nat} {ns ns' : List N} {ms : List (SynapticImpactMessage F)}
    {s1 s2 : List Nat} {sp : Option SpikeMessage} (h : multiPopulation k u t part ns ms s1 s2 = some (.ok (ns', sp))) :
    ∀ x ∈ sp, x.header = ⟨u, t⟩ := by
  unfold multiPopulation at h
  split at h
  · cases h
  · simp only at h
    split at h
    · split at h
      · split at h
        · simp only [Option.some.injEq, Outcome.ok.injEq, Prod.mk.injEq] at h
          intro x hx
          rw [← h.2] at hx
          split at hx
          · simp at hx
          · simp only [Option.mem_def, Option.some.injEq] at hx
            rw [← hx]
        · cases h
      · cases h
      · cases h
    · cases h

theorem computeM_stamp {c : Config F} {t : Nat} {p p' : Pop N B F} {ms : List (SynapticImpactMessage F)} {sc : List Nat × List Nat}
    {sp : Option SpikeMessage} (h : computeM c t p ms sc = some (.ok (p', sp))) : ∀ x ∈ sp, x.header = ⟨p.uid, t⟩ := by
  unfold computeM at h
  cases p with
  | plain u k ns =>
    simp only at h
    rcases h1 : multiPopulation k u t c.popPart ns ms sc.1 sc.2 with _ | (r | w | _)
    all_goals rw [h1] at h
    · cases h
    · simp only [Option.map_some, computed, Option.some.injEq, Outcome.ok.injEq, Prod.mk.injEq] at h
      rw [← h.2]
      exact multiPopulation_stamp h1
    · simp [computed] at h
    · simp [computed] at h
  | trained u k b ns =>
    simp only at h
    rcases h1 : multiPopulation k u t c.popPart ns ms sc.1 sc.2 with _ | (r | w | _)
    all_goals rw [h1] at h
    · cases h
    · simp only [Option.map_some, computed, Option.some.injEq, Outcome.ok.injEq, Prod.mk.injEq] at h
      rw [← h.2]
      exact multiPopulation_stamp h1
    · simp [computed] at h
    · simp [computed] at h

variable [Field F] [LinearOrder F]

theorem computeAll_senders {o : Ops F} {c : Config F} {t : Nat} {f : UID → List (SynapticImpactMessage F)} :
    ∀ (ps : List (Pop N B F)) (scs : List (List Nat × List Nat)) (ps' : List (Pop N B F)) (ss : List (Option SpikeMessage)),
    computeAll (machine o) (threads o c) t f ps scs = some (.ok (ps', ss)) →
    ((ss.flatMap Option.toList).map (fun x => x.header.senderUid)).Sublist (ps.map Pop.uid) ∧
    ∀ x ∈ ss.flatMap Option.toList, x.header.sendTime = t := by
  intro ps
  induction ps with
  | nil =>
    intro scs ps' ss h
    cases scs with
    | nil =>
      simp only [computeAll, Option.some.injEq, Outcome.ok.injEq, Prod.mk.injEq] at h
      rw [← h.2]
      simp
    | cons => simp [computeAll] at h
  | cons p ps ih =>
    intro scs ps' ss h
    cases scs with
    | nil => simp [computeAll] at h
    | cons sc scs =>
      unfold computeAll at h
      rcases h1 : (threads (N := N) (B := B) o c).compute t p (f ((machine o).popUid p)) sc with _ | (r | w | _)
      all_goals rw [h1] at h; simp only at h
      · cases h
      · obtain ⟨p1, s⟩ := r
        rcases h2 : computeAll (machine o) (threads o c) t f ps scs with _ | (x | w | _)
        all_goals rw [h2] at h; simp only at h
        · cases h
        · obtain ⟨qs, ss2⟩ := x
          simp only [Option.some.injEq, Outcome.ok.injEq, Prod.mk.injEq] at h
          rw [← h.2]
          obtain ⟨i1, i2⟩ := ih scs qs ss2 h2
          have hst : ∀ x ∈ s, x.header = ⟨p.uid, t⟩ := computeM_stamp (c := c) h1
          cases s with
          | none => exact ⟨by simpa using List.Sublist.cons _ i1, by simpa using i2⟩
          | some x =>
            have hx : x.header = ⟨p.uid, t⟩ := hst x (by simp)
            refine ⟨?_, ?_⟩
            · simp only [List.flatMap_cons, Option.toList_some, List.singleton_append, List.map_cons, hx]
              exact List.Sublist.cons_cons _ i1
            · intro y hy
              simp only [List.flatMap_cons, Option.toList_some, List.singleton_append, List.mem_cons] at hy
              rcases hy with rfl | hy
              · rw [hx]
              · exact i2 y hy
        · cases h
        · cases h
      · cases h
      · cases h

theorem learnStepM_senders {o : Ops F} {c : Config F} {H : Hearing} {t : Nat} {pops : List (Pop N B F)} {projs : List (Proj F)}
    {pending : List (SynapticImpactMessage F)} {ext : List (Message F)} {sc : Learn.Sched}
    {st : List (Pop N B F) × List (Proj F)} {out : StepOut F}
    (h : learnStepM (machine o) (threads o c) H t pops projs pending ext sc = some (.ok (st, out))) :
    (out.spikes.map (fun x => x.header.senderUid)).Sublist (pops.map Pop.uid) ∧ ∀ x ∈ out.spikes, x.header.sendTime = t := by
  unfold learnStepM at h
  simp only at h
  rcases h1 : computeAll (machine o) (threads o c) t (fun r => pending.filter (fun x => H.impact r x.header.senderUid)) pops sc.pops with
    _ | (⟨ps, ss⟩ | w | _)
  all_goals rw [h1] at h; simp only at h
  · cases h
  · rcases h2 : trainPhase (threads o c) t ss ps projs sc.train with _ | (⟨ps', js'⟩ | w | _)
    all_goals rw [h2] at h; simp only at h
    · cases h
    · rcases h3 : projectAll (machine o) (threads o c) t (fun r => (ss.flatMap Option.toList ++ spikesIn ext).filter
        (fun x => H.spike r x.header.senderUid)) js' sc.projs with _ | ⟨js'', ims⟩
      all_goals rw [h3] at h; simp only at h
      · cases h
      · simp only [Option.some.injEq, Outcome.ok.injEq, Prod.mk.injEq] at h
        rw [← h.2]
        exact computeAll_senders _ _ _ _ h1
    · cases h
    · cases h
  · cases h
  · cases h

/-- The spike messages of step `t` come from populations, at most one from each, in the order of the populations, and carry `t`. -/
theorem learnRunM_senders {o : Ops F} {c : Config F} {H : Hearing} (exts : List (List (Message F) × Learn.Sched)) : ∀ (t : Nat)
    (pops : List (Pop N B F)) (projs : List (Proj F)) (pending : List (SynapticImpactMessage F))
    (st : List (Pop N B F) × List (Proj F)) (os : List (StepOut F)),
    learnRunM (machine o) (threads o c) H t pops projs pending exts = some (.ok (st, os)) →
    ∀ (i : Nat) (out : StepOut F), os[i]? = some out →
      (out.spikes.map (fun x => x.header.senderUid)).Sublist (pops.map Pop.uid) ∧ ∀ x ∈ out.spikes, x.header.sendTime = t + i := by
  induction exts with
  | nil =>
    intro t pops projs pending st os h i out hi
    simp only [learnRunM, Option.some.injEq, Outcome.ok.injEq, Prod.mk.injEq] at h
    rw [← h.2] at hi; simp at hi
  | cons ext exts ih =>
    intro t pops projs pending st os h i out hi
    unfold learnRunM at h
    rcases hfs : learnStepM (machine o) (threads o c) H t pops projs pending ext.1 ext.2 with _ | (⟨st1, out1⟩ | w | _)
    all_goals rw [hfs] at h; simp only at h
    · cases h
    · rcases hfr : learnRunM (machine o) (threads o c) H (t + 1) st1.1 st1.2 (impactsIn ext.1 ++ out1.impacts) exts with
        _ | (⟨st', os'⟩ | w | _)
      all_goals rw [hfr] at h; simp only at h
      · cases h
      · simp only [Option.some.injEq, Outcome.ok.injEq, Prod.mk.injEq] at h
        rw [← h.2] at hi
        cases i with
        | zero =>
          simp only [List.getElem?_cons_zero, Option.some.injEq] at hi
          subst hi
          exact learnStepM_senders hfs
        | succ i =>
          simp only [List.getElem?_cons_succ] at hi
          obtain ⟨a, b⟩ := ih _ _ _ _ _ _ hfr i out hi
          rw [(learnStepM_ok hfs).1] at a
          refine ⟨a, fun x hx => ?_⟩
          rw [b x hx]; omega
      · cases h
      · cases h
    · cases h
    · cases h

end Knp.Prog
