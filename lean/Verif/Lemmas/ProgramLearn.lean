import Verif.Lemmas.ProgramRun
import Verif.Lemmas.LearnRun

/-! # Lemmas: times of the messages of a program on the single-threaded backend -/

namespace Knp.Prog
open Knp Knp.Bus Knp.Spec Knp.Sys Knp.Learn Knp.Stdp Knp.Neurons

section Stamp
variable {N B F : Type}

theorem stepPopulation_stamp {k : Kind N F} {u : UID} {t : Nat} {ns ns' : List N} {ms : List (SynapticImpactMessage F)}
    {sp : Option SpikeMessage} (h : stepPopulation k u t ns ms = .ok (ns', sp)) : ∀ x ∈ sp, x.header = ⟨u, t⟩ := by
  unfold stepPopulation at h
  cases h1 : preImpact k ns 0 ns.length with
  | throw w => rw [h1] at h; cases h
  | ub => rw [h1] at h; cases h
  | ok p1 =>
    rw [h1] at h
    cases h2 : impactPopulation k p1 ms with
    | throw w => rw [Outcome.bind_ok, h2] at h; cases h
    | ub => rw [Outcome.bind_ok, h2] at h; cases h
    | ok p2 =>
      rw [Outcome.bind_ok, h2] at h
      cases h3 : postImpact k p2 [] 0 p2.length with
      | throw w => rw [Outcome.bind_ok, h3] at h; cases h
      | ub => rw [Outcome.bind_ok, h3] at h; cases h
      | ok r =>
        rw [Outcome.bind_ok, h3] at h
        have h' : (r.1, if r.2.isEmpty then none else some ⟨⟨u, t⟩, r.2⟩) = (ns', sp) := Outcome.ok.inj h
        simp only [Prod.mk.injEq] at h'
        intro x hx
        rw [← h'.2] at hx
        split at hx
        · simp at hx
        · simp only [Option.mem_def, Option.some.injEq] at hx
          rw [← hx]

variable [Field F] [LinearOrder F]

theorem popStep_stamp {o : Ops F} {t : Nat} {p p' : Pop N B F} {js js' : List (Proj F)} {ms : List (SynapticImpactMessage F)}
    {sp : Option SpikeMessage} (h : popStep o t p js ms = .ok ((p', js'), sp)) : ∀ x ∈ sp, x.header = ⟨p.uid, t⟩ := by
  unfold popStep at h
  cases p with
  | plain u k ns =>
    simp only at h
    cases h1 : stepPopulation k u t ns ms with
    | throw w => rw [h1] at h; cases h
    | ub => rw [h1] at h; cases h
    | ok r =>
      obtain ⟨r1, r2⟩ := r
      rw [h1] at h
      simp only [Outcome.ok.injEq, Prod.mk.injEq] at h
      rw [← h.2]
      exact stepPopulation_stamp h1
  | trained u k b ns =>
    simp only at h
    cases h1 : stepPopulation k u t ns ms with
    | throw w => rw [h1] at h; cases h
    | ub => rw [h1] at h; cases h
    | ok r =>
      obtain ⟨r1, r2⟩ := r
      rw [h1] at h
      simp only at h
      split at h
      · simp only [Outcome.ok.injEq, Prod.mk.injEq] at h
        rw [← h.2]
        exact stepPopulation_stamp h1
      · cases h
      · cases h

theorem learnPops_stamp {o : Ops F} {t : Nat} {f : UID → List (SynapticImpactMessage F)} : ∀ (ps : List (Pop N B F)) (js : List (Proj F))
    (st : List (Pop N B F) × List (Proj F)) (ss : List SpikeMessage), learnPops (machine o) t f ps js = .ok (st, ss) →
    ∀ x ∈ ss, x.header.sendTime = t ∧ x.header.senderUid ∈ ps.map Pop.uid := by
  intro ps
  induction ps with
  | nil =>
    intro js st ss h
    simp only [learnPops, Outcome.ok.injEq, Prod.mk.injEq] at h
    rw [← h.2]; simp
  | cons p ps ih =>
    intro js st ss h
    unfold learnPops at h
    cases h1 : (machine o).popStep t p js (f ((machine o).popUid p)) with
    | throw w => rw [h1] at h; cases h
    | ub => rw [h1] at h; cases h
    | ok r =>
      obtain ⟨⟨p1, js1⟩, s⟩ := r
      rw [h1] at h
      simp only at h
      cases h2 : learnPops (machine o) t f ps js1 with
      | throw w => rw [h2] at h; cases h
      | ub => rw [h2] at h; cases h
      | ok x =>
        obtain ⟨⟨qs, ks⟩, ss2⟩ := x
        rw [h2] at h
        simp only [Outcome.ok.injEq, Prod.mk.injEq] at h
        rw [← h.2]
        intro x hx
        rcases List.mem_append.1 hx with hx | hx
        · have := popStep_stamp (o := o) h1 x (by simpa using hx)
          rw [this]
          exact ⟨rfl, by simp⟩
        · obtain ⟨a, b⟩ := ih js1 _ ss2 h2 x hx
          exact ⟨a, by rw [List.map_cons]; exact List.mem_cons_of_mem _ b⟩

theorem learnPops_senders {o : Ops F} {t : Nat} {f : UID → List (SynapticImpactMessage F)} :
    ∀ (ps : List (Pop N B F)) (js : List (Proj F)) (r : List (Pop N B F) × List (Proj F)) (ss : List SpikeMessage),
    learnPops (machine o) t f ps js = .ok (r, ss) → (ss.map (fun x => x.header.senderUid)).Sublist (ps.map Pop.uid) := by
  intro ps
  induction ps with
  | nil =>
    intro js r ss h
    simp only [learnPops, Outcome.ok.injEq, Prod.mk.injEq] at h
    rw [← h.2]
    exact List.Sublist.refl _
  | cons q ps ih =>
    intro js r ss h
    unfold learnPops at h
    cases h1 : (machine o).popStep t q js (f ((machine o).popUid q)) with
    | throw w => rw [h1] at h; cases h
    | ub => rw [h1] at h; cases h
    | ok r1 =>
      obtain ⟨⟨q1, js1⟩, s⟩ := r1
      rw [h1] at h
      simp only at h
      cases h2 : learnPops (machine o) t f ps js1 with
      | throw w => rw [h2] at h; cases h
      | ub => rw [h2] at h; cases h
      | ok x =>
        obtain ⟨⟨qs, ks⟩, ss2⟩ := x
        rw [h2] at h
        simp only [Outcome.ok.injEq, Prod.mk.injEq] at h
        rw [← h.2]
        have hsend := popStep_stamp (o := o) h1
        have hi := ih js1 _ ss2 h2
        cases s with
        | none =>
          simp only [Option.toList_none, List.nil_append, List.map_cons]
          exact List.Sublist.cons _ hi
        | some x =>
          have hx : x.header.senderUid = q.uid := by rw [hsend x (by simp)]
          simp only [Option.toList_some, List.singleton_append, List.map_cons, hx]
          exact List.Sublist.cons_cons _ hi

theorem learnRun_senders {o : Ops F} {H : Hearing} (exts : List (List (Message F))) : ∀ (t : Nat) (pops : List (Pop N B F))
    (projs : List (Proj F)) (pending : List (SynapticImpactMessage F)) (st : List (Pop N B F) × List (Proj F)) (os : List (StepOut F)),
    learnRun (machine o) H t pops projs pending exts = .ok (st, os) →
    ∀ out ∈ os, (out.spikes.map (fun x => x.header.senderUid)).Sublist (pops.map Pop.uid) := by
  induction exts with
  | nil =>
    intro t pops projs pending st os h out hi
    simp only [learnRun, Outcome.ok.injEq, Prod.mk.injEq] at h
    rw [← h.2] at hi; simp at hi
  | cons ext exts ih =>
    intro t pops projs pending st os h out hi
    unfold learnRun at h
    cases hfs : learnStep (machine o) H t pops projs pending ext with
    | throw w => rw [hfs] at h; cases h
    | ub => rw [hfs] at h; cases h
    | ok x =>
      obtain ⟨st1, out1⟩ := x
      have huid := (learnStep_uids (machine_keeps o) hfs).1
      rw [hfs] at h
      simp only at h
      cases hfr : learnRun (machine o) H (t + 1) st1.1 st1.2 out1.impacts exts with
      | throw w => rw [hfr] at h; cases h
      | ub => rw [hfr] at h; cases h
      | ok y =>
        obtain ⟨st', os'⟩ := y
        rw [hfr] at h
        simp only [Outcome.ok.injEq, Prod.mk.injEq] at h
        rw [← h.2] at hi
        rcases List.mem_cons.1 hi with rfl | hi
        · unfold learnStep at hfs
          simp only at hfs
          cases hfp : learnPops (machine o) t (fun r => (pending ++ impactsIn ext).filter (fun x => H.impact r x.header.senderUid)) pops projs with
          | throw w => rw [hfp] at hfs; cases hfs
          | ub => rw [hfp] at hfs; cases hfs
          | ok z =>
            obtain ⟨⟨ps', js'⟩, ss⟩ := z
            rw [hfp] at hfs
            simp only [Outcome.ok.injEq, Prod.mk.injEq] at hfs
            rw [← hfs.2]
            exact learnPops_senders _ _ _ _ hfp
        · have huid' : st1.1.map Pop.uid = pops.map Pop.uid := huid
          rw [← huid']
          exact ih _ _ _ _ _ _ hfr out hi

/-- The spike messages of step `t` come from populations and carry `t`. -/
theorem learnRun_stamp {o : Ops F} {H : Hearing} (exts : List (List (Message F))) : ∀ (t : Nat) (pops : List (Pop N B F))
    (projs : List (Proj F)) (pending : List (SynapticImpactMessage F)) (st : List (Pop N B F) × List (Proj F)) (os : List (StepOut F)),
    learnRun (machine o) H t pops projs pending exts = .ok (st, os) →
    ∀ (i : Nat) (out : StepOut F), os[i]? = some out → ∀ x ∈ out.spikes, x.header.sendTime = t + i ∧ x.header.senderUid ∈ pops.map Pop.uid := by
  induction exts with
  | nil =>
    intro t pops projs pending st os h i out hi
    simp only [learnRun, Outcome.ok.injEq, Prod.mk.injEq] at h
    rw [← h.2] at hi; simp at hi
  | cons ext exts ih =>
    intro t pops projs pending st os h i out hi
    unfold learnRun at h
    cases hfs : learnStep (machine o) H t pops projs pending ext with
    | throw w => rw [hfs] at h; cases h
    | ub => rw [hfs] at h; cases h
    | ok x =>
      obtain ⟨st1, out1⟩ := x
      have huid := (learnStep_uids (machine_keeps o) hfs).1
      rw [hfs] at h
      simp only at h
      cases hfr : learnRun (machine o) H (t + 1) st1.1 st1.2 out1.impacts exts with
      | throw w => rw [hfr] at h; cases h
      | ub => rw [hfr] at h; cases h
      | ok y =>
        obtain ⟨st', os'⟩ := y
        rw [hfr] at h
        simp only [Outcome.ok.injEq, Prod.mk.injEq] at h
        rw [← h.2] at hi
        cases i with
        | zero =>
          simp only [List.getElem?_cons_zero, Option.some.injEq] at hi
          subst hi
          unfold learnStep at hfs
          simp only at hfs
          cases hfp : learnPops (machine o) t (fun r => (pending ++ impactsIn ext).filter (fun x => H.impact r x.header.senderUid)) pops projs with
          | throw w => rw [hfp] at hfs; cases hfs
          | ub => rw [hfp] at hfs; cases hfs
          | ok z =>
            obtain ⟨⟨ps', js'⟩, ss⟩ := z
            rw [hfp] at hfs
            simp only [Outcome.ok.injEq, Prod.mk.injEq] at hfs
            rw [← hfs.2]
            exact learnPops_stamp _ _ _ _ hfp
        | succ i =>
          simp only [List.getElem?_cons_succ] at hi
          intro x hx
          obtain ⟨a, b⟩ := ih _ _ _ _ _ _ hfr i out hi x hx
          refine ⟨by omega, ?_⟩
          have huid' : st1.1.map Pop.uid = pops.map Pop.uid := huid
          rw [← huid']
          exact b

end Stamp

/-! ## Times -/

variable {F : Type}

theorem message_stamp {u : UID} {t : Nat} {g : List Nat} : ∀ x ∈ message u t g, x.header = ⟨u, t⟩ := by
  intro x hx
  unfold message at hx
  split at hx
  · simp at hx
  · simp only [List.mem_cons, List.not_mem_nil, or_false] at hx
    rw [hx]

theorem mem_zipWith {α β γ : Type} {f : α → β → γ} {c : γ} : ∀ {l : List α} {l' : List β}, c ∈ List.zipWith f l l' →
    ∃ a ∈ l, ∃ b ∈ l', c = f a b := by
  intro l
  induction l with
  | nil => intro l' h; simp at h
  | cons a l ih =>
    intro l' h
    cases l' with
    | nil => simp at h
    | cons b l' =>
      rw [List.zipWith_cons_cons, List.mem_cons] at h
      rcases h with rfl | h
      · exact ⟨a, by simp, b, by simp, rfl⟩
      · obtain ⟨x, hx, y, hy, he⟩ := ih h
        exact ⟨x, by simp [hx], y, by simp [hy], he⟩

/-- Everything waiting carries the number of the step it is waiting for and comes from a channel or a handler. -/
def Waits (L : Layout) (t : Nat) (w : Waiting) : Prop :=
  (∀ l ∈ w.channels, ∀ x ∈ l, x.header.sendTime = t ∧ x.header.senderUid ∈ L.inputs) ∧
  (∀ l ∈ w.handlers, ∀ x ∈ l, x.header.sendTime = t ∧ x.header.senderUid ∈ L.handlers.map (·.uid))

theorem fed_stamp (L : Layout) (t : Nat) (fed : List (List Nat)) : ∀ l ∈ fedBy L t fed, ∀ x ∈ l,
    x.header.sendTime = t ∧ x.header.senderUid ∈ L.inputs := by
  intro l hl x hx
  unfold fedBy at hl
  obtain ⟨u, hu, g, _, rfl⟩ := mem_zipWith hl
  rw [message_stamp x hx]
  exact ⟨rfl, hu⟩

theorem into_stamp {L : Layout} {w : Waiting} {i : Iter F} (h : Waits L i.time w) : ∀ x ∈ w.into L i,
    x.header.sendTime = i.time ∧ (x.header.senderUid ∈ L.inputs ∨ x.header.senderUid ∈ L.handlers.map (·.uid)) := by
  intro x hx
  unfold Waiting.into at hx
  rcases List.mem_append.1 hx with hx | hx
  · obtain ⟨l, hl, hxl⟩ := List.mem_flatten.1 hx
    obtain ⟨a, ha, b, hb, rfl⟩ := mem_zipWith hl
    rcases List.mem_append.1 hxl with h' | h'
    · exact ⟨(h.1 a ha x h').1, Or.inl (h.1 a ha x h').2⟩
    · have := fed_stamp L i.time i.fed b hb x h'
      exact ⟨this.1, Or.inl this.2⟩
  · obtain ⟨l, hl, hxl⟩ := List.mem_flatten.1 hx
    exact ⟨(h.2 l hl x hxl).1, Or.inr (h.2 l hl x hxl).2⟩

theorem waits_run {L : Layout} (tr : List (Item F)) (h : Explained L [] tr) : ∀ k, k ≤ tr.length →
    Waits L (iters (tr.take k)).length (waiting L (tr.take k)) := by
  intro k
  induction k with
  | zero =>
    intro _
    rw [List.take_zero]
    constructor
    · intro l hl
      unfold waiting Waiting.none at hl
      simp only [List.foldl_nil, List.mem_map] at hl
      obtain ⟨_, _, rfl⟩ := hl
      simp
    · intro l hl
      unfold waiting Waiting.none at hl
      simp only [List.foldl_nil, List.mem_map] at hl
      obtain ⟨_, _, rfl⟩ := hl
      simp
  | succ k ih =>
    intro hk
    have hi := ih (by omega)
    have hlt : k < tr.length := by omega
    have hsp : tr = tr.take k ++ tr[k] :: tr.drop (k + 1) := by
      rw [List.getElem_cons_drop, List.take_append_drop]
    have hok := h _ _ _ hsp
    rw [List.nil_append] at hok
    rw [List.take_add_one, List.getElem?_eq_getElem hlt]
    simp only [Option.toList_some]
    rw [waiting_snoc]
    cases hit : tr[k] with
    | iter i =>
      rw [hit] at hok
      rw [iters_iter]
      constructor
      · intro l hl
        simp only [Waiting.after, List.mem_map] at hl
        obtain ⟨_, _, rfl⟩ := hl
        simp
      · intro l hl x hx
        simp only [Waiting.after] at hl
        obtain ⟨a, ha, b, _, rfl⟩ := mem_zipWith hl
        rw [message_stamp x hx, hok.1]
        exact ⟨by simp, List.mem_map.2 ⟨a, ha, rfl⟩⟩
    | halt t fed =>
      rw [hit] at hok
      rw [iters_halt]
      refine ⟨?_, hi.2⟩
      intro l hl x hx
      simp only [Waiting.after] at hl
      obtain ⟨a, ha, b, hb, rfl⟩ := mem_zipWith hl
      rcases List.mem_append.1 hx with h' | h'
      · exact hi.1 a ha x h'
      · have := fed_stamp L t fed b hb x h'
        rw [hok.1] at this
        exact this
    | read c x y got =>
      rw [iters_read]
      exact hi

end Knp.Prog
