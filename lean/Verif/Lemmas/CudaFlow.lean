import Verif.Lemmas.CudaMore

/-! # Lemmas: consequences of the dataflow of the CUDA backend -/

namespace Knp.Cuda
open Knp Knp.Bus Knp.Spec Knp.Neurons

variable {F : Type}

/-- What the projections send in step `t + i` of a run from step `t`. -/
def sentAt (t : Nat) (projs : List (Sys.ProjSt F)) (os : List (Out F)) (i : Nat) : List (SynapticImpactMessage F) :=
  (projs.zipIdx.map (fun x => (((Delta.runSingle x.1.ident t x.1.queue
    ((os.map (fun o => o.heard.getD x.2 [])).map (fun m => ⟨x.1.proj, m⟩))).1[i]?).join.map (stamp (t + i))).toList)).flatten

theorem sentAt_zero (t : Nat) (projs : List (Sys.ProjSt F)) (o : Out F) (os : List (Out F)) (hl : o.heard.length = projs.length) :
    sentAt t projs (o :: os) 0 = sentImpacts t projs o.heard := by
  unfold sentAt sentImpacts
  congr 1
  refine List.ext_getElem? (fun b => ?_)
  rw [List.getElem?_map, List.getElem?_zipIdx, List.getElem?_zipWith]
  cases hb : projs[b]? with
  | none => simp
  | some j =>
    have hb' : b < o.heard.length := by rw [hl]; exact (List.getElem?_eq_some_iff.1 hb).1
    rw [List.getElem?_eq_getElem hb']
    simp only [Option.map_some, Nat.zero_add, List.map_cons, Delta.runSingle, List.getElem?_cons_zero, Option.join_some]
    rw [List.getD_eq_getElem?_getD, List.getElem?_eq_getElem hb']
    rfl

theorem sentAt_succ (t : Nat) (projs : List (Sys.ProjSt F)) (o : Out F) (os : List (Out F)) (i : Nat) (hl : o.heard.length = projs.length) :
    sentAt t projs (o :: os) (i + 1) = sentAt (t + 1) (projsAfter t projs o.heard) os i := by
  unfold sentAt projsAfter
  congr 1
  refine List.ext_getElem? (fun b => ?_)
  rw [List.getElem?_map, List.getElem?_zipIdx, List.getElem?_map, List.getElem?_zipIdx, List.getElem?_zipWith]
  cases hb : projs[b]? with
  | none => simp
  | some j =>
    have hb' : b < o.heard.length := by rw [hl]; exact (List.getElem?_eq_some_iff.1 hb).1
    rw [List.getElem?_eq_getElem hb']
    simp only [Option.map_some, Nat.zero_add, List.map_cons, Delta.runSingle, List.getElem?_cons_succ, flowProj]
    rw [List.getD_eq_getElem?_getD, List.getElem?_eq_getElem hb', Nat.add_assoc, Nat.add_comm 1 i]
    rfl

theorem forall₂_at {α β : Type} {R : α → β → Prop} : ∀ {l : List α} {l' : List β}, List.Forall₂ R l l' → ∀ {i : Nat} {a : α},
    l[i]? = some a → ∃ b, l'[i]? = some b ∧ R a b := by
  intro l l' h
  induction h with
  | nil => intro i a h; simp at h
  | @cons x y l l' hxy _ ih =>
    intro i a h
    cases i with
    | zero => simp only [List.getElem?_cons_zero, Option.some.injEq] at h ⊢; exact ⟨y, rfl, h ▸ hxy⟩
    | succ i => simp only [List.getElem?_cons_succ] at h ⊢; exact ih h

theorem projsAfter_uids {t : Nat} : ∀ {projs : List (Sys.ProjSt F)} {hd : List (List SpikeMessage)}, hd.length = projs.length →
    (projsAfter t projs hd).map (·.ident.uid) = projs.map (·.ident.uid) := by
  intro projs
  unfold projsAfter
  induction projs with
  | nil => simp
  | cons j js ih =>
    intro hd hlen
    cases hd with
    | nil => simp at hlen
    | cons x hd =>
      rw [List.zipWith_cons_cons, List.map_cons, List.map_cons, ih (by simpa using hlen)]
      rfl

/-- The messages that are on their way before step `i` of the run. -/
def pendingAt (t : Nat) (projs : List (Sys.ProjSt F)) (pending : List (SynapticImpactMessage F)) (os : List (Out F)) :
    Nat → List (SynapticImpactMessage F)
  | 0 => pending
  | i + 1 => sentAt t projs os i

theorem uid_at {ps ps' : List (Pop F)} (h : ps'.map (·.uid) = ps.map (·.uid)) {a : Nat} {p : Pop F} (hp : ps[a]? = some p) :
    ∃ p', ps'[a]? = some p' ∧ p'.uid = p.uid := by
  have h1 : (ps'.map (·.uid))[a]? = (ps.map (·.uid))[a]? := by rw [h]
  rw [List.getElem?_map, List.getElem?_map, hp] at h1
  cases h2 : ps'[a]? with
  | none => rw [h2] at h1; cases h1
  | some p' => rw [h2] at h1; exact ⟨p', rfl, Option.some.inj h1⟩

theorem proj_uid_at {ps ps' : List (Sys.ProjSt F)} (h : ps'.map (·.ident.uid) = ps.map (·.ident.uid)) {a : Nat} {p : Sys.ProjSt F}
    (hp : ps[a]? = some p) : ∃ p', ps'[a]? = some p' ∧ p'.ident.uid = p.ident.uid := by
  have h1 : (ps'.map (·.ident.uid))[a]? = (ps.map (·.ident.uid))[a]? := by rw [h]
  rw [List.getElem?_map, List.getElem?_map, hp] at h1
  cases h2 : ps'[a]? with
  | none => rw [h2] at h1; cases h1
  | some p' => rw [h2] at h1; exact ⟨p', rfl, Option.some.inj h1⟩

/-- Each step of a possible run. -/
theorem devRun_each [Arith F] {H : Hearing} {inputs : List (UID × UID)} (exts : List (List (Message F))) :
    ∀ (t : Nat) (pops : List (Pop F)) (projs : List (Sys.ProjSt F)) (pending : List (SynapticImpactMessage F)) (os : List (Out F))
      (fin : List (Pop F) × List (Sys.ProjSt F)), DevRun H inputs t pops projs pending exts os fin →
    os.length = exts.length ∧ ∀ (i : Nat) (o : Out F), os[i]? = some o →
      (∀ (a : Nat) (p : Pop F), pops[a]? = some p → ∃ g, o.given[a]? = some g ∧
        g.Perm ((pendingAt t projs pending os i).filter (fun m => H.impact p.uid m.header.senderUid))) ∧
      (∀ (b : Nat) (j : Sys.ProjSt F), projs[b]? = some j → ∃ h, o.heard[b]? = some h ∧
        h.Perm ((deviceArrivals inputs (exts.getD i []) ++ o.spikes.filterMap id).filter
          (fun m => H.spike j.ident.uid m.header.senderUid))) ∧
      o.before = (pendingAt t projs pending os i).map .impact ∧
      o.after = (pendingAt t projs pending os i).map .impact ++ popsToHost (t + i) o.spikes ∧
      o.spikes.length = pops.length ∧
      ∀ m, some m ∈ o.spikes → m.header.sendTime = t + i ∧ m.header.senderUid ∈ pops.map (·.uid) := by
  induction exts with
  | nil =>
    intro t pops projs pending os fin h
    obtain ⟨h, _⟩ := h
    rw [h]
    exact ⟨rfl, fun i o hi => by simp at hi⟩
  | cons ext exts ih =>
    intro t pops projs pending os fin h
    obtain ⟨o, rest, pops', rfl, hs, hr⟩ := h
    obtain ⟨i1, i2⟩ := ih _ _ _ _ _ _ hr
    have hl : o.heard.length = projs.length := (forall₂_length hs.heard).symm
    obtain ⟨u1, u2⟩ := computePops_spec _ _ _ _ hs.computed
    have hsl : ∀ (ps : List (Pop F)) (gs : List (List (SynapticImpactMessage F))) (r : List (Pop F) × List (Option SpikeMessage)),
        computePops t ps gs = .ok r → r.2.length = ps.length := by
      intro ps
      induction ps with
      | nil => intro gs r h; simp only [computePops, Outcome.ok.injEq] at h; rw [← h]; rfl
      | cons p ps ih =>
        intro gs r h
        unfold computePops at h
        cases hx : calcPop t p (gs.headD []) with
        | throw a => rw [hx] at h; cases h
        | ub => rw [hx] at h; cases h
        | ok a =>
          rw [hx] at h
          simp only at h
          cases hy : computePops t ps gs.tail with
          | throw a => rw [hy] at h; cases h
          | ub => rw [hy] at h; cases h
          | ok q =>
            rw [hy] at h
            simp only [Outcome.ok.injEq] at h
            rw [← h, List.length_cons, List.length_cons, ih _ _ hy]
    refine ⟨by simp [i1], ?_⟩
    intro i o' ho
    cases i with
    | zero =>
      rw [List.getElem?_cons_zero, Option.some.injEq] at ho
      subst ho
      refine ⟨fun a p hp => forall₂_at hs.given hp, fun b j hj => ?_, hs.before, hs.after, hsl _ _ _ hs.computed, fun m hm => u2 m hm⟩
      simpa using forall₂_at hs.heard hj
    | succ i =>
      rw [List.getElem?_cons_succ] at ho
      obtain ⟨a1, a2, a3, a4, a5, a6⟩ := i2 i o' ho
      have hpend : pendingAt (t + 1) (projsAfter t projs o.heard) (sentImpacts t projs o.heard) rest i =
          pendingAt t projs pending (o :: rest) (i + 1) := by
        cases i with
        | zero => simp only [pendingAt]; rw [sentAt_zero _ _ _ _ hl]
        | succ i => simp only [pendingAt]; rw [sentAt_succ _ _ _ _ _ hl]
      rw [hpend] at a1 a3 a4
      have hti : t + 1 + i = t + (i + 1) := by omega
      rw [hti] at a4 a6
      refine ⟨fun a p hp => ?_, fun b j hj => ?_, a3, a4, ?_, fun m hm => ?_⟩
      · obtain ⟨p', h1, h2⟩ := uid_at u1 hp
        obtain ⟨g, g1, g2⟩ := a1 a p' h1
        rw [h2] at g2
        exact ⟨g, g1, g2⟩
      · obtain ⟨j', h1, h2⟩ := proj_uid_at (projsAfter_uids hl) hj
        obtain ⟨g, g1, g2⟩ := a2 b j' h1
        rw [h2] at g2
        exact ⟨g, g1, by simpa using g2⟩
      · rw [a5]
        have := congrArg List.length u1
        simpa using this
      · obtain ⟨b1, b2⟩ := a6 m hm
        exact ⟨b1, by rw [← u1]; exact b2⟩

/-! ## The same steps with other orders -/

theorem perm_short {α : Type} {l l' : List α} (h : l.Perm l') (h1 : l.length ≤ 1) : l = l' := by
  match l, h1 with
  | [], _ => exact (List.nil_perm.1 h).symm
  | [a], _ => exact List.singleton_perm.1 h

theorem forall₂_same {α β : Type} {R : α → List β → Prop} (P : α → List β) (hR : ∀ a x, R a x → x.Perm (P a)) :
    ∀ {l : List α} {x y : List (List β)}, List.Forall₂ R l x → List.Forall₂ R l y → (∀ b ∈ x, b.length ≤ 1) → x = y := by
  intro l x y h
  induction h generalizing y with
  | nil => intro h2 _; cases h2; rfl
  | @cons a b l x hab _ ih =>
    intro h2 hs
    cases h2 with
    | @cons _ c _ y hac h2 =>
      have h3 := (hR _ _ hab).trans (hR _ _ hac).symm
      rw [perm_short h3 (hs b (by simp)), ih h2 (fun z hz => hs z (by simp [hz]))]

theorem step_same [Arith F] {H : Hearing} {inputs : List (UID × UID)} {t : Nat} {pops pops1 pops2 : List (Pop F)}
    {projs : List (Sys.ProjSt F)} {pending : List (SynapticImpactMessage F)} {ext : List (Message F)} {o1 o2 : Out F}
    (h1 : DevStep H inputs t pops pops1 projs pending ext o1) (h2 : DevStep H inputs t pops pops2 projs pending ext o2)
    (hg : ∀ g ∈ o1.given, g.length ≤ 1) (hh : ∀ h ∈ o1.heard, h.length ≤ 1) : o1 = o2 ∧ pops1 = pops2 := by
  have e1 : o1.given = o2.given := forall₂_same _ (fun _ _ h => h) h1.given h2.given hg
  have e2 := h1.computed
  rw [e1, h2.computed] at e2
  simp only [Outcome.ok.injEq, Prod.mk.injEq] at e2
  have hh2 := h2.heard
  rw [e2.2] at hh2
  have e3 : o1.heard = o2.heard := forall₂_same _ (fun _ _ h => h) h1.heard hh2 hh
  have e4 : o1.before = o2.before := h1.before.trans h2.before.symm
  have e5 : o1.after = o2.after := by rw [h1.after, h2.after, e2.2]
  refine ⟨?_, e2.1.symm⟩
  cases o1
  cases o2
  simp only at e1 e3 e4 e5 e2
  rw [e1, e3, e4, e5, e2.2]

theorem run_same [Arith F] {H : Hearing} {inputs : List (UID × UID)} {chans : Nat} : ∀ (envs1 envs2 : List (List (Op F) × Sched))
    (s1 s2 : State F) (projs : List (Sys.ProjSt F)) (pending : List (SynapticImpactMessage F)) (e1 e2 : Endpoint F),
    envs1.map (·.1) = envs2.map (·.1) → Btw H inputs chans s1 projs pending e1 → Btw H inputs chans s2 projs pending e2 →
    s1.step = s2.step → s1.dev.pops = s2.dev.pops → s1.step + envs1.length ≤ two64 → (∀ x ∈ envs1, ∀ op ∈ x.1, Foreign chans op) →
    ∀ s1' os, run s1 envs1 = .ok (s1', os) → (∀ o ∈ os, (∀ g ∈ o.given, g.length ≤ 1) ∧ ∀ h ∈ o.heard, h.length ≤ 1) →
    ∃ s2', run s2 envs2 = .ok (s2', os) ∧ s1'.dev.pops = s2'.dev.pops ∧ s1'.dev.projs.map (·.queue) = s2'.dev.projs.map (·.queue) := by
  intro envs1
  induction envs1 with
  | nil =>
    intro envs2 s1 s2 projs pending e1 e2 he b1 b2 hs hp hle hf s1' os h hq
    have : envs2 = [] := by simpa using he.symm
    rw [this]
    simp only [run, Outcome.ok.injEq, Prod.mk.injEq] at h
    rw [← h.1, ← h.2]
    refine ⟨s2, rfl, hp, ?_⟩
    have gen : ∀ {dp : List (Proj F)} {sp : List (Sys.ProjSt F)}, List.Forall₂ Match dp sp →
        dp.map (·.queue) = sp.map (fun j => j.queue.map (fun e => stamp e.1 e.2)) := by
      intro dp sp hm
      induction hm with
      | nil => rfl
      | cons hj _ ih => rw [List.map_cons, List.map_cons, ih, hj.queue]
    rw [gen b1.match_, gen b2.match_]
  | cons x envs1 ih =>
    intro envs2 s1 s2 projs pending e1 e2 he b1 b2 hs hp hle hf s1' os h hq
    cases envs2 with
    | nil => simp at he
    | cons y envs2 =>
      obtain ⟨env, sc1⟩ := x
      obtain ⟨env', sc2⟩ := y
      simp only [List.map_cons, List.cons.injEq] at he
      obtain ⟨he0, he⟩ := he
      subst he0
      rw [List.length_cons] at hle
      have hf0 := hf (env, sc1) (by simp)
      have hs1 := step_spec b1 (by omega) env hf0 sc1
      have hs2 := step_spec b2 (by omega) env hf0 sc2
      unfold run at h
      cases h1 : step sc1 { s1 with world := s1.world.run env } with
      | throw w => rw [h1] at h; cases h
      | ub => rw [h1] at h; cases h
      | ok r =>
        obtain ⟨t1, o⟩ := r
        rw [h1] at h hs1
        simp only at h hs1
        obtain ⟨a1, a2, ⟨f1, a3⟩, _⟩ := hs1
        cases h3 : run t1 envs1 with
        | throw w => rw [h3] at h; cases h
        | ub => rw [h3] at h; cases h
        | ok q =>
          obtain ⟨u1, os1⟩ := q
          rw [h3] at h
          simp only [Outcome.ok.injEq, Prod.mk.injEq] at h
          rw [← h.2] at hq
          obtain ⟨q1, q2⟩ := hq o (by simp)
          cases h2 : step sc2 { s2 with world := s2.world.run env } with
          | throw w => rw [h2] at hs2; exact hs2.elim
          | ub =>
            rw [h2] at hs2
            simp only at hs2
            obtain ⟨g, g1, g2⟩ := hs2
            rw [← hp] at g1 g2
            have hg : o.given = g := forall₂_same _ (fun _ _ h => h) a1.given g1 q1
            rw [← hg, ← hs, a1.computed] at g2
            cases g2
          | ok r =>
            obtain ⟨t2, o2⟩ := r
            rw [h2] at hs2
            simp only at hs2
            obtain ⟨c1, c2, ⟨f2, c3⟩, _⟩ := hs2
            rw [← hp, ← hs] at c1
            rw [← hs] at c2 c3
            obtain ⟨d1, d2⟩ := step_same a1 c1 q1 q2
            subst d1
            obtain ⟨u2, v1, v2, v3⟩ := ih envs2 t1 t2 _ _ f1 f2 he a3 c3 (by rw [a2, c2]) d2 (by rw [a2]; omega)
              (fun y hy => hf y (by simp [hy])) u1 os1 h3 (fun o ho => hq o (by simp [ho]))
            rw [← h.1, ← h.2]
            exact ⟨u2, by unfold run; simp only [h2, v1], v2, v3⟩

end Knp.Cuda
