import Verif.Spec.Program

/-! # Lemmas: the program's own functions -/

namespace Knp.Prog
open Knp Knp.Bus Knp.Spec Knp.Sys Knp.Learn

variable {σ P J F : Type}

theorem feed_user (c : Code σ F) (t : Nat) : ∀ (ins : List UID) (i : Nat) (w : World F) (u : σ),
    ((feed c t i ins w u).2, (feed c t i ins w u).1.2) = inTurn (fun k u => c.gen k u t) (List.range' i ins.length) u := by
  intro ins
  induction ins with
  | nil => intro i w u; rfl
  | cons x ins ih =>
    intro i w u
    simp only [feed, List.length_cons, List.range'_succ, inTurn]
    rw [← ih (i + 1) (post w (i + 1) x t (c.gen i u t).1) (c.gen i u t).2]

theorem inTurn_congr {β : Type} (f g : Nat → σ → β × σ) : ∀ (ks : List Nat), (∀ k ∈ ks, f k = g k) → ∀ u, inTurn f ks u = inTurn g ks u := by
  intro ks
  induction ks with
  | nil => intro _ u; rfl
  | cons k ks ih =>
    intro h u
    simp only [inTurn]
    rw [h k (by simp), ih (fun k' hk => h k' (List.mem_cons_of_mem _ hk))]

theorem getD_after {α : Type} (l : List α) (k i : Nat) (d x : α) (h : i < k) : (x :: l).getD (k - i) d = l.getD (k - (i + 1)) d := by
  have : k - i = (k - (i + 1)) + 1 := by omega
  rw [this]; rfl

theorem runHandlers_user (c : Code σ F) (t : Nat) : ∀ (hs : List Handler) (i e : Nat) (w : World F) (u : σ),
    ((runHandlers c t i e hs w u).2.map (·.2), (runHandlers c t i e hs w u).1.2) =
      inTurn (fun k v => c.handle k v (((runHandlers c t i e hs w u).2.map (·.1)).getD (k - i) [])) (List.range' i hs.length) u := by
  intro hs
  induction hs with
  | nil => intro i e w u; rfl
  | cons x hs ih =>
    intro i e w u
    simp only [runHandlers, List.length_cons, List.range'_succ, List.map_cons]
    generalize hg : collect w e .spike x.uid = g
    have hi := ih (i + 1) (e + 1) (post g.1 e x.uid t (c.handle i u (spikesIn g.2)).1) (c.handle i u (spikesIn g.2)).2
    have hc : inTurn (fun k v => c.handle k v ((spikesIn g.2 ::
          ((runHandlers c t (i + 1) (e + 1) hs (post g.1 e x.uid t (c.handle i u (spikesIn g.2)).1) (c.handle i u (spikesIn g.2)).2).2.map (·.1))).getD (k - i) []))
        (List.range' (i + 1) hs.length) = inTurn (fun k v => c.handle k v
          (((runHandlers c t (i + 1) (e + 1) hs (post g.1 e x.uid t (c.handle i u (spikesIn g.2)).1) (c.handle i u (spikesIn g.2)).2).2.map (·.1)).getD (k - (i + 1)) []))
        (List.range' (i + 1) hs.length) := by
      funext v
      apply inTurn_congr
      intro k hk
      have := (List.mem_range'_1.1 hk).1
      rw [getD_after _ _ _ _ _ (by omega)]
    simp only [inTurn]
    rw [hc]
    simp only [Nat.sub_self, List.getD_cons_zero]
    rw [← hi]

theorem runObservers_user (c : Code σ F) : ∀ (bs : List Observer) (i e : Nat) (w : World F) (u : σ),
    (runObservers c i e bs w u).1.2 =
      (inTurn (fun k v => ((), c.observe k v ((runObservers c i e bs w u).2.getD (k - i) []))) (List.range' i bs.length) u).2 := by
  intro bs
  induction bs with
  | nil => intro i e w u; rfl
  | cons x bs ih =>
    intro i e w u
    simp only [runObservers, List.length_cons, List.range'_succ]
    generalize hg : collect w e x.kind x.uid = g
    have hi := ih (i + 1) (e + 1) g.1 (c.observe i u g.2)
    have hc : inTurn (fun k v => ((), c.observe k v ((g.2 ::
          (runObservers c (i + 1) (e + 1) bs g.1 (c.observe i u g.2)).2).getD (k - i) [])))
        (List.range' (i + 1) bs.length) = inTurn (fun k v => ((), c.observe k v
          ((runObservers c (i + 1) (e + 1) bs g.1 (c.observe i u g.2)).2.getD (k - (i + 1)) [])))
        (List.range' (i + 1) bs.length) := by
      funext v
      apply inTurn_congr
      intro k hk
      have := (List.mem_range'_1.1 hk).1
      rw [getD_after _ _ _ _ _ (by omega)]
    simp only [inTurn]
    rw [hc]
    simp only [Nat.sub_self, List.getD_cons_zero]
    exact hi

theorem preStep_user (L : Layout) (c : Code σ F) (s : State σ P J F) :
    ((preStep L c s).2, (preStep L c s).1.user) = inTurn (fun k u => c.gen k u s.core.step) (List.range L.inputs.length) s.user := by
  unfold preStep
  rw [List.range_eq_range', ← feed_user c s.core.step L.inputs 0 s.core.world s.user]

theorem postStep_user (L : Layout) (c : Code σ F) (s : State σ P J F) :
    ((postStep L c s).2.1.map (·.2), (postStep L c s).1.user) =
      ((inTurn (fun k v => c.handle k v (((postStep L c s).2.1.map (·.1)).getD k [])) (List.range L.handlers.length) s.user).1,
       (inTurn (fun k v => ((), c.observe k v ((postStep L c s).2.2.getD k []))) (List.range L.observers.length)
        (inTurn (fun k v => c.handle k v (((postStep L c s).2.1.map (·.1)).getD k [])) (List.range L.handlers.length) s.user).2).2) := by
  unfold postStep
  simp only
  generalize hw : (updateOuts L.outBase L.outputs s.outs s.core.world).1 = w
  have h1 := runHandlers_user c s.core.step L.handlers 0 L.handlerBase w s.user
  generalize hh : runHandlers c s.core.step 0 L.handlerBase L.handlers w s.user = r at h1 ⊢
  have h2 := runObservers_user c L.observers 0 L.observerBase r.1.1 r.1.2
  simp only [Nat.sub_zero] at h1 h2
  rw [List.range_eq_range', List.range_eq_range', ← h1]
  simp only
  rw [← h2]

theorem run_user (step : Stepper P J F) (L : Layout) (c : Code σ F) : ∀ (acts : List (Act σ)) (s s' : State σ P J F) (tr : List (Item F)),
    run step L c s acts = .ok (s', tr) → UserRun L c s.user acts tr s'.user := by
  intro acts
  induction acts with
  | nil =>
    intro s s' tr h
    simp only [run, Outcome.ok.injEq, Prod.mk.injEq] at h
    obtain ⟨rfl, rfl⟩ := h
    exact rfl
  | cons a acts ih =>
    intro s s' tr h
    unfold run at h
    cases h1 : act step L c s a with
    | throw w => rw [h1] at h; cases h
    | ub => rw [h1] at h; cases h
    | ok y =>
      obtain ⟨s1, it⟩ := y
      rw [h1] at h
      simp only at h
      cases h2 : run step L c s1 acts with
      | throw w => rw [h2] at h; cases h
      | ub => rw [h2] at h; cases h
      | ok z =>
        obtain ⟨s2, its⟩ := z
        rw [h2] at h
        simp only [Outcome.ok.injEq, Prod.mk.injEq] at h
        obtain ⟨rfl, rfl⟩ := h
        have hr := ih _ _ _ h2
        cases a with
        | iterate p =>
          simp only [act, iterate] at h1
          cases hs : step (preStep L c s).1.core with
          | throw w => rw [hs] at h1; cases h1
          | ub => rw [hs] at h1; cases h1
          | ok x =>
            obtain ⟨core, o⟩ := x
            rw [hs] at h1
            simp only [Outcome.ok.injEq, Prod.mk.injEq] at h1
            obtain ⟨rfl, rfl⟩ := h1
            have e1 := preStep_user L c s
            have e2 := postStep_user L c ⟨core, (preStep L c s).1.outs, p (preStep L c s).1.user⟩
            simp only [UserRun]
            rw [← e1]
            simp only [true_and]
            rw [Prod.mk.injEq] at e2
            refine ⟨e2.1, ?_⟩
            rw [← e2.2]
            exact hr
        | halt p =>
          simp only [act, Outcome.ok.injEq, Prod.mk.injEq] at h1
          obtain ⟨rfl, rfl⟩ := h1
          have e1 := preStep_user L c s
          simp only [UserRun]
          rw [← e1]
          exact ⟨rfl, hr⟩
        | read n x y mx =>
          simp only [act] at h1
          cases h3 : s.outs[n]? with
          | none => rw [h3] at h1; cases h1
          | some ch =>
            rw [h3] at h1
            simp only at h1
            cases h4 : ch.readSome mx x y with
            | throw w => rw [h4] at h1; cases h1
            | ub => rw [h4] at h1; cases h1
            | ok z =>
              rw [h4] at h1
              simp only [Outcome.ok.injEq, Prod.mk.injEq] at h1
              obtain ⟨rfl, rfl⟩ := h1
              exact ⟨rfl, hr⟩

end Knp.Prog
