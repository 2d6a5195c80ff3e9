import Verif.Lemmas.System

/-! # Lemmas: a backend that was just loaded and initialised, and the whole run -/

namespace Knp.Sys
open Knp Knp.Bus Knp.Spec Knp.Neurons

variable {N F : Type}

theorem hears_subscribe (e : Endpoint F) (k k' : MsgKind) (r r' s : UID) (xs : List UID) :
    hearsE (e.subscribe k' r' xs) k r s = (hearsE e k r s || (decide (k' = k ∧ r' = r) && decide (s ∈ xs))) := by
  unfold hearsE
  rw [findSub_subscribe]
  by_cases h : k' = k ∧ r' = r
  · rw [if_pos h]
    simp only [Option.map_some, Option.getD_some, h, and_self, decide_true, Bool.true_and]
    rw [Bool.eq_iff_iff, Bool.or_eq_true, List.contains_iff_mem, mem_setInsertAll, decide_eq_true_iff]
    cases e.findSub k r with
    | none => simp
    | some x => simp
  · rw [if_neg h]
    simp [h]

/-- An endpoint with nothing in it. -/
structure Quiet (e : Endpoint F) : Prop where
  toSend : e.toSend = []
  recv : e.recv = []
  covered : Covered e
  stored : ∀ k r, storedE e k r = []

theorem quiet_fresh : Quiet (Endpoint.fresh : Endpoint F) :=
  ⟨rfl, rfl, fun s hs => by simp [Endpoint.fresh] at hs, fun k r => rfl⟩

theorem quiet_subscribe {e : Endpoint F} (h : Quiet e) (k : MsgKind) (r : UID) (xs : List UID) : Quiet (e.subscribe k r xs) := by
  refine ⟨?_, ?_, covered_subscribe h.covered k r xs, ?_⟩
  · rw [← h.toSend]; unfold Endpoint.subscribe Endpoint.modifySub; simp only; split <;> rfl
  · rw [← h.recv]; unfold Endpoint.subscribe Endpoint.modifySub; simp only; split <;> rfl
  · intro k' r'
    have := h.stored k' r'
    unfold storedE at this ⊢
    rw [findSub_subscribe]
    split
    · rename_i hk
      simpa using this
    · exact this

/-- The subscriptions the loader and `_init` make. -/
def bootEp (projs : List (Delta.Ident × Delta.Proj F)) (inputs : List (UID × UID)) : Endpoint F :=
  Load.wireAll (projs.map (fun j => wireOf ⟨j.1, j.2, []⟩))
    (inputs.foldl (fun e i => e.subscribe .spike i.1 [i.2]) Endpoint.fresh)

theorem inputs_spec (inputs : List (UID × UID)) : ∀ e : Endpoint F, Quiet e →
    Quiet (inputs.foldl (fun e i => e.subscribe .spike i.1 [i.2]) e) ∧
    (∀ r s, hearsE (inputs.foldl (fun e i => e.subscribe .spike i.1 [i.2]) e) .impact r s = hearsE e .impact r s) ∧
    (∀ r s, hearsE (inputs.foldl (fun e i => e.subscribe .spike i.1 [i.2]) e) .spike r s =
      (hearsE e .spike r s || inputs.contains (r, s))) := by
  induction inputs with
  | nil => intro e h; exact ⟨h, fun _ _ => rfl, fun _ _ => by simp⟩
  | cons i is ih =>
    intro e h
    obtain ⟨h1, h2, h3⟩ := ih _ (quiet_subscribe h .spike i.1 [i.2])
    refine ⟨h1, fun r s => ?_, fun r s => ?_⟩
    · rw [List.foldl_cons, h2, hears_subscribe]; simp
    · rw [List.foldl_cons, h3, hears_subscribe, List.contains_cons, Bool.or_assoc]
      congr 2
      rw [Bool.eq_iff_iff]
      obtain ⟨a, b⟩ := i
      simp only [true_and, Bool.and_eq_true, decide_eq_true_eq, List.mem_singleton, beq_iff_eq, Prod.mk.injEq]
      constructor
      · rintro ⟨h4, h5⟩; exact ⟨h4.symm, h5⟩
      · rintro ⟨h4, h5⟩; exact ⟨h4.symm, h5⟩

theorem wires_spec (projs : List (Delta.Ident × Delta.Proj F)) : ∀ e : Endpoint F, Quiet e →
    Quiet (Load.wireAll (projs.map (fun j => wireOf ⟨j.1, j.2, []⟩)) e) ∧
    (∀ r s, hearsE (Load.wireAll (projs.map (fun j => wireOf ⟨j.1, j.2, []⟩)) e) .impact r s = (hearsE e .impact r s ||
      (decide (r ≠ 0) && projs.any (fun j => j.1.post == r && j.1.uid == s)))) ∧
    (∀ r s, hearsE (Load.wireAll (projs.map (fun j => wireOf ⟨j.1, j.2, []⟩)) e) .spike r s = (hearsE e .spike r s ||
      (decide (s ≠ 0) && projs.any (fun j => j.1.uid == r && j.1.pre == s)))) := by
  induction projs with
  | nil => intro e h; exact ⟨h, fun _ _ => by simp [Load.wireAll], fun _ _ => by simp [Load.wireAll]⟩
  | cons j js ih =>
    intro e h
    have hcons : Load.wireAll ((j :: js).map (fun j => wireOf ⟨j.1, j.2, []⟩)) e =
        Load.wireAll (js.map (fun j => wireOf ⟨j.1, j.2, []⟩)) (Load.wireOne e (wireOf ⟨j.1, j.2, []⟩)) := rfl
    have hone : Load.wireOne e (wireOf (⟨j.1, j.2, []⟩ : ProjSt F)) =
        if j.1.post ≠ 0 then (if j.1.pre ≠ 0 then e.subscribe .spike j.1.uid [j.1.pre] else e).subscribe .impact j.1.post [j.1.uid]
        else if j.1.pre ≠ 0 then e.subscribe .spike j.1.uid [j.1.pre] else e := by
      simp [Load.wireOne, wireOf, Load.subscribeStdp]
    have hq1 : Quiet (if j.1.pre ≠ 0 then e.subscribe .spike j.1.uid [j.1.pre] else e) := by
      split
      · exact quiet_subscribe h _ _ _
      · exact h
    have hq2 : Quiet (Load.wireOne e (wireOf (⟨j.1, j.2, []⟩ : ProjSt F))) := by
      rw [hone]
      split
      · exact quiet_subscribe hq1 _ _ _
      · exact hq1
    obtain ⟨h1, h2, h3⟩ := ih _ hq2
    rw [hcons]
    refine ⟨h1, fun r s => ?_, fun r s => ?_⟩
    · rw [h2, List.any_cons]
      have : hearsE (Load.wireOne e (wireOf (⟨j.1, j.2, []⟩ : ProjSt F))) .impact r s =
          (hearsE e .impact r s || (decide (r ≠ 0) && (j.1.post == r && j.1.uid == s))) := by
        rw [hone]
        by_cases hp : j.1.post = 0
        · rw [if_neg (by simpa using hp)]
          have hz : (decide (r ≠ 0) && (j.1.post == r && j.1.uid == s)) = false := by
            rw [hp]
            by_cases hr : r = 0
            · simp [hr]
            · have : ¬ 0 = r := fun h => hr h.symm
              simp [this]
          rw [hz, Bool.or_false]
          split
          · rw [hears_subscribe]; simp
          · rfl
        · rw [if_pos hp, hears_subscribe]
          have hin : hearsE (if j.1.pre ≠ 0 then e.subscribe .spike j.1.uid [j.1.pre] else e) .impact r s = hearsE e .impact r s := by
            split
            · rw [hears_subscribe]; simp
            · rfl
          rw [hin]
          congr 1
          rw [Bool.eq_iff_iff]
          simp only [true_and, Bool.and_eq_true, decide_eq_true_eq, beq_iff_eq, List.mem_singleton]
          constructor
          · rintro ⟨h4, h5⟩; exact ⟨by rw [← h4]; exact hp, h4, h5.symm⟩
          · rintro ⟨_, h4, h5⟩; exact ⟨h4, h5.symm⟩
      rw [this]
      cases hearsE e .impact r s <;> cases decide (r ≠ 0) <;> simp
    · rw [h3, List.any_cons]
      have : hearsE (Load.wireOne e (wireOf (⟨j.1, j.2, []⟩ : ProjSt F))) .spike r s =
          (hearsE e .spike r s || (decide (s ≠ 0) && (j.1.uid == r && j.1.pre == s))) := by
        have hin : hearsE (if j.1.pre ≠ 0 then e.subscribe .spike j.1.uid [j.1.pre] else e) .spike r s =
            (hearsE e .spike r s || (decide (s ≠ 0) && (j.1.uid == r && j.1.pre == s))) := by
          by_cases hp : j.1.pre = 0
          · rw [if_neg (by simpa using hp)]
            have hz : (decide (s ≠ 0) && (j.1.uid == r && j.1.pre == s)) = false := by
              rw [hp]
              by_cases hr : s = 0
              · simp [hr]
              · have : ¬ 0 = s := fun h => hr h.symm
                simp [this]
            rw [hz, Bool.or_false]
          · rw [if_pos hp, hears_subscribe]
            congr 1
            rw [Bool.eq_iff_iff]
            simp only [true_and, Bool.and_eq_true, decide_eq_true_eq, beq_iff_eq, List.mem_singleton]
            constructor
            · rintro ⟨h4, h5⟩; exact ⟨by rw [h5]; exact hp, h4, h5.symm⟩
            · rintro ⟨_, h4, h5⟩; exact ⟨h4, h5.symm⟩
        rw [hone, ← hin]
        split
        · rw [hears_subscribe]; simp
        · rfl
      rw [this]
      cases hearsE e .spike r s <;> cases decide (s ≠ 0) <;> simp

theorem run_create (n : Nat) : ∀ w : World F, w.run (List.replicate n .createEndpoint) =
    { w with slots := w.slots ++ List.replicate n ⟨true, .fresh⟩ } := by
  induction n with
  | zero => intro w; simp [World.run]
  | succ n ih =>
    intro w
    rw [List.replicate_succ]
    show World.run (w.exec .createEndpoint) _ = _
    rw [ih]
    simp [World.exec, List.replicate_succ]

theorem run_subscribe (inputs : List (UID × UID)) : ∀ w : World F,
    w.run (inputs.map (fun i => .subscribe 0 .spike i.1 [i.2])) =
      w.onEndpoint 0 (fun e => inputs.foldl (fun e i => e.subscribe .spike i.1 [i.2]) e) := by
  induction inputs with
  | nil =>
    intro w
    obtain ⟨sl, q⟩ := w
    unfold World.run World.onEndpoint
    simp only [List.map_nil, List.foldl_nil]
    congr 1
    cases sl with
    | nil => rfl
    | cons a l => simp [List.modify]
  | cons i is ih =>
    intro w
    rw [List.map_cons]
    show World.run (w.exec _) _ = _
    rw [ih]
    obtain ⟨sl, q⟩ := w
    unfold World.exec World.onEndpoint
    simp only
    congr 1
    cases sl with
    | nil => rfl
    | cons a l =>
      simp only [List.modify_zero_cons]
      cases ha : a.alive <;> simp [ha]

theorem boot_between (pops : List (PopSt N F)) (projs : List (Delta.Ident × Delta.Proj F)) (inputs : List (UID × UID))
    (chans : Nat) : ∃ e0, Between (hearingOf projs inputs) chans (boot pops projs inputs chans) [] e0 := by
  have hw : (boot pops projs inputs chans).world = ⟨⟨true, bootEp projs inputs⟩ :: List.replicate chans ⟨true, .fresh⟩, []⟩ := by
    unfold boot initBackend
    simp only
    rw [run_create, run_subscribe]
    simp only [World.init, List.nil_append, List.replicate_succ, World.onEndpoint, List.modify_zero_cons, bootEp,
      List.map_map]
    rfl
  obtain ⟨i1, i2, i3⟩ := inputs_spec inputs Endpoint.fresh (quiet_fresh (F := F))
  obtain ⟨w1, w2, w3⟩ := wires_spec projs _ i1
  have hbe : bootEp projs inputs = Load.wireAll (projs.map (fun j => wireOf ⟨j.1, j.2, []⟩))
    (inputs.foldl (fun e i => e.subscribe .spike i.1 [i.2]) Endpoint.fresh) := rfl
  rw [← hbe] at w1 w2 w3
  have hfr : ∀ k r s, hearsE (Endpoint.fresh : Endpoint F) k r s = false := fun _ _ _ => rfl
  have hep : ∀ i, (boot pops projs inputs chans).world.endpoint (i + 1) =
      if i < chans then some .fresh else none := by
    intro i
    rw [hw]
    unfold World.endpoint
    simp only [List.getElem?_cons_succ, List.getElem?_replicate]
    by_cases h : i < chans
    · simp [h]
    · simp [h]
  have hep0 : (boot pops projs inputs chans).world.endpoint 0 = some (bootEp projs inputs) := by
    rw [hw]; rfl
  refine ⟨bootEp projs inputs, ⟨⟨?_, ?_, ?_, hep0, w1.recv, w1.covered⟩, ?_, ?_, ?_, ?_, ?_⟩⟩
  · rw [hw]
  · rw [hw]; simp
  · intro i hi
    cases i with
    | zero => exact ⟨_, hep0⟩
    | succ i => rw [hep, if_pos (by omega)]; exact ⟨_, rfl⟩
  · intro i hi
    unfold outboxOf
    cases i with
    | zero => rw [hep0]; exact w1.toSend
    | succ i =>
      rw [hep]
      split <;> rfl
  · intro r x
    rw [w2, i2, hfr]
    simp [hearingOf]
  · intro r x
    rw [w3, i3, hfr]
    simp only [hearingOf, Bool.false_or]
    rw [Bool.or_comm]
  · intro p _
    exact w1.stored _ _
  · intro j _
    exact w1.stored _ _

/-- The run, from any state between two steps. -/
theorem run_spec {H : Hearing} {chans : Nat} (envs : List (List (Op F))) : ∀ (s : State N F)
    (pending : List (SynapticImpactMessage F)) (e0 : Endpoint F), Between H chans s pending e0 →
    (s.pops.map (·.uid)).Nodup → (s.projs.map (·.ident.uid)).Nodup → (∀ env ∈ envs, ∀ op ∈ env, Foreign chans op) →
    match flowRun H s.step s.pops s.projs pending (envs.map (extOf chans)) with
    | .ok (st, os) => ∃ s', runSingle s envs = .ok (s', os) ∧ s'.pops = st.1 ∧ s'.projs = st.2 ∧ s'.step = s.step + envs.length
    | .throw w => runSingle s envs = .throw w
    | .ub => runSingle s envs = .ub := by
  induction envs with
  | nil => intro s pending e0 _ _ _ _; exact ⟨s, rfl, rfl, rfl, rfl⟩
  | cons env envs ih =>
    intro s pending e0 hb hnp hnj hf
    have hstep := step_spec hb hnp hnj env (hf env (by simp))
    rw [List.map_cons]
    unfold flowRun runSingle
    cases hfs : flowStep H s.step s.pops s.projs pending (extOf chans env) with
    | throw w => rw [hfs] at hstep; simp only at hstep ⊢; rw [hstep]
    | ub => rw [hfs] at hstep; simp only at hstep ⊢; rw [hstep]
    | ok x =>
      obtain ⟨st, o⟩ := x
      rw [hfs] at hstep
      simp only at hstep ⊢
      obtain ⟨s', e', h1, h2, h3, h4, h5⟩ := hstep
      rw [h1]
      simp only
      have huids : st.1.map (·.uid) = s.pops.map (·.uid) ∧ st.2.map (·.ident.uid) = s.projs.map (·.ident.uid) := by
        unfold flowStep at hfs
        simp only at hfs
        cases hfp : flowPops s.step (fun r => (pending ++ impactsIn (extOf chans env)).filter
            (fun m => H.impact r m.header.senderUid)) s.pops with
        | throw w => rw [hfp] at hfs; cases hfs
        | ub => rw [hfp] at hfs; cases hfs
        | ok y =>
          obtain ⟨ps', ss⟩ := y
          rw [hfp] at hfs
          simp only [Outcome.ok.injEq, Prod.mk.injEq] at hfs
          rw [← hfs.1]
          refine ⟨flowPops_uids _ _ _ _ _ hfp, ?_⟩
          simp only [List.map_map]
          rfl
      have hrec := ih s' o.impacts e' h5 (by rw [h2, huids.1]; exact hnp) (by rw [h3, huids.2]; exact hnj)
        (fun en he => hf en (by simp [he]))
      rw [h2, h3, h4] at hrec
      cases hfr : flowRun H (s.step + 1) st.1 st.2 o.impacts (envs.map (extOf chans)) with
      | throw w => rw [hfr] at hrec; simp only at hrec ⊢; rw [hrec]
      | ub => rw [hfr] at hrec; simp only at hrec ⊢; rw [hrec]
      | ok z =>
        obtain ⟨st', os⟩ := z
        rw [hfr] at hrec
        simp only at hrec ⊢
        obtain ⟨s'', k1, k2, k3, k4⟩ := hrec
        refine ⟨s'', by rw [k1], k2, k3, ?_⟩
        rw [k4, List.length_cons]
        omega

end Knp.Sys
