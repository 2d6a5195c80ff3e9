import Verif.Spec.SystemMulti
import Verif.Lemmas.SystemBoot

/-! # Lemmas: the endpoint of the multi-threaded backend through a step -/

namespace Knp.Sys
open Knp Knp.Bus Knp.Spec Knp.Neurons

variable {N F : Type}

theorem sendAll_eq (ms : List (Message F)) : ∀ e : Endpoint F, sendAll e ms = { e with toSend := e.toSend ++ ms } := by
  unfold sendAll
  induction ms with
  | nil => intro e; simp
  | cons m ms ih =>
    intro e
    rw [List.foldl_cons, ih]
    simp [Endpoint.send]

theorem stored_sendAll (e : Endpoint F) (ms : List (Message F)) (k : MsgKind) (r : UID) :
    storedE (sendAll e ms) k r = storedE e k r := by
  rw [sendAll_eq]; rfl

theorem same_sendAll (e : Endpoint F) (ms : List (Message F)) : Same e (sendAll e ms) := by
  rw [sendAll_eq]
  exact ⟨rfl, fun _ _ _ => rfl, id⟩

theorem popPhaseM_spec (c : Config F) (t : Nat) (f : UID → List (SynapticImpactMessage F)) : ∀ (pops : List (PopSt N F))
    (scs : List (List Nat × List Nat)) (e : Endpoint F),
    (pops.map (·.uid)).Nodup → (∀ p ∈ pops, storedE e .impact p.uid = (f p.uid).map .impact) →
    match flowPopsM c t f pops scs with
    | some (.ok (ps', ss)) => ∃ e', popPhaseM c t e pops scs = some (.ok (e', ps', pops.map (fun p => (p.uid, f p.uid)), ss)) ∧
        e'.toSend = e.toSend ∧ Same e e' ∧ (∀ r, storedE e' .spike r = storedE e .spike r) ∧
        (∀ r, storedE e' .impact r = if r ∈ pops.map (·.uid) then [] else storedE e .impact r)
    | some (.throw w) => popPhaseM c t e pops scs = some (.throw w)
    | some .ub => popPhaseM c t e pops scs = some .ub
    | none => popPhaseM c t e pops scs = none := by
  intro pops
  induction pops with
  | nil =>
    intro scs e _ _
    cases scs with
    | nil => exact ⟨e, rfl, rfl, Same.refl e, fun _ => rfl, fun _ => by simp⟩
    | cons => rfl
  | cons p ps ih =>
    intro scs e hnd hst
    cases scs with
    | nil => rfl
    | cons sc scs =>
      rw [List.map_cons, List.nodup_cons] at hnd
      have hp := hst p (by simp)
      have hin : impactsIn (e.unload .impact p.uid).2 = f p.uid := by rw [unload_snd, hp, impactsIn_map]
      unfold flowPopsM popPhaseM
      simp only [hin]
      cases hs : multiPopulation p.kind p.uid t c.popPart p.neurons (f p.uid) sc.1 sc.2 with
      | none => simp
      | some r0 =>
        cases r0 with
        | throw w => simp
        | ub => simp
        | ok r =>
          simp only
          generalize he1 : (e.unload .impact p.uid).1 = e1
          have hs1 : ∀ k q, storedE e1 k q = if MsgKind.impact = k ∧ p.uid = q then [] else storedE e k q := by
            intro k q; rw [← he1, stored_unload]
          have hst1 : ∀ q ∈ ps, storedE e1 .impact q.uid = (f q.uid).map .impact := by
            intro q hq
            rw [hs1, if_neg]
            · exact hst q (by simp [hq])
            · rintro ⟨_, h⟩
              exact hnd.1 (List.mem_map.2 ⟨q, hq, h.symm⟩)
          have hrec := ih scs e1 hnd.2 hst1
          have hsame : Same e e1 := by rw [← he1]; exact same_unload e .impact p.uid
          have hts : e1.toSend = e.toSend := by rw [← he1, (unload_fields e .impact p.uid).1]
          cases hf : flowPopsM c t f ps scs with
          | none => rw [hf] at hrec; simp only at hrec ⊢; rw [hrec]
          | some x0 =>
            cases x0 with
            | throw w => rw [hf] at hrec; simp only at hrec ⊢; rw [hrec]
            | ub => rw [hf] at hrec; simp only at hrec ⊢; rw [hrec]
            | ok x =>
              obtain ⟨ps', ss⟩ := x
              rw [hf] at hrec
              simp only at hrec ⊢
              obtain ⟨e', h1, h2, h3, h4, h5⟩ := hrec
              refine ⟨e', by rw [h1]; rfl, h2.trans hts, hsame.trans h3, ?_, ?_⟩
              · intro q; rw [h4, hs1, if_neg (by simp)]
              · intro q
                rw [h5, hs1]
                by_cases hq : q ∈ ps.map (·.uid)
                · simp [hq]
                · by_cases hpq : p.uid = q
                  · simp [hpq]
                  · have : ¬ q = p.uid := fun h => hpq h.symm
                    rw [if_neg hq, if_neg (by simp [hpq]), if_neg (by simp only [List.map_cons, List.mem_cons, this, hq, or_self, not_false_eq_true])]

theorem projPhaseM_spec (c : Config F) (t : Nat) (f : UID → List SpikeMessage) : ∀ (js : List (ProjSt F))
    (os : List (List Nat)) (e : Endpoint F),
    (js.map (·.ident.uid)).Nodup → (∀ j ∈ js, storedE e .spike j.ident.uid = (f j.ident.uid).map .spike) →
    match flowProjsM c t f js os with
    | some (js', ms) => ∃ e', projPhaseM c t e js os = some (e', js', js.map (fun j => (j.ident.uid, f j.ident.uid)), ms) ∧
        e'.toSend = e.toSend ∧ Same e e' ∧ (∀ r, storedE e' .impact r = storedE e .impact r) ∧
        (∀ r, storedE e' .spike r = if r ∈ js.map (·.ident.uid) then [] else storedE e .spike r)
    | none => projPhaseM c t e js os = none := by
  intro js
  induction js with
  | nil =>
    intro os e _ _
    cases os with
    | nil => exact ⟨e, rfl, rfl, Same.refl e, fun _ => rfl, fun _ => by simp⟩
    | cons => rfl
  | cons j js ih =>
    intro os e hnd hst
    cases os with
    | nil => rfl
    | cons o os =>
      rw [List.map_cons, List.nodup_cons] at hnd
      have hin : spikesIn (e.unload .spike j.ident.uid).2 = f j.ident.uid := by
        rw [unload_snd, hst j (by simp), spikesIn_map]
      unfold flowProjsM projPhaseM
      simp only [hin]
      cases hs : reorder o (Delta.tasks c.scale j.proj t c.projPart (f j.ident.uid)) with
      | none => simp
      | some ts =>
        simp only
        generalize he1 : (e.unload .spike j.ident.uid).1 = e1
        have hs1 : ∀ k q, storedE e1 k q = if MsgKind.spike = k ∧ j.ident.uid = q then [] else storedE e k q := by
          intro k q; rw [← he1, stored_unload]
        have hrec := ih os e1 hnd.2 (by
          intro q hq
          rw [hs1, if_neg]
          · exact hst q (by simp [hq])
          · rintro ⟨_, h⟩
            exact hnd.1 (List.mem_map.2 ⟨q, hq, h.symm⟩))
        have hsame : Same e e1 := by rw [← he1]; exact same_unload e .spike j.ident.uid
        have hts : e1.toSend = e.toSend := by rw [← he1, (unload_fields e .spike j.ident.uid).1]
        cases hf : flowProjsM c t f js os with
        | none => rw [hf] at hrec; simp only at hrec ⊢; rw [hrec]
        | some x =>
          obtain ⟨js', ms⟩ := x
          rw [hf] at hrec
          simp only at hrec ⊢
          obtain ⟨e', h1, h2, h3, h4, h5⟩ := hrec
          refine ⟨e', by rw [h1]; rfl, h2.trans hts, hsame.trans h3, ?_, ?_⟩
          · intro q; rw [h4, hs1, if_neg (by simp)]
          · intro q
            rw [h5, hs1]
            by_cases hq : q ∈ js.map (·.ident.uid)
            · simp [hq]
            · by_cases hpq : j.ident.uid = q
              · simp [hpq]
              · have : ¬ q = j.ident.uid := fun h => hpq h.symm
                rw [if_neg hq, if_neg (by simp [hpq]), if_neg (by simp only [List.map_cons, List.mem_cons, this, hq, or_self, not_false_eq_true])]

theorem flowPopsM_uids (c : Config F) (t : Nat) (f : UID → List (SynapticImpactMessage F)) : ∀ (ps : List (PopSt N F))
    (scs : List (List Nat × List Nat)) (ps' : List (PopSt N F))
    (ss : List SpikeMessage), flowPopsM c t f ps scs = some (.ok (ps', ss)) → ps'.map (·.uid) = ps.map (·.uid) := by
  intro ps
  induction ps with
  | nil =>
    intro scs ps' ss h
    cases scs with
    | nil => simp only [flowPopsM, Option.some.injEq, Outcome.ok.injEq, Prod.mk.injEq] at h; rw [← h.1]
    | cons => simp [flowPopsM] at h
  | cons p ps ih =>
    intro scs ps' ss h
    cases scs with
    | nil => simp [flowPopsM] at h
    | cons sc scs =>
      unfold flowPopsM at h
      rcases h1 : multiPopulation p.kind p.uid t c.popPart p.neurons (f p.uid) sc.1 sc.2 with _ | (r | w | _)
      all_goals rw [h1] at h; simp only at h
      · cases h
      · rcases h2 : flowPopsM c t f ps scs with _ | (x | w | _)
        all_goals rw [h2] at h; simp only at h
        · cases h
        · obtain ⟨qs, ss2⟩ := x
          simp only [Option.some.injEq, Outcome.ok.injEq, Prod.mk.injEq] at h
          rw [← h.1]
          simp [ih scs qs ss2 h2]
        · cases h
        · cases h
      · cases h
      · cases h

theorem flowProjsM_uids (c : Config F) (t : Nat) (f : UID → List SpikeMessage) : ∀ (js : List (ProjSt F))
    (os : List (List Nat)) (js' : List (ProjSt F)) (ms : List (SynapticImpactMessage F)),
    flowProjsM c t f js os = some (js', ms) → js'.map (·.ident.uid) = js.map (·.ident.uid) := by
  intro js
  induction js with
  | nil =>
    intro os js' ms h
    cases os with
    | nil => simp only [flowProjsM, Option.some.injEq, Prod.mk.injEq] at h; rw [← h.1]
    | cons => simp [flowProjsM] at h
  | cons j js ih =>
    intro os js' ms h
    cases os with
    | nil => simp [flowProjsM] at h
    | cons o os =>
      unfold flowProjsM at h
      rcases h1 : reorder o (Delta.tasks c.scale j.proj t c.projPart (f j.ident.uid)) with _ | ts
      all_goals rw [h1] at h; simp only at h
      · cases h
      · rcases h2 : flowProjsM c t f js os with _ | x
        all_goals rw [h2] at h; simp only at h
        · cases h
        · obtain ⟨qs, ss2⟩ := x
          simp only [Option.some.injEq, Prod.mk.injEq] at h
          rw [← h.1]
          simp [ih os qs ss2 h2]

theorem stepM_spec {H : Hearing} {chans : Nat} {s : State N F} {pending : List (SynapticImpactMessage F)} {e0 : Endpoint F}
    (c : Config F) (hb : Between H chans s pending e0) (hnp : (s.pops.map (·.uid)).Nodup)
    (hnj : (s.projs.map (·.ident.uid)).Nodup) (env : List (Op F)) (sc : Sched) (hf : ∀ op ∈ env, Foreign chans op) :
    match flowStepM c H s.step s.pops s.projs pending (extOf chans env) sc with
    | some (.ok (st, o)) => ∃ s' e', stepMulti c { s with world := s.world.run env } sc = some (.ok (s', o)) ∧
        s'.pops = st.1 ∧ s'.projs = st.2 ∧ s'.step = s.step + 1 ∧ st.1.map (·.uid) = s.pops.map (·.uid) ∧
        st.2.map (·.ident.uid) = s.projs.map (·.ident.uid) ∧
        Between H chans s' (impactsIn (extOf chans env) ++ o.impacts) e'
    | some (.throw w) => stepMulti c { s with world := s.world.run env } sc = some (.throw w)
    | some .ub => stepMulti c { s with world := s.world.run env } sc = some .ub
    | none => stepMulti c { s with world := s.world.run env } sc = none := by
  obtain ⟨r1, _, r3⟩ := foreign_run env hb.ready hf
  have h0 : sentVia 0 env = [] := by
    unfold sentVia
    rw [List.filterMap_eq_nil_iff]
    intro op hop
    have := hf op hop
    cases op with
    | send e m =>
      have h1 : 1 ≤ e ∧ e ≤ chans := this
      simp only
      rw [if_neg (by omega)]
    | _ => rfl
  have hout0 : outboxOf (s.world.run env) 0 = [] := by
    rw [r3 0 (by omega), hb.empty 0 (by omega), h0]; rfl
  have htoSend : e0.toSend = [] := by
    unfold outboxOf at hout0
    rw [r1.ep] at hout0
    simpa using hout0
  have hrest : (List.range chans).flatMap (fun e => outboxOf (s.world.run env) (e + 1)) = extOf chans env := by
    unfold extOf
    rw [List.flatMap_def, List.flatMap_def]
    congr 1
    apply List.map_congr_left
    intro e he
    rw [r3 (e + 1) (by simp at he; omega), hb.empty (e + 1) (by simp at he; omega), List.nil_append]
  generalize hext : extOf chans env = ext at *
  generalize hw1 : s.world.run env = w1 at *
  have hpp := popPhaseM_spec c s.step (fun r => pending.filter (fun m => H.impact r m.header.senderUid))
    s.pops sc.pops e0 hnp hb.stI
  unfold flowStepM stepMulti
  simp only [r1.ep]
  rcases hfp : flowPopsM c s.step (fun r => pending.filter (fun m => H.impact r m.header.senderUid)) s.pops sc.pops with
    _ | (x | w | _)
  all_goals rw [hfp] at hpp; simp only at hpp ⊢
  · rw [hpp]
  · obtain ⟨ps', ss⟩ := x
    simp only at hpp ⊢
    obtain ⟨e2, y1, y2, y3, y4, y5⟩ := hpp
    rw [y1]
    simp only
    -- first exchange
    have hs2' : Same e0 (sendAll e2 (ss.map Message.spike)) := y3.trans (same_sendAll _ _)
    obtain ⟨z1, z2, z3⟩ := ready_set r1 hs2'
    have hq2 : outbox (w1.onEndpoint 0 (fun _ => sendAll e2 (ss.map Message.spike))) = ss.map .spike ++ ext := by
      rw [outbox_split _ z1.len, z2, sendAll_eq, y2, htoSend, List.nil_append]
      congr 1
      rw [← hrest, List.flatMap_def, List.flatMap_def]
      congr 1
      apply List.map_congr_left
      intro e _
      have := z3 (e + 1) (by omega)
      rw [sendAll_eq, y2, htoSend, List.nil_append] at this
      exact this
    obtain ⟨v1, v2⟩ := exchange_spec z1
    rw [hq2] at v1
    generalize hw3 : exchange (w1.onEndpoint 0 (fun _ => sendAll e2 (ss.map Message.spike))) = w3 at *
    rw [v1.ep]
    simp only
    have hsin : spikesIn (ss.map Message.spike ++ ext) = ss ++ spikesIn ext := by
      have := spikesIn_map (F := F) ss
      unfold spikesIn at this ⊢
      rw [List.filterMap_append, this]
    have himp : impactsIn (ss.map Message.spike ++ ext) = impactsIn ext := by
      have := impactsIn_spikes (F := F) ss
      unfold impactsIn at this ⊢
      rw [List.filterMap_append, this, List.nil_append]
    generalize he3 : absorbed (ss.map Message.spike ++ ext) (sendAll e2 (ss.map Message.spike)) = e3 at *
    have hear3 : ∀ k r x, hearsE e3 k r x = hearsE e0 k r x := by
      intro k r x; rw [← he3, hears_absorbed, hs2'.hears]
    have hs2 : ∀ j ∈ s.projs, storedE e3 .spike j.ident.uid =
        ((ss ++ spikesIn ext).filter (fun m => H.spike j.ident.uid m.header.senderUid)).map .spike := by
      intro j hj
      rw [← he3, (stored_exchange _ _ j.ident.uid).2, stored_sendAll, y4, hb.stS j hj, hsin]
      simp only [hs2'.hears, hb.hearS, List.nil_append]
    have hi2 : ∀ r, storedE e3 .impact r = storedE e2 .impact r ++
        ((impactsIn ext).filter (fun m => H.impact r m.header.senderUid)).map .impact := by
      intro r
      rw [← he3, (stored_exchange _ _ r).1, stored_sendAll, himp]
      simp only [hs2'.hears, hb.hearI]
    have hpj := projPhaseM_spec c s.step
      (fun r => (ss ++ spikesIn ext).filter (fun m => H.spike r m.header.senderUid)) s.projs sc.projs e3 hnj hs2
    rcases hfj : flowProjsM c s.step (fun r => (ss ++ spikesIn ext).filter (fun m => H.spike r m.header.senderUid)) s.projs
      sc.projs with _ | y
    all_goals rw [hfj] at hpj; simp only at hpj ⊢
    · rw [hpj]
    · obtain ⟨js', ims⟩ := y
      simp only at hpj ⊢
      obtain ⟨e4, u1, u2, u3, u4, u5⟩ := hpj
      rw [u1]
      simp only
      -- second exchange
      have hs4' : Same e3 (sendAll e4 (ims.map Message.impact)) := u3.trans (same_sendAll _ _)
      obtain ⟨a1, a2, a3⟩ := ready_set v1 hs4'
      have hq3 : outbox (w3.onEndpoint 0 (fun _ => sendAll e4 (ims.map Message.impact))) = ims.map .impact := by
        rw [outbox_split _ a1.len, a2, sendAll_eq, u2, ← he3]
        have : (List.range chans).flatMap (fun e => outboxOf (w3.onEndpoint 0 (fun _ => sendAll e4 (ims.map Message.impact))) (e + 1)) = [] := by
          rw [List.flatMap_eq_nil_iff]
          intro e _
          rw [a3 (e + 1) (by omega), v2]
        rw [sendAll_eq, u2, ← he3] at this
        rw [this, List.append_nil]
        rfl
      obtain ⟨b1, b2⟩ := exchange_spec a1
      rw [hq3] at b1
      have hpu := flowPopsM_uids _ _ _ _ _ _ _ hfp
      have hju := flowProjsM_uids _ _ _ _ _ _ _ hfj
      refine ⟨_, _, rfl, rfl, rfl, rfl, hpu, hju, ⟨b1, fun i _ => b2 i, ?_, ?_, ?_, ?_⟩⟩
      · intro r x; rw [hears_absorbed, hs4'.hears, hear3, hb.hearI]
      · intro r x; rw [hears_absorbed, hs4'.hears, hear3, hb.hearS]
      · intro p hp
        have hpm : p.uid ∈ s.pops.map (·.uid) := by
          rw [← hpu]; exact List.mem_map.2 ⟨p, hp, rfl⟩
        rw [(stored_exchange _ _ p.uid).1, stored_sendAll, u4, hi2, y5, if_pos hpm, impactsIn_map, List.filter_append,
          List.map_append]
        simp only [hs4'.hears, hear3, hb.hearI, List.nil_append]
      · intro j hj
        have hjm : j.ident.uid ∈ s.projs.map (·.ident.uid) := by
          rw [← hju]; exact List.mem_map.2 ⟨j, hj, rfl⟩
        rw [(stored_exchange _ _ j.ident.uid).2, stored_sendAll, u5, if_pos hjm, spikesIn_impacts]
        simp
  · rw [hpp]
  · rw [hpp]

theorem runM_spec {H : Hearing} {chans : Nat} (c : Config F) (envs : List (List (Op F) × Sched)) : ∀ (s : State N F)
    (pending : List (SynapticImpactMessage F)) (e0 : Endpoint F), Between H chans s pending e0 →
    (s.pops.map (·.uid)).Nodup → (s.projs.map (·.ident.uid)).Nodup → (∀ env ∈ envs, ∀ op ∈ env.1, Foreign chans op) →
    match flowRunM c H s.step s.pops s.projs pending (envs.map (fun e => (extOf chans e.1, e.2))) with
    | some (.ok (st, os)) => ∃ s', runMulti c s envs = some (.ok (s', os)) ∧ s'.pops = st.1 ∧ s'.projs = st.2 ∧
        s'.step = s.step + envs.length
    | some (.throw w) => runMulti c s envs = some (.throw w)
    | some .ub => runMulti c s envs = some .ub
    | none => runMulti c s envs = none := by
  induction envs with
  | nil => intro s pending e0 _ _ _ _; exact ⟨s, rfl, rfl, rfl, rfl⟩
  | cons env envs ih =>
    intro s pending e0 hb hnp hnj hf
    have hstep := stepM_spec c hb hnp hnj env.1 env.2 (hf env (by simp))
    rw [List.map_cons]
    unfold flowRunM runMulti
    simp only
    rcases hfs : flowStepM c H s.step s.pops s.projs pending (extOf chans env.1) env.2 with _ | (x | w | _)
    all_goals rw [hfs] at hstep; simp only at hstep ⊢
    · rw [hstep]
    · obtain ⟨st, o⟩ := x
      simp only at hstep ⊢
      obtain ⟨s', e', h1, h2, h3, h4, hu1, hu2, h5⟩ := hstep
      rw [h1]
      simp only
      have hrec := ih s' _ e' h5 (by rw [h2, hu1]; exact hnp) (by rw [h3, hu2]; exact hnj)
        (fun en he => hf en (by simp [he]))
      rw [h2, h3, h4] at hrec
      rcases hfr : flowRunM c H (s.step + 1) st.1 st.2 (impactsIn (extOf chans env.1) ++ o.impacts)
        (envs.map (fun e => (extOf chans e.1, e.2))) with _ | (z | w | _)
      all_goals rw [hfr] at hrec; simp only [hfr] at hrec ⊢
      · rw [hrec]
      · obtain ⟨st', os⟩ := z
        simp only at hrec ⊢
        obtain ⟨s'', k1, k2, k3, k4⟩ := hrec
        refine ⟨s'', by rw [k1], k2, k3, ?_⟩
        rw [k4, List.length_cons]
        omega
      · rw [hrec]
      · rw [hrec]
    · rw [hstep]
    · rw [hstep]

end Knp.Sys
