import Verif.Spec.LearnMulti
import Verif.Lemmas.Learn
import Verif.Lemmas.SystemMulti

/-! # Lemmas: the loop of the multi-threaded learning backend computes the dataflow -/

namespace Knp.Learn
open Knp Knp.Bus Knp.Spec Knp.Neurons Knp.Sys

variable {P J F : Type}

/-- Computing does not change UIDs. -/
structure KeepsM (m : Machine P J F) (th : Threads P J F) : Prop where
  compute : ∀ t p ms sc p1 s, th.compute t p ms sc = some (.ok (p1, s)) → m.popUid p1 = m.popUid p
  train : ∀ t p js s p1 js1, th.train t p js s = .ok (p1, js1) → m.popUid p1 = m.popUid p ∧ js1.map m.projUid = js.map m.projUid
  proj : ∀ t j ms o j1 s, th.projStep t j ms o = some (j1, s) → m.projUid j1 = m.projUid j

theorem computePhase_spec (m : Machine P J F) (th : Threads P J F) (t : Nat) (f : UID → List (SynapticImpactMessage F)) :
    ∀ (pops : List P) (scs : List (List Nat × List Nat)) (e : Endpoint F),
    (pops.map m.popUid).Nodup → (∀ p ∈ pops, storedE e .impact (m.popUid p) = (f (m.popUid p)).map .impact) →
    match computeAll m th t f pops scs with
    | some (.ok (ps', ss)) => ∃ e', computePhase m th t e pops scs =
          some (.ok (e', ps', pops.map (fun p => (m.popUid p, f (m.popUid p))), ss)) ∧
        e'.toSend = e.toSend ∧ Same e e' ∧ (∀ r, storedE e' .spike r = storedE e .spike r) ∧
        (∀ r, storedE e' .impact r = if r ∈ pops.map m.popUid then [] else storedE e .impact r)
    | some (.throw w) => computePhase m th t e pops scs = some (.throw w)
    | some .ub => computePhase m th t e pops scs = some .ub
    | none => computePhase m th t e pops scs = none := by
  intro pops
  induction pops with
  | nil =>
    intro scs e _ _
    cases scs with
    | nil => exact ⟨e, rfl, rfl, Same.refl e, fun _ => rfl, fun _ => by simp⟩
    | cons => rfl
  | cons p ps ih =>
    intro scs e hnd hst
    cases scs with
    | nil => rfl
    | cons sc scs =>
      rw [List.map_cons, List.nodup_cons] at hnd
      have hp := hst p (by simp)
      have hin : impactsIn (e.unload .impact (m.popUid p)).2 = f (m.popUid p) := by rw [unload_snd, hp, impactsIn_map]
      unfold computeAll computePhase
      simp only [hin]
      cases hs : th.compute t p (f (m.popUid p)) sc with
      | none => simp
      | some r0 =>
        cases r0 with
        | throw w => simp
        | ub => simp
        | ok r =>
          simp only
          generalize he1 : (e.unload .impact (m.popUid p)).1 = e1
          have hs1 : ∀ k q, storedE e1 k q = if MsgKind.impact = k ∧ m.popUid p = q then [] else storedE e k q := by
            intro k q; rw [← he1, stored_unload]
          have hst1 : ∀ q ∈ ps, storedE e1 .impact (m.popUid q) = (f (m.popUid q)).map .impact := by
            intro q hq
            rw [hs1, if_neg]
            · exact hst q (by simp [hq])
            · rintro ⟨_, h⟩
              exact hnd.1 (List.mem_map.2 ⟨q, hq, h.symm⟩)
          have hrec := ih scs e1 hnd.2 hst1
          have hsame : Same e e1 := by rw [← he1]; exact same_unload e .impact (m.popUid p)
          have hts : e1.toSend = e.toSend := by rw [← he1, (unload_fields e .impact (m.popUid p)).1]
          cases hf : computeAll m th t f ps scs with
          | none => rw [hf] at hrec; simp only at hrec ⊢; rw [hrec]
          | some x0 =>
            cases x0 with
            | throw w => rw [hf] at hrec; simp only at hrec ⊢; rw [hrec]
            | ub => rw [hf] at hrec; simp only at hrec ⊢; rw [hrec]
            | ok x =>
              obtain ⟨ps', ss⟩ := x
              rw [hf] at hrec
              simp only at hrec ⊢
              obtain ⟨e', h1, h2, h3, h4, h5⟩ := hrec
              refine ⟨e', by rw [h1]; rfl, h2.trans hts, hsame.trans h3, ?_, ?_⟩
              · intro q; rw [h4, hs1, if_neg (by simp)]
              · intro q
                rw [h5, hs1]
                by_cases hq : q ∈ ps.map m.popUid
                · simp [hq]
                · by_cases hpq : m.popUid p = q
                  · simp [hpq]
                  · have : ¬ q = m.popUid p := fun h => hpq h.symm
                    rw [if_neg hq, if_neg (by simp [hpq]), if_neg (by simp only [List.map_cons, List.mem_cons, this, hq, or_self, not_false_eq_true])]

theorem projPhaseM_spec (m : Machine P J F) (th : Threads P J F) (t : Nat) (f : UID → List SpikeMessage) : ∀ (js : List J)
    (os : List (List Nat)) (e : Endpoint F),
    (js.map m.projUid).Nodup → (∀ j ∈ js, storedE e .spike (m.projUid j) = (f (m.projUid j)).map .spike) →
    match projectAll m th t f js os with
    | some (js', ms) => ∃ e', projPhaseM m th t e js os = some (e', js', js.map (fun j => (m.projUid j, f (m.projUid j))), ms) ∧
        e'.toSend = e.toSend ∧ Same e e' ∧ (∀ r, storedE e' .impact r = storedE e .impact r) ∧
        (∀ r, storedE e' .spike r = if r ∈ js.map m.projUid then [] else storedE e .spike r)
    | none => projPhaseM m th t e js os = none := by
  intro js
  induction js with
  | nil =>
    intro os e _ _
    cases os with
    | nil => exact ⟨e, rfl, rfl, Same.refl e, fun _ => rfl, fun _ => by simp⟩
    | cons => rfl
  | cons j js ih =>
    intro os e hnd hst
    cases os with
    | nil => rfl
    | cons o os =>
      rw [List.map_cons, List.nodup_cons] at hnd
      have hin : spikesIn (e.unload .spike (m.projUid j)).2 = f (m.projUid j) := by
        rw [unload_snd, hst j (by simp), spikesIn_map]
      unfold projectAll projPhaseM
      simp only [hin]
      cases hs : th.projStep t j (f (m.projUid j)) o with
      | none => simp
      | some r =>
        simp only
        generalize he1 : (e.unload .spike (m.projUid j)).1 = e1
        have hs1 : ∀ k q, storedE e1 k q = if MsgKind.spike = k ∧ m.projUid j = q then [] else storedE e k q := by
          intro k q; rw [← he1, stored_unload]
        have hrec := ih os e1 hnd.2 (by
          intro q hq
          rw [hs1, if_neg]
          · exact hst q (by simp [hq])
          · rintro ⟨_, h⟩
            exact hnd.1 (List.mem_map.2 ⟨q, hq, h.symm⟩))
        have hsame : Same e e1 := by rw [← he1]; exact same_unload e .spike (m.projUid j)
        have hts : e1.toSend = e.toSend := by rw [← he1, (unload_fields e .spike (m.projUid j)).1]
        cases hf : projectAll m th t f js os with
        | none => rw [hf] at hrec; simp only at hrec ⊢; rw [hrec]
        | some x =>
          obtain ⟨js', ms⟩ := x
          rw [hf] at hrec
          simp only at hrec ⊢
          obtain ⟨e', h1, h2, h3, h4, h5⟩ := hrec
          refine ⟨e', by rw [h1]; rfl, h2.trans hts, hsame.trans h3, ?_, ?_⟩
          · intro q; rw [h4, hs1, if_neg (by simp)]
          · intro q
            rw [h5, hs1]
            by_cases hq : q ∈ js.map m.projUid
            · simp [hq]
            · by_cases hpq : m.projUid j = q
              · simp [hpq]
              · have : ¬ q = m.projUid j := fun h => hpq h.symm
                rw [if_neg hq, if_neg (by simp [hpq]), if_neg (by simp only [List.map_cons, List.mem_cons, this, hq, or_self, not_false_eq_true])]

theorem computeAll_uids {m : Machine P J F} {th : Threads P J F} (hk : KeepsM m th) (t : Nat)
    (f : UID → List (SynapticImpactMessage F)) : ∀ (ps : List P) (scs : List (List Nat × List Nat)) (ps' : List P)
    (ss : List (Option SpikeMessage)), computeAll m th t f ps scs = some (.ok (ps', ss)) →
    ps'.map m.popUid = ps.map m.popUid ∧ ss.length = ps.length := by
  intro ps
  induction ps with
  | nil =>
    intro scs ps' ss h
    cases scs with
    | nil =>
      simp only [computeAll, Option.some.injEq, Outcome.ok.injEq, Prod.mk.injEq] at h
      rw [← h.1, ← h.2]; exact ⟨rfl, rfl⟩
    | cons => simp [computeAll] at h
  | cons p ps ih =>
    intro scs ps' ss h
    cases scs with
    | nil => simp [computeAll] at h
    | cons sc scs =>
      unfold computeAll at h
      rcases h1 : th.compute t p (f (m.popUid p)) sc with _ | (r | w | _)
      all_goals rw [h1] at h; simp only at h
      · cases h
      · rcases h2 : computeAll m th t f ps scs with _ | (x | w | _)
        all_goals rw [h2] at h; simp only at h
        · cases h
        · obtain ⟨qs, ss2⟩ := x
          simp only [Option.some.injEq, Outcome.ok.injEq, Prod.mk.injEq] at h
          rw [← h.1, ← h.2]
          obtain ⟨i1, i2⟩ := ih scs qs ss2 h2
          exact ⟨by simp [i1, hk.compute _ _ _ _ _ _ h1], by simp [i2]⟩
        · cases h
        · cases h
      · cases h
      · cases h

theorem trainTask_uids {m : Machine P J F} {th : Threads P J F} (hk : KeepsM m th) (t : Nat) (ss : List (Option SpikeMessage))
    (st st' : List P × List J) (k : Nat) (h : trainTask th t ss st k = .ok st') :
    st'.1.map m.popUid = st.1.map m.popUid ∧ st'.2.map m.projUid = st.2.map m.projUid := by
  unfold trainTask at h
  cases hp : st.1[k]? with
  | none => rw [hp] at h; simp only [Outcome.ok.injEq] at h; rw [h]; exact ⟨rfl, rfl⟩
  | some p =>
    cases hs : ss[k]? with
    | none => rw [hp, hs] at h; simp only [Outcome.ok.injEq] at h; rw [h]; exact ⟨rfl, rfl⟩
    | some s =>
      rw [hp, hs] at h
      simp only at h
      cases ht : th.train t p st.2 s with
      | throw w => rw [ht] at h; cases h
      | ub => rw [ht] at h; cases h
      | ok r =>
        rw [ht] at h
        simp only [Outcome.ok.injEq] at h
        obtain ⟨k1, k2⟩ := hk.train _ _ _ _ _ _ ht
        rw [← h]
        refine ⟨?_, k2⟩
        simp only
        rw [List.map_set, k1]
        apply List.ext_getElem?
        intro n
        by_cases hn : k = n
        · subst hn
          have hl := (List.getElem?_eq_some_iff.1 hp).1
          rw [List.getElem?_set_self (by simpa using hl), List.getElem?_map, hp, Option.map_some]
        · rw [List.getElem?_set_ne hn]

theorem trainPhase_uids {m : Machine P J F} {th : Threads P J F} (hk : KeepsM m th) (t : Nat) (ss : List (Option SpikeMessage))
    (ps : List P) (js : List J) (order : List Nat) (st' : List P × List J)
    (h : trainPhase th t ss ps js order = some (.ok st')) :
    st'.1.map m.popUid = ps.map m.popUid ∧ st'.2.map m.projUid = js.map m.projUid := by
  unfold trainPhase at h
  split at h
  · rename_i hp
    clear hp
    simp only [Option.some.injEq] at h
    generalize hst : (ps, js) = st at h
    have e1 : ps = st.1 := by rw [← hst]
    have e2 : js = st.2 := by rw [← hst]
    rw [e1, e2]
    clear hst e1 e2
    induction order generalizing st with
    | nil => cases h; exact ⟨rfl, rfl⟩
    | cons k order ih =>
      rw [List.foldlM_cons] at h
      cases h1 : trainTask th t ss st k with
      | throw w => rw [h1] at h; cases h
      | ub => rw [h1] at h; cases h
      | ok st1 =>
        rw [h1, Outcome.bind_ok] at h
        obtain ⟨a1, a2⟩ := trainTask_uids hk t ss st st1 k h1
        obtain ⟨b1, b2⟩ := ih st1 h
        exact ⟨b1.trans a1, b2.trans a2⟩
  · cases h

theorem projectAll_uids {m : Machine P J F} {th : Threads P J F} (hk : KeepsM m th) (t : Nat) (f : UID → List SpikeMessage) :
    ∀ (js : List J) (os : List (List Nat)) (js' : List J) (ms : List (SynapticImpactMessage F)),
    projectAll m th t f js os = some (js', ms) → js'.map m.projUid = js.map m.projUid := by
  intro js
  induction js with
  | nil =>
    intro os js' ms h
    cases os with
    | nil => simp only [projectAll, Option.some.injEq, Prod.mk.injEq] at h; rw [← h.1]
    | cons => simp [projectAll] at h
  | cons j js ih =>
    intro os js' ms h
    cases os with
    | nil => simp [projectAll] at h
    | cons o os =>
      unfold projectAll at h
      rcases h1 : th.projStep t j (f (m.projUid j)) o with _ | r
      all_goals rw [h1] at h; simp only at h
      · cases h
      · rcases h2 : projectAll m th t f js os with _ | x
        all_goals rw [h2] at h; simp only at h
        · cases h
        · obtain ⟨qs, ss2⟩ := x
          simp only [Option.some.injEq, Prod.mk.injEq] at h
          rw [← h.1]
          simp [ih os qs ss2 h2, hk.proj _ _ _ _ _ _ h1]

/-- Routing messages at once or one part after the other. -/
theorem routed_append (a b : List (Message F)) (e : Endpoint F) : routed (b ++ a) e = routed b (routed a e) := by
  unfold routed
  simp [List.filter_append]

theorem stepM_spec {m : Machine P J F} {th : Threads P J F} (hk : KeepsM m th) {H : Hearing} {chans : Nat} {s : State P J F}
    {pending : List (SynapticImpactMessage F)} {e0 : Endpoint F}
    (hb : Between m H chans s pending e0) (hnp : (s.pops.map m.popUid).Nodup)
    (hnj : (s.projs.map m.projUid).Nodup) (env : List (Op F)) (sc : Sched) (hf : ∀ op ∈ env, Foreign chans op) :
    match learnStepM m th H s.step s.pops s.projs pending (extOf chans env) sc with
    | some (.ok (st, o)) => ∃ s' e', stepMulti m th { s with world := s.world.run env } sc = some (.ok (s', o)) ∧
        s'.pops = st.1 ∧ s'.projs = st.2 ∧ s'.step = s.step + 1 ∧ st.1.map m.popUid = s.pops.map m.popUid ∧
        st.2.map m.projUid = s.projs.map m.projUid ∧
        Between m H chans s' (impactsIn (extOf chans env) ++ o.impacts) e' ∧
        ∀ i, i ≠ 0 → s'.world.endpoint i = (((s.world.run env).endpoint i).map (routed (extOf chans env))).map
          (fun e => routed (o.impacts.map .impact) (routed (o.spikes.map .spike) e))
    | some (.throw w) => stepMulti m th { s with world := s.world.run env } sc = some (.throw w)
    | some .ub => stepMulti m th { s with world := s.world.run env } sc = some .ub
    | none => stepMulti m th { s with world := s.world.run env } sc = none := by
  obtain ⟨r1, _, r3⟩ := foreign_run env hb.ready hf
  have h0 : sentVia 0 env = [] := by
    unfold sentVia
    rw [List.filterMap_eq_nil_iff]
    intro op hop
    have := hf op hop
    cases op with
    | send e m =>
      have h1 : 1 ≤ e ∧ e ≤ chans := this
      simp only
      rw [if_neg (by omega)]
    | _ => rfl
  have hout0 : outboxOf (s.world.run env) 0 = [] := by
    rw [r3 0 (by omega), hb.empty 0 (by omega), h0]; rfl
  have htoSend : e0.toSend = [] := by
    unfold outboxOf at hout0
    rw [r1.ep] at hout0
    simpa using hout0
  have hrest : (List.range chans).flatMap (fun e => outboxOf (s.world.run env) (e + 1)) = extOf chans env := by
    unfold extOf
    rw [List.flatMap_def, List.flatMap_def]
    congr 1
    apply List.map_congr_left
    intro e he
    rw [r3 (e + 1) (by simp at he; omega), hb.empty (e + 1) (by simp at he; omega), List.nil_append]
  generalize hext : extOf chans env = ext at *
  generalize hw1 : s.world.run env = w1 at *
  have hpp := computePhase_spec m th s.step (fun r => pending.filter (fun x => H.impact r x.header.senderUid))
    s.pops sc.pops e0 hnp hb.stI
  unfold learnStepM stepMulti
  simp only [r1.ep]
  rcases hfp : computeAll m th s.step (fun r => pending.filter (fun x => H.impact r x.header.senderUid)) s.pops sc.pops with
    _ | (x | w | _)
  all_goals rw [hfp] at hpp; simp only at hpp ⊢
  · rw [hpp]
  · obtain ⟨ps1, ss0⟩ := x
    simp only at hpp ⊢
    obtain ⟨e2, y1, y2, y3, y4, y5⟩ := hpp
    rw [y1]
    simp only
    obtain ⟨cu, _⟩ := computeAll_uids hk _ _ _ _ _ _ hfp
    rcases htr : trainPhase th s.step ss0 ps1 s.projs sc.train with _ | (x | w | _)
    all_goals simp only
    · obtain ⟨ps', js0⟩ := x
      obtain ⟨tu, tj⟩ := trainPhase_uids hk _ _ _ _ _ _ htr
      simp only at tu tj ⊢
      generalize ss0.flatMap Option.toList = ss
      have hs2' : Same e0 (sendAll e2 (ss.map Message.spike)) := y3.trans (same_sendAll _ _)
      obtain ⟨z1, z2, z3⟩ := ready_set r1 hs2'
      have hq2 : outbox (w1.onEndpoint 0 (fun _ => sendAll e2 (ss.map Message.spike))) = ss.map .spike ++ ext := by
        rw [outbox_split _ z1.len, z2, sendAll_eq, y2, htoSend, List.nil_append]
        congr 1
        rw [← hrest, List.flatMap_def, List.flatMap_def]
        congr 1
        apply List.map_congr_left
        intro e _
        have := z3 (e + 1) (by omega)
        rw [sendAll_eq, y2, htoSend, List.nil_append] at this
        exact this
      obtain ⟨v1, v2⟩ := exchange_spec z1
      have n2 : ∀ i, i ≠ 0 → (exchange (w1.onEndpoint 0 (fun _ => sendAll e2 (ss.map Message.spike)))).endpoint i =
          (w1.endpoint i).map (routed (ss.map .spike ++ ext)) := by
        intro i hi
        rw [endpoint_exchange z1.queue i hi, hq2, endpoint_onEndpoint, if_neg hi, Option.map_id]
        rfl
      rw [hq2] at v1
      generalize hw3 : exchange (w1.onEndpoint 0 (fun _ => sendAll e2 (ss.map Message.spike))) = w3 at *
      rw [v1.ep]
      simp only
      have hsin : spikesIn (ss.map Message.spike ++ ext) = ss ++ spikesIn ext := by
        have := spikesIn_map (F := F) ss
        unfold spikesIn at this ⊢
        rw [List.filterMap_append, this]
      have himp : impactsIn (ss.map Message.spike ++ ext) = impactsIn ext := by
        have := impactsIn_spikes (F := F) ss
        unfold impactsIn at this ⊢
        rw [List.filterMap_append, this, List.nil_append]
      generalize he3 : absorbed (ss.map Message.spike ++ ext) (sendAll e2 (ss.map Message.spike)) = e3 at *
      have hear3 : ∀ k r x, hearsE e3 k r x = hearsE e0 k r x := by
        intro k r x; rw [← he3, hears_absorbed, hs2'.hears]
      have hs2 : ∀ j ∈ js0, storedE e3 .spike (m.projUid j) =
          ((ss ++ spikesIn ext).filter (fun x => H.spike (m.projUid j) x.header.senderUid)).map .spike := by
        intro j hj
        have hj' : m.projUid j ∈ s.projs.map m.projUid := by rw [← tj]; exact List.mem_map.2 ⟨j, hj, rfl⟩
        obtain ⟨j0, hj0, hu0⟩ := List.mem_map.1 hj'
        rw [← hu0, ← he3, (stored_exchange _ _ (m.projUid j0)).2, stored_sendAll, y4, hb.stS j0 hj0, hsin]
        simp only [hs2'.hears, hb.hearS, List.nil_append]
      have hi2 : ∀ r, storedE e3 .impact r = storedE e2 .impact r ++
          ((impactsIn ext).filter (fun x => H.impact r x.header.senderUid)).map .impact := by
        intro r
        rw [← he3, (stored_exchange _ _ r).1, stored_sendAll, himp]
        simp only [hs2'.hears, hb.hearI]
      have hpj := projPhaseM_spec m th s.step
        (fun r => (ss ++ spikesIn ext).filter (fun x => H.spike r x.header.senderUid)) js0 sc.projs e3 (by rw [tj]; exact hnj) hs2
      rcases hfj : projectAll m th s.step (fun r => (ss ++ spikesIn ext).filter (fun x => H.spike r x.header.senderUid)) js0
        sc.projs with _ | y
      all_goals rw [hfj] at hpj; simp only at hpj ⊢
      · rw [hpj]
      · obtain ⟨js', ims⟩ := y
        simp only at hpj ⊢
        obtain ⟨e4, u1, u2, u3, u4, u5⟩ := hpj
        rw [u1]
        simp only
        have hs4' : Same e3 (sendAll e4 (ims.map Message.impact)) := u3.trans (same_sendAll _ _)
        obtain ⟨a1, a2, a3⟩ := ready_set v1 hs4'
        have hq3 : outbox (w3.onEndpoint 0 (fun _ => sendAll e4 (ims.map Message.impact))) = ims.map .impact := by
          rw [outbox_split _ a1.len, a2, sendAll_eq, u2, ← he3]
          have : (List.range chans).flatMap (fun e => outboxOf (w3.onEndpoint 0 (fun _ => sendAll e4 (ims.map Message.impact))) (e + 1)) = [] := by
            rw [List.flatMap_eq_nil_iff]
            intro e _
            rw [a3 (e + 1) (by omega), v2]
          rw [sendAll_eq, u2, ← he3] at this
          rw [this, List.append_nil]
          rfl
        obtain ⟨b1, b2⟩ := exchange_spec a1
        have n3 : ∀ i, i ≠ 0 → (exchange (w3.onEndpoint 0 (fun _ => sendAll e4 (ims.map Message.impact)))).endpoint i =
            (w3.endpoint i).map (routed (ims.map .impact)) := by
          intro i hi
          rw [endpoint_exchange a1.queue i hi, hq3, endpoint_onEndpoint, if_neg hi, Option.map_id]
          rfl
        rw [hq3] at b1
        have hju := projectAll_uids hk _ _ _ _ _ _ hfj
        have hpu := tu.trans cu
        refine ⟨_, _, rfl, rfl, rfl, rfl, hpu, hju.trans tj, ⟨b1, fun i _ => b2 i, ?_, ?_, ?_, ?_⟩, ?_⟩
        · intro r x; rw [hears_absorbed, hs4'.hears, hear3, hb.hearI]
        · intro r x; rw [hears_absorbed, hs4'.hears, hear3, hb.hearS]
        · intro p hp
          have hpm : m.popUid p ∈ s.pops.map m.popUid := by
            rw [← hpu]; exact List.mem_map.2 ⟨p, hp, rfl⟩
          rw [(stored_exchange _ _ (m.popUid p)).1, stored_sendAll, u4, hi2, y5, if_pos hpm, impactsIn_map, List.filter_append,
            List.map_append]
          simp only [hs4'.hears, hear3, hb.hearI, List.nil_append]
        · intro j hj
          have hjm : m.projUid j ∈ js0.map m.projUid := by
            rw [← hju]; exact List.mem_map.2 ⟨j, hj, rfl⟩
          rw [(stored_exchange _ _ (m.projUid j)).2, stored_sendAll, u5, if_pos hjm, spikesIn_impacts]
          simp
        · intro i hi
          rw [n3 i hi, n2 i hi]
          cases w1.endpoint i with
          | none => rfl
          | some e => simp only [Option.map_some, routed_append]
  · rw [hpp]
  · rw [hpp]

theorem runM_spec {m : Machine P J F} {th : Threads P J F} (hk : KeepsM m th) {H : Hearing} {chans : Nat}
    (envs : List (List (Op F) × Sched)) : ∀ (s : State P J F)
    (pending : List (SynapticImpactMessage F)) (e0 : Endpoint F), Between m H chans s pending e0 →
    (s.pops.map m.popUid).Nodup → (s.projs.map m.projUid).Nodup → (∀ env ∈ envs, ∀ op ∈ env.1, Foreign chans op) →
    match learnRunM m th H s.step s.pops s.projs pending (envs.map (fun e => (extOf chans e.1, e.2))) with
    | some (.ok (st, os)) => ∃ s', runMulti m th s envs = some (.ok (s', os)) ∧ s'.pops = st.1 ∧ s'.projs = st.2 ∧
        s'.step = s.step + envs.length
    | some (.throw w) => runMulti m th s envs = some (.throw w)
    | some .ub => runMulti m th s envs = some .ub
    | none => runMulti m th s envs = none := by
  induction envs with
  | nil => intro s pending e0 _ _ _ _; exact ⟨s, rfl, rfl, rfl, rfl⟩
  | cons env envs ih =>
    intro s pending e0 hb hnp hnj hf
    have hstep := stepM_spec hk hb hnp hnj env.1 env.2 (hf env (by simp))
    rw [List.map_cons]
    unfold learnRunM runMulti
    simp only
    rcases hfs : learnStepM m th H s.step s.pops s.projs pending (extOf chans env.1) env.2 with _ | (x | w | _)
    all_goals rw [hfs] at hstep; simp only at hstep ⊢
    · rw [hstep]
    · obtain ⟨st, o⟩ := x
      simp only at hstep ⊢
      obtain ⟨s', e', h1, h2, h3, h4, hu1, hu2, h5, _⟩ := hstep
      rw [h1]
      simp only
      have hrec := ih s' _ e' h5 (by rw [h2, hu1]; exact hnp) (by rw [h3, hu2]; exact hnj)
        (fun en he => hf en (by simp [he]))
      rw [h2, h3, h4] at hrec
      rcases hfr : learnRunM m th H (s.step + 1) st.1 st.2 (impactsIn (extOf chans env.1) ++ o.impacts)
        (envs.map (fun e => (extOf chans e.1, e.2))) with _ | (z | w | _)
      all_goals rw [hfr] at hrec; simp only [hfr] at hrec ⊢
      · rw [hrec]
      · obtain ⟨st', os⟩ := z
        simp only at hrec ⊢
        obtain ⟨s'', k1, k2, k3, k4⟩ := hrec
        refine ⟨s'', by rw [k1], k2, k3, ?_⟩
        rw [k4, List.length_cons]
        omega
      · rw [hrec]
      · rw [hrec]
    · rw [hstep]
    · rw [hstep]

end Knp.Learn
