import Verif.Spec.Learn
import Verif.Lemmas.SystemBoot

/-! # Lemmas: the loop of a learning backend computes the dataflow -/

namespace Knp.Learn
open Knp Knp.Bus Knp.Spec Knp.Neurons Knp.Sys

variable {P J F : Type}

/-- Computing does not change UIDs. -/
structure Keeps (m : Machine P J F) : Prop where
  pop : ∀ t p js ms p1 js1 s, m.popStep t p js ms = .ok ((p1, js1), s) →
    m.popUid p1 = m.popUid p ∧ js1.map m.projUid = js.map m.projUid
  proj : ∀ t j ms, m.projUid (m.projStep t j ms).1 = m.projUid j

theorem popPhase_spec (m : Machine P J F) (t : Nat) (f : UID → List (SynapticImpactMessage F)) :
    ∀ (pops : List P) (js : List J) (e : Endpoint F),
    (pops.map m.popUid).Nodup → (∀ p ∈ pops, storedE e .impact (m.popUid p) = (f (m.popUid p)).map .impact) →
    match learnPops m t f pops js with
    | .ok ((ps', js'), ss) => ∃ e', popPhase m t e pops js =
          .ok ((e', ps', js'), pops.map (fun p => (m.popUid p, f (m.popUid p))), ss) ∧
        e'.toSend = e.toSend ++ ss.map .spike ∧ Same e e' ∧ (∀ r, storedE e' .spike r = storedE e .spike r) ∧
        (∀ r, storedE e' .impact r = if r ∈ pops.map m.popUid then [] else storedE e .impact r)
    | .throw w => popPhase m t e pops js = .throw w
    | .ub => popPhase m t e pops js = .ub := by
  intro pops
  induction pops with
  | nil =>
    intro js e _ _
    exact ⟨e, rfl, by simp, Same.refl e, fun _ => rfl, fun _ => by simp⟩
  | cons p ps ih =>
    intro js e hnd hst
    rw [List.map_cons, List.nodup_cons] at hnd
    have hp := hst p (by simp)
    have hin : impactsIn (e.unload .impact (m.popUid p)).2 = f (m.popUid p) := by rw [unload_snd, hp, impactsIn_map]
    unfold learnPops
    unfold popPhase
    simp only [hin]
    cases hs : m.popStep t p js (f (m.popUid p)) with
    | throw w => simp
    | ub => simp
    | ok r =>
      obtain ⟨⟨p1, js1⟩, s⟩ := r
      simp only
      generalize he1 : sendOpt (e.unload .impact (m.popUid p)).1 (s.map Message.spike) = e1
      have hs1 : ∀ k q, storedE e1 k q = if MsgKind.impact = k ∧ m.popUid p = q then [] else storedE e k q := by
        intro k q; rw [← he1, stored_sendOpt, stored_unload]
      have hst1 : ∀ q ∈ ps, storedE e1 .impact (m.popUid q) = (f (m.popUid q)).map .impact := by
        intro q hq
        rw [hs1, if_neg]
        · exact hst q (by simp [hq])
        · rintro ⟨_, h⟩
          exact hnd.1 (List.mem_map.2 ⟨q, hq, h.symm⟩)
      have hrec := ih js1 e1 hnd.2 hst1
      have hsame : Same e e1 := by rw [← he1]; exact (same_unload e .impact (m.popUid p)).trans (same_sendOpt _ _)
      have hts : e1.toSend = e.toSend ++ (s.map Message.spike).toList := by
        rw [← he1, (sendOpt_fields _ _).1, (unload_fields e .impact (m.popUid p)).1]
      cases hf : learnPops m t f ps js1 with
      | throw w => rw [hf] at hrec; simp only at hrec ⊢; rw [hrec]
      | ub => rw [hf] at hrec; simp only at hrec ⊢; rw [hrec]
      | ok x =>
        obtain ⟨⟨ps', js'⟩, ss⟩ := x
        rw [hf] at hrec
        simp only at hrec ⊢
        obtain ⟨e', h1, h2, h3, h4, h5⟩ := hrec
        refine ⟨e', by rw [h1]; rfl, ?_, hsame.trans h3, ?_, ?_⟩
        · rw [h2, hts]
          cases s <;> simp
        · intro q; rw [h4, hs1, if_neg (by simp)]
        · intro q
          rw [h5, hs1]
          by_cases hq : q ∈ ps.map m.popUid
          · simp [hq]
          · by_cases hpq : m.popUid p = q
            · simp [hpq]
            · have : ¬ q = m.popUid p := fun h => hpq h.symm
              rw [if_neg hq, if_neg (by simp [hpq]), if_neg (by simp only [List.map_cons, List.mem_cons, this, hq, or_self, not_false_eq_true])]

theorem projPhase_spec (m : Machine P J F) (t : Nat) (f : UID → List SpikeMessage) : ∀ (js : List J) (e : Endpoint F),
    (js.map m.projUid).Nodup → (∀ j ∈ js, storedE e .spike (m.projUid j) = (f (m.projUid j)).map .spike) →
    ∃ e', projPhase m t e js = ((e', js.map (fun j => (m.projStep t j (f (m.projUid j))).1)),
        js.map (fun j => (m.projUid j, f (m.projUid j))), js.flatMap (fun j => (m.projStep t j (f (m.projUid j))).2.toList)) ∧
      e'.toSend = e.toSend ++ (js.flatMap (fun j => (m.projStep t j (f (m.projUid j))).2.toList)).map .impact ∧ Same e e' ∧
      (∀ r, storedE e' .impact r = storedE e .impact r) ∧
      (∀ r, storedE e' .spike r = if r ∈ js.map m.projUid then [] else storedE e .spike r) := by
  intro js
  induction js with
  | nil => intro e _ _; exact ⟨e, rfl, by simp, Same.refl e, fun _ => rfl, fun _ => by simp⟩
  | cons j js ih =>
    intro e hnd hst
    rw [List.map_cons, List.nodup_cons] at hnd
    have hin : spikesIn (e.unload .spike (m.projUid j)).2 = f (m.projUid j) := by
      rw [unload_snd, hst j (by simp), spikesIn_map]
    unfold projPhase
    simp only [hin]
    generalize he1 : sendOpt (e.unload .spike (m.projUid j)).1
      ((m.projStep t j (f (m.projUid j))).2.map Message.impact) = e1
    have hs1 : ∀ k q, storedE e1 k q = if MsgKind.spike = k ∧ m.projUid j = q then [] else storedE e k q := by
      intro k q; rw [← he1, stored_sendOpt, stored_unload]
    obtain ⟨e', h1, h2, h3, h4, h5⟩ := ih e1 hnd.2 (by
      intro q hq
      rw [hs1, if_neg]
      · exact hst q (by simp [hq])
      · rintro ⟨_, h⟩
        exact hnd.1 (List.mem_map.2 ⟨q, hq, h.symm⟩))
    have hsame : Same e e1 := by rw [← he1]; exact (same_unload e .spike (m.projUid j)).trans (same_sendOpt _ _)
    have hts : e1.toSend = e.toSend ++ ((m.projStep t j (f (m.projUid j))).2.map Message.impact).toList := by
      rw [← he1, (sendOpt_fields _ _).1, (unload_fields e .spike (m.projUid j)).1]
    refine ⟨e', ?_, ?_, hsame.trans h3, ?_, ?_⟩
    · rw [h1]; rfl
    · rw [h2, hts, List.flatMap_cons, List.map_append, List.append_assoc]
      congr 1
      cases (m.projStep t j (f (m.projUid j))).2 <;> simp
    · intro q; rw [h4, hs1, if_neg (by simp)]
    · intro q
      rw [h5, hs1]
      by_cases hq : q ∈ js.map m.projUid
      · simp [hq]
      · by_cases hpq : m.projUid j = q
        · simp [hpq]
        · have : ¬ q = m.projUid j := fun h => hpq h.symm
          rw [if_neg hq, if_neg (by simp [hpq]), if_neg (by simp only [List.map_cons, List.mem_cons, this, hq, or_self, not_false_eq_true])]

/-! ## One step -/

/-- What holds between two steps. -/
structure Between (m : Machine P J F) (H : Hearing) (chans : Nat) (s : State P J F)
    (pending : List (SynapticImpactMessage F)) (e0 : Endpoint F) : Prop where
  ready : Ready chans s.world e0
  empty : ∀ i, i ≤ chans → outboxOf s.world i = []
  hearI : ∀ r x, hearsE e0 .impact r x = H.impact r x
  hearS : ∀ r x, hearsE e0 .spike r x = H.spike r x
  stI : ∀ p ∈ s.pops, storedE e0 .impact (m.popUid p) =
    (pending.filter (fun x => H.impact (m.popUid p) x.header.senderUid)).map .impact
  stS : ∀ j ∈ s.projs, storedE e0 .spike (m.projUid j) = []

theorem learnPops_uids {m : Machine P J F} (hk : Keeps m) (t : Nat) (f : UID → List (SynapticImpactMessage F)) :
    ∀ (ps : List P) (js : List J) (ps' : List P) (js' : List J) (ss : List SpikeMessage),
    learnPops m t f ps js = .ok ((ps', js'), ss) → ps'.map m.popUid = ps.map m.popUid ∧ js'.map m.projUid = js.map m.projUid := by
  intro ps
  induction ps with
  | nil =>
    intro js ps' js' ss h
    simp only [learnPops, Outcome.ok.injEq, Prod.mk.injEq] at h
    rw [← h.1.1, ← h.1.2]; exact ⟨rfl, rfl⟩
  | cons p ps ih =>
    intro js ps' js' ss h
    unfold learnPops at h
    cases h1 : m.popStep t p js (f (m.popUid p)) with
    | throw w => rw [h1] at h; cases h
    | ub => rw [h1] at h; cases h
    | ok r =>
      obtain ⟨⟨p1, js1⟩, s⟩ := r
      rw [h1] at h
      simp only at h
      cases h2 : learnPops m t f ps js1 with
      | throw w => rw [h2] at h; cases h
      | ub => rw [h2] at h; cases h
      | ok x =>
        obtain ⟨⟨qs, ks⟩, ss2⟩ := x
        rw [h2] at h
        simp only [Outcome.ok.injEq, Prod.mk.injEq] at h
        obtain ⟨k1, k2⟩ := hk.pop _ _ _ _ _ _ _ h1
        obtain ⟨i1, i2⟩ := ih js1 qs ks ss2 h2
        rw [← h.1.1, ← h.1.2]
        exact ⟨by simp [i1, k1], i2.trans k2⟩

theorem mem_uid_map {m : Machine P J F} (hk : Keeps m) (t : Nat) (g : J → List SpikeMessage) (js : List J) :
    (js.map (fun j => (m.projStep t j (g j)).1)).map m.projUid = js.map m.projUid := by
  rw [List.map_map]
  exact List.map_congr_left (fun j _ => hk.proj t j (g j))

theorem step_spec {m : Machine P J F} (hk : Keeps m) {H : Hearing} {chans : Nat} {s : State P J F}
    {pending : List (SynapticImpactMessage F)} {e0 : Endpoint F} (hb : Between m H chans s pending e0)
    (hnp : (s.pops.map m.popUid).Nodup) (hnj : (s.projs.map m.projUid).Nodup)
    (env : List (Op F)) (hf : ∀ op ∈ env, Foreign chans op) :
    match learnStep m H s.step s.pops s.projs pending (extOf chans env) with
    | .ok (st, o) => ∃ s' e', stepSingle m { s with world := s.world.run env } = .ok (s', o) ∧ s'.pops = st.1 ∧
        s'.projs = st.2 ∧ s'.step = s.step + 1 ∧ Between m H chans s' o.impacts e' ∧
        ∀ i, i ≠ 0 → s'.world.endpoint i = (((s.world.run env).endpoint i).map (routed (extOf chans env))).map
          (fun e => routed (o.impacts.map .impact) (routed (o.spikes.map .spike) e))
    | .throw w => stepSingle m { s with world := s.world.run env } = .throw w
    | .ub => stepSingle m { s with world := s.world.run env } = .ub := by
  obtain ⟨r1, _, r3⟩ := foreign_run env hb.ready hf
  -- first exchange
  have hq : outbox (s.world.run env) = extOf chans env := by
    rw [outbox_split _ r1.len, r3 0 (by omega), hb.empty 0 (by omega)]
    have h0 : sentVia 0 env = [] := by
      unfold sentVia
      rw [List.filterMap_eq_nil_iff]
      intro op hop
      have := hf op hop
      cases op with
      | send e m =>
        have h1 : 1 ≤ e ∧ e ≤ chans := this
        simp only
        rw [if_neg (by omega)]
      | _ => rfl
    rw [h0]
    simp only [List.append_nil, List.nil_append, extOf]
    rw [List.flatMap_def, List.flatMap_def]
    congr 1
    apply List.map_congr_left
    intro e he
    rw [r3 (e + 1) (by simp at he; omega), hb.empty (e + 1) (by simp at he; omega), List.nil_append]
  obtain ⟨x1, x2⟩ := exchange_spec r1
  have n1 : ∀ i, i ≠ 0 → (exchange (s.world.run env)).endpoint i =
      ((s.world.run env).endpoint i).map (routed (extOf chans env)) := by
    intro i hi; rw [endpoint_exchange r1.queue i hi, hq]
  rw [hq] at x1
  generalize hw1 : exchange (s.world.run env) = w1 at *
  generalize hext : extOf chans env = ext at *
  have g1 : ∀ p ∈ s.pops, storedE (absorbed ext e0) .impact (m.popUid p) =
      ((pending ++ impactsIn ext).filter (fun x => H.impact (m.popUid p) x.header.senderUid)).map .impact := by
    intro p hp
    rw [(stored_exchange ext e0 (m.popUid p)).1, hb.stI p hp, List.filter_append, List.map_append]
    simp only [hb.hearI]
  have g2 : ∀ u ∈ s.projs.map m.projUid, storedE (absorbed ext e0) .spike u =
      ((spikesIn ext).filter (fun x => H.spike u x.header.senderUid)).map .spike := by
    intro u hu
    obtain ⟨j, hj, rfl⟩ := List.mem_map.1 hu
    rw [(stored_exchange ext e0 (m.projUid j)).2, hb.stS j hj]
    simp only [hb.hearS, List.nil_append]
  have hpp := popPhase_spec m s.step (fun r => (pending ++ impactsIn ext).filter (fun x => H.impact r x.header.senderUid))
    s.pops s.projs (absorbed ext e0) hnp g1
  unfold learnStep stepSingle
  simp only [hw1, x1.ep]
  cases hfp : learnPops m s.step (fun r => (pending ++ impactsIn ext).filter (fun x => H.impact r x.header.senderUid))
      s.pops s.projs with
  | throw w => rw [hfp] at hpp; simp only at hpp ⊢; rw [hpp]
  | ub => rw [hfp] at hpp; simp only at hpp ⊢; rw [hpp]
  | ok x =>
    obtain ⟨⟨ps', js'⟩, ss⟩ := x
    obtain ⟨ku1, ku2⟩ := learnPops_uids hk _ _ _ _ _ _ _ hfp
    rw [hfp] at hpp
    simp only at hpp ⊢
    obtain ⟨e2, y1, y2, y3, y4, y5⟩ := hpp
    rw [y1]
    simp only
    have ht2 : e2.toSend = ss.map .spike := by
      rw [y2]; rfl
    -- second exchange
    obtain ⟨z1, z2, z3⟩ := ready_set x1 y3
    have hq2 : outbox (w1.onEndpoint 0 (fun _ => e2)) = ss.map .spike := by
      rw [outbox_split _ z1.len, z2, ht2]
      have : (List.range chans).flatMap (fun e => outboxOf (w1.onEndpoint 0 (fun _ => e2)) (e + 1)) = [] := by
        rw [List.flatMap_eq_nil_iff]
        intro e _
        rw [z3 (e + 1) (by omega), x2]
      rw [this, List.append_nil]
    obtain ⟨v1, v2⟩ := exchange_spec z1
    have n2 : ∀ i, i ≠ 0 → (exchange (w1.onEndpoint 0 (fun _ => e2))).endpoint i =
        (w1.endpoint i).map (routed (ss.map .spike)) := by
      intro i hi
      rw [endpoint_exchange z1.queue i hi, hq2, endpoint_onEndpoint, if_neg hi, Option.map_id]
      rfl
    rw [hq2] at v1
    generalize hw3 : exchange (w1.onEndpoint 0 (fun _ => e2)) = w3 at *
    rw [v1.ep]
    simp only
    have hs2 : ∀ j ∈ js', storedE (absorbed (ss.map Message.spike) e2) .spike (m.projUid j) =
        ((spikesIn ext ++ ss).filter (fun x => H.spike (m.projUid j) x.header.senderUid)).map .spike := by
      intro j hj
      have hj' : m.projUid j ∈ s.projs.map m.projUid := by rw [← ku2]; exact List.mem_map.2 ⟨j, hj, rfl⟩
      rw [(stored_exchange _ e2 (m.projUid j)).2, y4, g2 _ hj', spikesIn_map, List.filter_append, List.map_append]
      simp only [y3.hears, hears_absorbed, hb.hearS]
    obtain ⟨e4, u1, u2, u3, u4, u5⟩ := projPhase_spec m s.step
      (fun r => (spikesIn ext ++ ss).filter (fun x => H.spike r x.header.senderUid)) js'
      (absorbed (ss.map Message.spike) e2) (by rw [ku2]; exact hnj) hs2
    rw [u1]
    simp only
    generalize hims : js'.flatMap (fun j => (m.projStep s.step j
      ((spikesIn ext ++ ss).filter (fun x => H.spike (m.projUid j) x.header.senderUid))).2.toList) = ims at *
    -- third exchange
    obtain ⟨a1, a2, a3⟩ := ready_set v1 u3
    have hq3 : outbox (w3.onEndpoint 0 (fun _ => e4)) = ims.map .impact := by
      rw [outbox_split _ a1.len, a2, u2]
      have : (List.range chans).flatMap (fun e => outboxOf (w3.onEndpoint 0 (fun _ => e4)) (e + 1)) = [] := by
        rw [List.flatMap_eq_nil_iff]
        intro e _
        rw [a3 (e + 1) (by omega), v2]
      rw [this, List.append_nil]; rfl
    obtain ⟨b1, b2⟩ := exchange_spec a1
    have n3 : ∀ i, i ≠ 0 → (exchange (w3.onEndpoint 0 (fun _ => e4))).endpoint i =
        (w3.endpoint i).map (routed (ims.map .impact)) := by
      intro i hi
      rw [endpoint_exchange a1.queue i hi, hq3, endpoint_onEndpoint, if_neg hi, Option.map_id]
      rfl
    rw [hq3] at b1
    refine ⟨_, _, rfl, rfl, rfl, rfl, ⟨b1, fun i _ => b2 i, ?_, ?_, ?_, ?_⟩, ?_⟩
    · intro r x; rw [hears_absorbed, u3.hears, hears_absorbed, y3.hears, hears_absorbed, hb.hearI]
    · intro r x; rw [hears_absorbed, u3.hears, hears_absorbed, y3.hears, hears_absorbed, hb.hearS]
    · intro p hp
      have hpu : m.popUid p ∈ s.pops.map m.popUid := by
        rw [← ku1]; exact List.mem_map.2 ⟨p, hp, rfl⟩
      rw [(stored_exchange _ e4 (m.popUid p)).1, u4, (stored_exchange _ e2 (m.popUid p)).1, impactsIn_spikes, y5, if_pos hpu,
        impactsIn_map]
      simp only [u3.hears, hears_absorbed, y3.hears, hb.hearI, List.filter_nil, List.map_nil, List.append_nil, List.nil_append]
    · intro j hj
      have hju : m.projUid j ∈ js'.map m.projUid := by
        rw [← mem_uid_map hk s.step (fun j => (spikesIn ext ++ ss).filter (fun x => H.spike (m.projUid j) x.header.senderUid)) js']
        exact List.mem_map.2 ⟨j, hj, rfl⟩
      rw [(stored_exchange _ e4 (m.projUid j)).2, spikesIn_impacts, u5, if_pos hju]
      simp
    · intro i hi
      rw [n3 i hi, n2 i hi, n1 i hi]
      cases (s.world.run env).endpoint i <;> rfl

/-! ## Initialisation -/

theorem hears_stdp (u : UID) (xs : List UID) : ∀ e : Endpoint F, Quiet e →
    Quiet (xs.foldl (fun e x => if x ≠ 0 then e.subscribe .spike u [x] else e) e) ∧
    (∀ r s, hearsE (xs.foldl (fun e x => if x ≠ 0 then e.subscribe .spike u [x] else e) e) .impact r s = hearsE e .impact r s) ∧
    (∀ r s, hearsE (xs.foldl (fun e x => if x ≠ 0 then e.subscribe .spike u [x] else e) e) .spike r s =
      (hearsE e .spike r s || (decide (s ≠ 0) && (u == r && xs.contains s)))) := by
  induction xs with
  | nil => intro e h; exact ⟨h, fun _ _ => rfl, fun _ _ => by simp⟩
  | cons x xs ih =>
    intro e h
    rw [List.foldl_cons]
    by_cases hx : x = 0
    · rw [if_neg (by simpa using hx)]
      obtain ⟨h1, h2, h3⟩ := ih e h
      refine ⟨h1, h2, fun r s => ?_⟩
      rw [h3]
      congr 1
      by_cases hs : s = 0
      · simp [hs]
      · have : ¬ s = x := by rw [hx]; exact hs
        simp [this]
    · rw [if_pos hx]
      obtain ⟨h1, h2, h3⟩ := ih _ (quiet_subscribe h .spike u [x])
      refine ⟨h1, fun r s => ?_, fun r s => ?_⟩
      · rw [h2, hears_subscribe]; simp
      · rw [h3, hears_subscribe, Bool.or_assoc]
        congr 1
        rw [Bool.eq_iff_iff]
        simp only [true_and, Bool.or_eq_true, Bool.and_eq_true, decide_eq_true_eq, beq_iff_eq,
          List.contains_iff_mem, List.mem_cons, List.not_mem_nil, or_false]
        constructor
        · rintro (⟨h4, h5⟩ | ⟨h4, h5, h6⟩)
          · exact ⟨by rw [h5]; exact hx, h4, Or.inl h5⟩
          · exact ⟨h4, h5, Or.inr h6⟩
        · rintro ⟨h4, h5, h6 | h6⟩
          · exact Or.inl ⟨h5, h6⟩
          · exact Or.inr ⟨h4, h5, h6⟩

theorem hears_one (w : Load.Wire) (e : Endpoint F) (h : Quiet e) : Quiet (Load.wireOne e w) ∧
    (∀ r s, hearsE (Load.wireOne e w) .impact r s = (hearsE e .impact r s ||
      (decide (r ≠ 0) && (w.post == r && w.uid == s)))) ∧
    (∀ r s, hearsE (Load.wireOne e w) .spike r s = (hearsE e .spike r s ||
      (decide (s ≠ 0) && (w.uid == r && (w.pre == s || (w.isStdp && w.stdpPops.contains s)))))) := by
  have h1 : Quiet (Load.subscribeStdp e w) ∧ (∀ r s, hearsE (Load.subscribeStdp e w) .impact r s = hearsE e .impact r s) ∧
      (∀ r s, hearsE (Load.subscribeStdp e w) .spike r s = (hearsE e .spike r s ||
        (decide (s ≠ 0) && (w.uid == r && (w.isStdp && w.stdpPops.contains s))))) := by
    unfold Load.subscribeStdp
    cases hw : w.isStdp with
    | false => exact ⟨h, fun _ _ => rfl, fun _ _ => by simp⟩
    | true => simpa using hears_stdp w.uid w.stdpPops e h
  unfold Load.wireOne
  generalize Load.subscribeStdp e w = e1 at h1
  obtain ⟨a1, a2, a3⟩ := h1
  have h2 : Quiet (if w.pre ≠ 0 then e1.subscribe .spike w.uid [w.pre] else e1) ∧
      (∀ r s, hearsE (if w.pre ≠ 0 then e1.subscribe .spike w.uid [w.pre] else e1) .impact r s = hearsE e1 .impact r s) ∧
      (∀ r s, hearsE (if w.pre ≠ 0 then e1.subscribe .spike w.uid [w.pre] else e1) .spike r s = (hearsE e1 .spike r s ||
        (decide (s ≠ 0) && (w.uid == r && w.pre == s)))) := by
    by_cases hp : w.pre = 0
    · rw [if_neg (by simpa using hp)]
      refine ⟨a1, fun _ _ => rfl, fun r s => ?_⟩
      by_cases hs : s = 0
      · simp [hs]
      · have : ¬ 0 = s := fun h => hs h.symm
        simp [hp, this]
    · rw [if_pos hp]
      refine ⟨quiet_subscribe a1 _ _ _, fun r s => by rw [hears_subscribe]; simp, fun r s => ?_⟩
      rw [hears_subscribe]
      congr 1
      rw [Bool.eq_iff_iff]
      simp only [true_and, Bool.and_eq_true, decide_eq_true_eq, beq_iff_eq, List.mem_singleton]
      constructor
      · rintro ⟨h4, h5⟩; exact ⟨by rw [h5]; exact hp, h4, h5.symm⟩
      · rintro ⟨_, h4, h5⟩; exact ⟨h4, h5.symm⟩
  simp only
  generalize (if w.pre ≠ 0 then e1.subscribe .spike w.uid [w.pre] else e1) = e2 at h2
  obtain ⟨b1, b2, b3⟩ := h2
  have hsp : ∀ r s, hearsE e2 .spike r s = (hearsE e .spike r s ||
      (decide (s ≠ 0) && (w.uid == r && (w.pre == s || (w.isStdp && w.stdpPops.contains s))))) := by
    intro r s
    rw [b3, a3]
    cases hearsE e .spike r s <;> cases decide (s ≠ 0) <;> cases (w.uid == r) <;> cases (w.pre == s) <;>
      cases (w.isStdp && w.stdpPops.contains s) <;> rfl
  by_cases hp : w.post = 0
  · rw [if_neg (by simpa using hp)]
    refine ⟨b1, fun r s => ?_, hsp⟩
    rw [b2, a2]
    by_cases hr : r = 0
    · simp [hr]
    · have : ¬ 0 = r := fun h => hr h.symm
      simp [hp, this]
  · rw [if_pos hp]
    refine ⟨quiet_subscribe b1 _ _ _, fun r s => ?_, fun r s => ?_⟩
    · rw [hears_subscribe, b2, a2]
      congr 1
      rw [Bool.eq_iff_iff]
      simp only [true_and, Bool.and_eq_true, decide_eq_true_eq, beq_iff_eq, List.mem_singleton]
      constructor
      · rintro ⟨h4, h5⟩; exact ⟨by rw [← h4]; exact hp, h4, h5.symm⟩
      · rintro ⟨_, h4, h5⟩; exact ⟨h4, h5.symm⟩
    · rw [hears_subscribe, hsp]; simp

theorem hears_wires (ws : List Load.Wire) : ∀ e : Endpoint F, Quiet e → Quiet (Load.wireAll ws e) ∧
    (∀ r s, hearsE (Load.wireAll ws e) .impact r s = (hearsE e .impact r s ||
      (decide (r ≠ 0) && ws.any (fun w => w.post == r && w.uid == s)))) ∧
    (∀ r s, hearsE (Load.wireAll ws e) .spike r s = (hearsE e .spike r s ||
      (decide (s ≠ 0) && ws.any (fun w => w.uid == r && (w.pre == s || (w.isStdp && w.stdpPops.contains s)))))) := by
  induction ws with
  | nil => intro e h; exact ⟨h, fun _ _ => by simp [Load.wireAll], fun _ _ => by simp [Load.wireAll]⟩
  | cons w ws ih =>
    intro e h
    have hc : Load.wireAll (w :: ws) e = Load.wireAll ws (Load.wireOne e w) := rfl
    obtain ⟨a1, a2, a3⟩ := hears_one w e h
    obtain ⟨h1, h2, h3⟩ := ih _ a1
    rw [hc]
    refine ⟨h1, fun r s => ?_, fun r s => ?_⟩
    · rw [h2, a2, List.any_cons]
      cases hearsE e .impact r s <;> cases decide (r ≠ 0) <;> simp
    · rw [h3, a3, List.any_cons]
      cases hearsE e .spike r s <;> cases decide (s ≠ 0) <;> simp

/-- The subscriptions the loader and `_init` make. -/
def bootEp (ws : List Load.Wire) (inputs : List (UID × UID)) : Endpoint F :=
  Load.wireAll ws (inputs.foldl (fun e i => e.subscribe .spike i.1 [i.2]) Endpoint.fresh)

theorem boot_between (m : Machine P J F) (pops : List P) (projs : List J) (inputs : List (UID × UID)) (chans : Nat) :
    ∃ e0, Between m (hearingOfWires (projs.map m.wire) inputs) chans (boot m pops projs inputs chans) [] e0 := by
  have hw : (boot m pops projs inputs chans).world =
      ⟨⟨true, bootEp (projs.map m.wire) inputs⟩ :: List.replicate chans ⟨true, .fresh⟩, []⟩ := by
    unfold boot
    simp only
    rw [run_create, run_subscribe]
    simp only [World.init, List.nil_append, List.replicate_succ, World.onEndpoint, List.modify_zero_cons, bootEp]
    rfl
  obtain ⟨i1, i2, i3⟩ := inputs_spec inputs Endpoint.fresh (quiet_fresh (F := F))
  obtain ⟨w1, w2, w3⟩ := hears_wires (projs.map m.wire) _ i1
  have hbe : bootEp (projs.map m.wire) inputs = Load.wireAll (projs.map m.wire)
    (inputs.foldl (fun e i => e.subscribe .spike i.1 [i.2]) (Endpoint.fresh : Endpoint F)) := rfl
  rw [← hbe] at w1 w2 w3
  have hfr : ∀ k r s, hearsE (Endpoint.fresh : Endpoint F) k r s = false := fun _ _ _ => rfl
  have hep : ∀ i, (boot m pops projs inputs chans).world.endpoint (i + 1) = if i < chans then some .fresh else none := by
    intro i
    rw [hw]
    unfold World.endpoint
    simp only [List.getElem?_cons_succ, List.getElem?_replicate]
    by_cases h : i < chans
    · simp [h]
    · simp [h]
  have hep0 : (boot m pops projs inputs chans).world.endpoint 0 = some (bootEp (projs.map m.wire) inputs) := by
    rw [hw]; rfl
  refine ⟨bootEp (projs.map m.wire) inputs, ⟨⟨?_, ?_, ?_, hep0, w1.recv, w1.covered⟩, ?_, ?_, ?_, ?_, ?_⟩⟩
  · rw [hw]
  · rw [hw]; simp
  · intro i hi
    cases i with
    | zero => exact ⟨_, hep0⟩
    | succ i => rw [hep, if_pos (by omega)]; exact ⟨_, rfl⟩
  · intro i hi
    unfold outboxOf
    cases i with
    | zero => rw [hep0]; exact w1.toSend
    | succ i =>
      rw [hep]
      split <;> rfl
  · intro r x
    rw [w2, i2, hfr]
    simp [hearingOfWires]
  · intro r x
    rw [w3, i3, hfr]
    simp only [hearingOfWires, Bool.false_or]
    rw [Bool.or_comm]
  · intro p _
    exact w1.stored _ _
  · intro j _
    exact w1.stored _ _

/-- The run, from any state between two steps. -/
theorem run_spec {m : Machine P J F} (hk : Keeps m) {H : Hearing} {chans : Nat} (envs : List (List (Op F))) :
    ∀ (s : State P J F) (pending : List (SynapticImpactMessage F)) (e0 : Endpoint F), Between m H chans s pending e0 →
    (s.pops.map m.popUid).Nodup → (s.projs.map m.projUid).Nodup → (∀ env ∈ envs, ∀ op ∈ env, Foreign chans op) →
    match learnRun m H s.step s.pops s.projs pending (envs.map (extOf chans)) with
    | .ok (st, os) => ∃ s', runSingle m s envs = .ok (s', os) ∧ s'.pops = st.1 ∧ s'.projs = st.2 ∧ s'.step = s.step + envs.length
    | .throw w => runSingle m s envs = .throw w
    | .ub => runSingle m s envs = .ub := by
  induction envs with
  | nil => intro s pending e0 _ _ _ _; exact ⟨s, rfl, rfl, rfl, rfl⟩
  | cons env envs ih =>
    intro s pending e0 hb hnp hnj hf
    have hstep := step_spec hk hb hnp hnj env (hf env (by simp))
    rw [List.map_cons]
    unfold learnRun runSingle
    cases hfs : learnStep m H s.step s.pops s.projs pending (extOf chans env) with
    | throw w => rw [hfs] at hstep; simp only at hstep ⊢; rw [hstep]
    | ub => rw [hfs] at hstep; simp only at hstep ⊢; rw [hstep]
    | ok x =>
      obtain ⟨st, o⟩ := x
      rw [hfs] at hstep
      simp only at hstep ⊢
      obtain ⟨s', e', h1, h2, h3, h4, h5, _⟩ := hstep
      rw [h1]
      simp only
      have huids : st.1.map m.popUid = s.pops.map m.popUid ∧ st.2.map m.projUid = s.projs.map m.projUid := by
        unfold learnStep at hfs
        simp only at hfs
        cases hfp : learnPops m s.step (fun r => (pending ++ impactsIn (extOf chans env)).filter
            (fun x => H.impact r x.header.senderUid)) s.pops s.projs with
        | throw w => rw [hfp] at hfs; cases hfs
        | ub => rw [hfp] at hfs; cases hfs
        | ok y =>
          obtain ⟨⟨ps', js'⟩, ss⟩ := y
          obtain ⟨ku1, ku2⟩ := learnPops_uids hk _ _ _ _ _ _ _ hfp
          rw [hfp] at hfs
          simp only [Outcome.ok.injEq, Prod.mk.injEq] at hfs
          rw [← hfs.1]
          exact ⟨ku1, by rw [mem_uid_map hk, ku2]⟩
      have hrec := ih s' o.impacts e' h5 (by rw [h2, huids.1]; exact hnp) (by rw [h3, huids.2]; exact hnj)
        (fun en he => hf en (by simp [he]))
      rw [h2, h3, h4] at hrec
      cases hfr : learnRun m H (s.step + 1) st.1 st.2 o.impacts (envs.map (extOf chans)) with
      | throw w => rw [hfr] at hrec; simp only at hrec ⊢; rw [hrec]
      | ub => rw [hfr] at hrec; simp only at hrec ⊢; rw [hrec]
      | ok z =>
        obtain ⟨st', os⟩ := z
        rw [hfr] at hrec
        simp only at hrec ⊢
        obtain ⟨s'', k1, k2, k3, k4⟩ := hrec
        refine ⟨s'', by rw [k1], k2, k3, ?_⟩
        rw [k4, List.length_cons]
        omega

end Knp.Learn
