import Verif.Spec.System
import Verif.Lemmas.Bus

/-! # Lemmas: the backend's endpoint through a step -/

namespace Knp.Sys
open Knp Knp.Bus Knp.Spec Knp.Neurons

variable {N F : Type}

/-- Messages stored for `(k, r)`. -/
def storedE (e : Endpoint F) (k : MsgKind) (r : UID) : List (Message F) := ((e.findSub k r).map (·.messages)).getD []

/-- `(k, r)` listens to `s`. -/
def hearsE (e : Endpoint F) (k : MsgKind) (r s : UID) : Bool := ((e.findSub k r).map (fun x => x.senders.contains s)).getD false

/-- Same senders and received messages; coverage is kept. -/
structure Same (e e' : Endpoint F) : Prop where
  recv : e'.recv = e.recv
  hears : ∀ k r s, hearsE e' k r s = hearsE e k r s
  covered : Covered e → Covered e'

theorem Same.refl (e : Endpoint F) : Same e e := ⟨rfl, fun _ _ _ => rfl, id⟩

theorem Same.trans {a b c : Endpoint F} (h : Same a b) (g : Same b c) : Same a c :=
  ⟨g.recv.trans h.recv, fun k r s => (g.hears k r s).trans (h.hears k r s), fun x => g.covered (h.covered x)⟩

/-! ## unload, send -/

theorem unload_snd (e : Endpoint F) (k : MsgKind) (r : UID) : (e.unload k r).2 = storedE e k r := by
  unfold Endpoint.unload storedE
  cases e.findSub k r <;> rfl

theorem findSub_unload (e : Endpoint F) (k k' : MsgKind) (r r' : UID) : (e.unload k r).1.findSub k' r' =
    if k = k' ∧ r = r' then (e.findSub k' r').map (fun s => { s with messages := [] }) else e.findSub k' r' := by
  unfold Endpoint.unload
  cases h : e.findSub k r with
  | none =>
    simp only
    split
    · rename_i hk
      obtain ⟨rfl, rfl⟩ := hk
      rw [h]; rfl
    · rfl
  | some s =>
    simp only
    rw [findSub_modify e k' k r' r (fun s => { s with messages := [] }) (fun _ => rfl) (fun _ => rfl)]

theorem stored_unload (e : Endpoint F) (k k' : MsgKind) (r r' : UID) : storedE (e.unload k r).1 k' r' =
    if k = k' ∧ r = r' then [] else storedE e k' r' := by
  unfold storedE
  rw [findSub_unload]
  split
  · cases e.findSub k' r' <;> rfl
  · rfl

theorem unload_fields (e : Endpoint F) (k : MsgKind) (r : UID) :
    (e.unload k r).1.toSend = e.toSend ∧ (e.unload k r).1.recv = e.recv := by
  unfold Endpoint.unload
  cases e.findSub k r <;> exact ⟨rfl, rfl⟩

theorem same_unload (e : Endpoint F) (k : MsgKind) (r : UID) : Same e (e.unload k r).1 := by
  refine ⟨(unload_fields e k r).2, ?_, ?_⟩
  · intro k' r' s
    unfold hearsE
    rw [findSub_unload]
    split
    · cases e.findSub k' r' <;> rfl
    · rfl
  · intro h
    unfold Endpoint.unload
    cases e.findSub k r with
    | none => exact h
    | some s =>
      refine covered_map h (fun s => if s.hasKey k r then { s with messages := [] } else s) ?_ _ _
      intro s u hu
      split at hu <;> exact hu

theorem sendOpt_fields (e : Endpoint F) (m : Option (Message F)) :
    (sendOpt e m).toSend = e.toSend ++ m.toList ∧ (sendOpt e m).recv = e.recv ∧ (sendOpt e m).subs = e.subs ∧
    (sendOpt e m).senders = e.senders := by
  cases m <;> simp [sendOpt, Endpoint.send]

theorem findSub_sendOpt (e : Endpoint F) (m : Option (Message F)) (k : MsgKind) (r : UID) :
    (sendOpt e m).findSub k r = e.findSub k r := by
  cases m <;> rfl

theorem stored_sendOpt (e : Endpoint F) (m : Option (Message F)) (k : MsgKind) (r : UID) :
    storedE (sendOpt e m) k r = storedE e k r := by
  unfold storedE; rw [findSub_sendOpt]

theorem same_sendOpt (e : Endpoint F) (m : Option (Message F)) : Same e (sendOpt e m) := by
  refine ⟨(sendOpt_fields e m).2.1, ?_, ?_⟩
  · intro k r s; unfold hearsE; rw [findSub_sendOpt]
  · intro h; cases m <;> exact h

/-! ## Exchange -/

/-- All endpoints alive, nothing in transit to the backend. -/
structure Ready (chans : Nat) (w : World F) (e0 : Endpoint F) : Prop where
  queue : w.queue = []
  len : w.slots.length = chans + 1
  alive : ∀ i, i ≤ chans → ∃ e, w.endpoint i = some e
  ep : w.endpoint 0 = some e0
  recv : e0.recv = []
  covered : Covered e0

/-- Endpoint 0 after `exchange` when `q` is sent. -/
def absorbed (q : List (Message F)) (e : Endpoint F) : Endpoint F :=
  { e with toSend := [], subs := e.subs.map (absorb q) }

/-- The other endpoints during `exchange`. -/
theorem endpoint_exchange {w : World F} (h : w.queue = []) (i : Nat) (hi : i ≠ 0) :
    (exchange w).endpoint i = (w.endpoint i).map (routed (outbox w)) := by
  unfold exchange
  rw [endpoint_onEndpoint]
  have := endpoint_route w i
  rw [update_queue w h] at this
  rw [← this, if_neg hi, Option.map_id]
  rfl

theorem exchange_spec {chans : Nat} {w : World F} {e0 : Endpoint F} (h : Ready chans w e0) :
    Ready chans (exchange w) (absorbed (outbox w) e0) ∧ ∀ i, outboxOf (exchange w) i = [] := by
  have hq : w.update.queue = outbox w := update_queue w h.queue
  have he : ∀ i, (exchange w).endpoint i = ((w.endpoint i).map (routed (outbox w))).map
      (if i = 0 then (fun e => e.receiveAll.1) else id) := by
    intro i
    unfold exchange
    rw [endpoint_onEndpoint]
    have := endpoint_route w i
    rw [hq] at this
    rw [← this]
    rfl
  have hep : (exchange w).endpoint 0 = some (absorbed (outbox w) e0) := by
    rw [he 0, h.ep]
    simp only [Option.map_some, if_true, receiveAll_eq, routed, h.recv, List.nil_append]
    congr 1
    unfold absorbed
    congr 1
    · apply List.map_congr_left
      intro s hs
      rw [← List.filter_reverse, List.reverse_reverse]
      unfold absorb
      congr 2
      rw [List.filter_filter]
      apply List.filter_congr
      intro m _
      cases ha : accepts s m with
      | false => rfl
      | true =>
        have hw := ((accepts_iff s m).1 ha).2
        have := h.covered s hs _ hw
        simpa using this
    · exact h.recv.symm
  refine ⟨⟨?_, ?_, ?_, hep, h.recv, ?_⟩, ?_⟩
  · unfold exchange World.onEndpoint
    simp only
    rw [route_eq]
  · unfold exchange
    rw [slots_length_onEndpoint, route_eq]
    simp [World.update, h.len]
  · intro i hi
    obtain ⟨e, h1⟩ := h.alive i hi
    rw [he i, h1]
    exact ⟨_, rfl⟩
  · have := covered_map h.covered (absorb (outbox w)) (fun s u hu => hu) e0.recv []
    exact this
  · intro i
    unfold outboxOf
    rw [he i]
    cases w.endpoint i with
    | none => rfl
    | some e =>
      by_cases h0 : i = 0
      · simp [h0, receiveAll_eq, routed]
      · simp [h0, routed]

theorem findSub_absorbed (q : List (Message F)) (e : Endpoint F) (k : MsgKind) (r : UID) :
    (absorbed q e).findSub k r = (e.findSub k r).map (absorb q) := by
  have := findSub_absorb e q k r
  exact this

theorem stored_absorbed (q : List (Message F)) (e : Endpoint F) (k : MsgKind) (r : UID) :
    storedE (absorbed q e) k r = storedE e k r ++ q.filter (fun m => m.kind == k && hearsE e k r m.sender) := by
  unfold storedE hearsE
  rw [findSub_absorbed]
  cases h : e.findSub k r with
  | none => simp
  | some s =>
    obtain ⟨hk, hr⟩ := findSub_key h
    simp only [Option.map_some, Option.getD_some, absorb]
    congr 1
    apply List.filter_congr
    intro m _
    unfold accepts Subscr.hasSender
    rw [hk]
    cases k <;> cases m.kind <;> rfl

theorem hears_absorbed (q : List (Message F)) (e : Endpoint F) (k : MsgKind) (r s : UID) :
    hearsE (absorbed q e) k r s = hearsE e k r s := by
  unfold hearsE
  rw [findSub_absorbed]
  cases e.findSub k r <;> rfl

/-! ## The two phases -/

theorem impactsIn_map (l : List (SynapticImpactMessage F)) : impactsIn (l.map Message.impact) = l := by
  unfold impactsIn
  induction l with
  | nil => rfl
  | cons a l ih => simp [ih]

theorem spikesIn_map (l : List SpikeMessage) : spikesIn (F := F) (l.map Message.spike) = l := by
  unfold spikesIn
  induction l with
  | nil => rfl
  | cons a l ih => simp [ih]

theorem popPhase_spec (t : Nat) (f : UID → List (SynapticImpactMessage F)) : ∀ (pops : List (PopSt N F)) (e : Endpoint F),
    (pops.map (·.uid)).Nodup → (∀ p ∈ pops, storedE e .impact p.uid = (f p.uid).map .impact) →
    match flowPops t f pops with
    | .ok (ps', ss) => ∃ e', popPhase t e pops = .ok (e', ps', pops.map (fun p => (p.uid, f p.uid)), ss) ∧
        e'.toSend = e.toSend ++ ss.map .spike ∧ Same e e' ∧ (∀ r, storedE e' .spike r = storedE e .spike r) ∧
        (∀ r, storedE e' .impact r = if r ∈ pops.map (·.uid) then [] else storedE e .impact r)
    | .throw w => popPhase t e pops = .throw w
    | .ub => popPhase t e pops = .ub := by
  intro pops
  induction pops with
  | nil =>
    intro e _ _
    exact ⟨e, rfl, by simp, Same.refl e, fun _ => rfl, fun _ => by simp⟩
  | cons p ps ih =>
    intro e hnd hst
    rw [List.map_cons, List.nodup_cons] at hnd
    have hp := hst p (by simp)
    have hin : impactsIn (e.unload .impact p.uid).2 = f p.uid := by rw [unload_snd, hp, impactsIn_map]
    unfold flowPops
    unfold popPhase calcPop
    simp only [hin]
    cases hs : stepPopulation p.kind p.uid t p.neurons (f p.uid) with
    | throw w => simp
    | ub => simp
    | ok r =>
      simp only
      generalize he1 : sendOpt (e.unload .impact p.uid).1 (r.2.map Message.spike) = e1
      have hs1 : ∀ k q, storedE e1 k q = if MsgKind.impact = k ∧ p.uid = q then [] else storedE e k q := by
        intro k q; rw [← he1, stored_sendOpt, stored_unload]
      have hst1 : ∀ q ∈ ps, storedE e1 .impact q.uid = (f q.uid).map .impact := by
        intro q hq
        rw [hs1, if_neg]
        · exact hst q (by simp [hq])
        · rintro ⟨_, h⟩
          exact hnd.1 (List.mem_map.2 ⟨q, hq, h.symm⟩)
      have hrec := ih e1 hnd.2 hst1
      have hsame : Same e e1 := by rw [← he1]; exact (same_unload e .impact p.uid).trans (same_sendOpt _ _)
      have hts : e1.toSend = e.toSend ++ (r.2.map Message.spike).toList := by
        rw [← he1, (sendOpt_fields _ _).1, (unload_fields e .impact p.uid).1]
      cases hf : flowPops t f ps with
      | throw w => rw [hf] at hrec; simp only at hrec ⊢; rw [hrec]
      | ub => rw [hf] at hrec; simp only at hrec ⊢; rw [hrec]
      | ok x =>
        obtain ⟨ps', ss⟩ := x
        rw [hf] at hrec
        simp only at hrec ⊢
        obtain ⟨e', h1, h2, h3, h4, h5⟩ := hrec
        refine ⟨e', by rw [h1]; rfl, ?_, hsame.trans h3, ?_, ?_⟩
        · rw [h2, hts]
          cases r.2 <;> simp
        · intro q; rw [h4, hs1, if_neg (by simp)]
        · intro q
          rw [h5, hs1]
          by_cases hq : q ∈ ps.map (·.uid)
          · simp [hq]
          · by_cases hpq : p.uid = q
            · simp [hpq]
            · have : ¬ q = p.uid := fun h => hpq h.symm
              rw [if_neg hq, if_neg (by simp [hpq]), if_neg (by simp only [List.map_cons, List.mem_cons, this, hq, or_self, not_false_eq_true])]

theorem projPhase_spec (t : Nat) (f : UID → List SpikeMessage) : ∀ (js : List (ProjSt F)) (e : Endpoint F),
    (js.map (·.ident.uid)).Nodup → (∀ j ∈ js, storedE e .spike j.ident.uid = (f j.ident.uid).map .spike) →
    ∃ e', projPhase t e js = (e', js.map (fun j => (flowProj t j (f j.ident.uid)).2),
        js.map (fun j => (j.ident.uid, f j.ident.uid)), js.flatMap (fun j => (flowProj t j (f j.ident.uid)).1.toList)) ∧
      e'.toSend = e.toSend ++ (js.flatMap (fun j => (flowProj t j (f j.ident.uid)).1.toList)).map .impact ∧ Same e e' ∧
      (∀ r, storedE e' .impact r = storedE e .impact r) ∧
      (∀ r, storedE e' .spike r = if r ∈ js.map (·.ident.uid) then [] else storedE e .spike r) := by
  intro js
  induction js with
  | nil => intro e _ _; exact ⟨e, rfl, by simp, Same.refl e, fun _ => rfl, fun _ => by simp⟩
  | cons j js ih =>
    intro e hnd hst
    rw [List.map_cons, List.nodup_cons] at hnd
    have hin : spikesIn (e.unload .spike j.ident.uid).2 = f j.ident.uid := by
      rw [unload_snd, hst j (by simp), spikesIn_map]
    unfold projPhase calcProj
    simp only [hin]
    generalize he1 : sendOpt (e.unload .spike j.ident.uid).1
      ((Delta.stepSingle j.ident j.proj t j.queue (f j.ident.uid)).1.map Message.impact) = e1
    have hs1 : ∀ k q, storedE e1 k q = if MsgKind.spike = k ∧ j.ident.uid = q then [] else storedE e k q := by
      intro k q; rw [← he1, stored_sendOpt, stored_unload]
    obtain ⟨e', h1, h2, h3, h4, h5⟩ := ih e1 hnd.2 (by
      intro q hq
      rw [hs1, if_neg]
      · exact hst q (by simp [hq])
      · rintro ⟨_, h⟩
        exact hnd.1 (List.mem_map.2 ⟨q, hq, h.symm⟩))
    have hsame : Same e e1 := by rw [← he1]; exact (same_unload e .spike j.ident.uid).trans (same_sendOpt _ _)
    have hts : e1.toSend = e.toSend ++
        ((Delta.stepSingle j.ident j.proj t j.queue (f j.ident.uid)).1.map Message.impact).toList := by
      rw [← he1, (sendOpt_fields _ _).1, (unload_fields e .spike j.ident.uid).1]
    refine ⟨e', ?_, ?_, hsame.trans h3, ?_, ?_⟩
    · rw [h1]; rfl
    · rw [h2, hts, List.flatMap_cons, List.map_append, List.append_assoc]
      congr 1
      unfold flowProj
      cases (Delta.stepSingle j.ident j.proj t j.queue (f j.ident.uid)).1 <;> simp
    · intro q; rw [h4, hs1, if_neg (by simp)]
    · intro q
      rw [h5, hs1]
      by_cases hq : q ∈ js.map (·.ident.uid)
      · simp [hq]
      · by_cases hpq : j.ident.uid = q
        · simp [hpq]
        · have : ¬ q = j.ident.uid := fun h => hpq h.symm
          rw [if_neg hq, if_neg (by simp [hpq]), if_neg (by simp only [List.map_cons, List.mem_cons, this, hq, or_self, not_false_eq_true])]

/-! ## The rest of the program -/

theorem foreign_exec {chans : Nat} {w : World F} {e0 : Endpoint F} (h : Ready chans w e0) (op : Op F)
    (hf : Foreign chans op) : Ready chans (w.exec op) e0 ∧ outboxOf (w.exec op) 0 = outboxOf w 0 ∧
      ∀ i, i ≤ chans → outboxOf (w.exec op) i = outboxOf w i ++ sentVia i [op] := by
  have on : ∀ (j : Nat) (f : Endpoint F → Endpoint F) (ms : List (Message F)), 1 ≤ j ∧ j ≤ chans →
      (∀ e, (f e).toSend = e.toSend ++ ms) →
      Ready chans (w.onEndpoint j f) e0 ∧ outboxOf (w.onEndpoint j f) 0 = outboxOf w 0 ∧
      ∀ i, i ≤ chans → outboxOf (w.onEndpoint j f) i = outboxOf w i ++ if i = j then ms else [] := by
    intro j f ms hj hfe
    have hout : ∀ i, i ≤ chans → outboxOf (w.onEndpoint j f) i = outboxOf w i ++ if i = j then ms else [] := by
      intro i hi
      obtain ⟨e, he⟩ := h.alive i hi
      unfold outboxOf
      rw [endpoint_onEndpoint, he]
      by_cases hij : i = j
      · simp [hij, hfe]
      · simp [hij]
    refine ⟨⟨h.queue, by rw [slots_length_onEndpoint, h.len], ?_, ?_, h.recv, h.covered⟩, ?_, hout⟩
    · intro i hi
      obtain ⟨e, he⟩ := h.alive i hi
      rw [endpoint_onEndpoint, he]
      exact ⟨_, rfl⟩
    · rw [endpoint_onEndpoint, h.ep]
      rw [if_neg (by omega)]
      rfl
    · rw [hout 0 (by omega), if_neg (by omega), List.append_nil]
  cases op with
  | createEndpoint => exact hf.elim
  | destroyEndpoint e => exact hf.elim
  | busStep => exact hf.elim
  | route => exact hf.elim
  | send j m =>
    obtain ⟨h1, h2, h3⟩ := on j (fun ep => ep.send m) [m] hf (fun e => rfl)
    refine ⟨h1, h2, fun i hi => ?_⟩
    show outboxOf (w.onEndpoint j _) i = _
    rw [h3 i hi]
    unfold sentVia
    by_cases hij : i = j
    · simp [hij]
    · have : ¬ j = i := fun h => hij h.symm
      simp [hij, this]
  | subscribe j k r xs =>
    have := on j (fun ep => ep.subscribe k r xs) [] hf (fun e => by
      unfold Endpoint.subscribe Endpoint.modifySub; simp only; split <;> simp)
    simpa [sentVia, World.exec] using this
  | unsubscribe j k r =>
    have := on j (fun ep => (ep.unsubscribe k r).1) [] hf (fun e => by
      unfold Endpoint.unsubscribe Endpoint.updateSenders; split <;> simp)
    simpa [sentVia, World.exec] using this
  | subAddSender j k r x =>
    have := on j (fun ep => ep.modifySub k r (fun s => (s.addSender x).1)) [] hf (fun e => by simp [Endpoint.modifySub])
    simpa [sentVia, World.exec] using this
  | subRemoveSender j k r x =>
    have := on j (fun ep => ep.modifySub k r (fun s => (s.removeSender x).1)) [] hf (fun e => by simp [Endpoint.modifySub])
    simpa [sentVia, World.exec] using this
  | receiveMessage j =>
    have := on j (fun ep => ep.receiveMessage.1) [] hf (fun e => by rw [receiveMessage_eq]; simp)
    simpa [sentVia, World.exec] using this
  | receiveAll j =>
    have := on j (fun ep => ep.receiveAll.1) [] hf (fun e => by rw [receiveAll_eq]; simp)
    simpa [sentVia, World.exec] using this
  | unload j k r =>
    have := on j (fun ep => (ep.unload k r).1) [] hf (fun e => by rw [(unload_fields e k r).1]; simp)
    simpa [sentVia, World.exec] using this

theorem foreign_run {chans : Nat} (env : List (Op F)) : ∀ {w : World F} {e0 : Endpoint F}, Ready chans w e0 →
    (∀ op ∈ env, Foreign chans op) → Ready chans (w.run env) e0 ∧ outboxOf (w.run env) 0 = outboxOf w 0 ∧
      ∀ i, i ≤ chans → outboxOf (w.run env) i = outboxOf w i ++ sentVia i env := by
  induction env with
  | nil => intro w e0 h _; exact ⟨h, rfl, fun i _ => by simp [World.run, sentVia]⟩
  | cons op env ih =>
    intro w e0 h hf
    obtain ⟨h1, h2, h3⟩ := foreign_exec h op (hf op (by simp))
    obtain ⟨g1, g2, g3⟩ := ih h1 (fun o ho => hf o (by simp [ho]))
    refine ⟨g1, g2.trans h2, fun i hi => ?_⟩
    show outboxOf ((w.exec op).run env) i = _
    rw [g3 i hi, h3 i hi, List.append_assoc]
    congr 1
    unfold sentVia
    rw [← List.filterMap_append]
    rfl

theorem outbox_split {chans : Nat} (w : World F) (h : w.slots.length = chans + 1) :
    outbox w = outboxOf w 0 ++ (List.range chans).flatMap (fun e => outboxOf w (e + 1)) := by
  unfold outbox
  rw [h, List.range_succ_eq_map, List.flatMap_cons, List.flatMap_map]

/-! ## One step -/

/-- What holds between two steps. -/
structure Between (H : Hearing) (chans : Nat) (s : State N F) (pending : List (SynapticImpactMessage F)) (e0 : Endpoint F) :
    Prop where
  ready : Ready chans s.world e0
  empty : ∀ i, i ≤ chans → outboxOf s.world i = []
  hearI : ∀ r x, hearsE e0 .impact r x = H.impact r x
  hearS : ∀ r x, hearsE e0 .spike r x = H.spike r x
  stI : ∀ p ∈ s.pops, storedE e0 .impact p.uid =
    (pending.filter (fun m => H.impact p.uid m.header.senderUid)).map .impact
  stS : ∀ j ∈ s.projs, storedE e0 .spike j.ident.uid = []

theorem ready_set {chans : Nat} {w : World F} {e0 e1 : Endpoint F} (h : Ready chans w e0) (hs : Same e0 e1) :
    Ready chans (w.onEndpoint 0 (fun _ => e1)) e1 ∧ outboxOf (w.onEndpoint 0 (fun _ => e1)) 0 = e1.toSend ∧
    ∀ i, i ≠ 0 → outboxOf (w.onEndpoint 0 (fun _ => e1)) i = outboxOf w i := by
  have hep : (w.onEndpoint 0 (fun _ => e1)).endpoint 0 = some e1 := by
    rw [endpoint_onEndpoint, h.ep]; rfl
  refine ⟨⟨h.queue, by rw [slots_length_onEndpoint, h.len], ?_, hep, hs.recv.trans h.recv, hs.covered h.covered⟩, ?_, ?_⟩
  · intro i hi
    obtain ⟨e, he⟩ := h.alive i hi
    rw [endpoint_onEndpoint, he]
    exact ⟨_, rfl⟩
  · unfold outboxOf; rw [hep]; rfl
  · intro i hi
    unfold outboxOf
    rw [endpoint_onEndpoint, if_neg hi]
    cases w.endpoint i <;> rfl

theorem filter_impacts (ms : List (Message F)) (g : UID → Bool) :
    ms.filter (fun m => m.kind == .impact && g m.sender) =
      ((impactsIn ms).filter (fun m => g m.header.senderUid)).map .impact := by
  induction ms with
  | nil => rfl
  | cons m ms ih =>
    cases m with
    | spike x => simpa [impactsIn, Message.kind] using ih
    | impact x =>
      have e1 : impactsIn (Message.impact x :: ms) = x :: impactsIn ms := rfl
      rw [e1, List.filter_cons, List.filter_cons]
      have e2 : ((Message.impact x : Message F).kind == MsgKind.impact && g (Message.impact x : Message F).sender) =
        g x.header.senderUid := by simp [Message.kind, Message.sender, Message.header]
      rw [e2, ih]
      split <;> rfl

theorem filter_spikes (ms : List (Message F)) (g : UID → Bool) :
    ms.filter (fun m => m.kind == .spike && g m.sender) =
      ((spikesIn ms).filter (fun m => g m.header.senderUid)).map .spike := by
  induction ms with
  | nil => rfl
  | cons m ms ih =>
    cases m with
    | impact x => simpa [spikesIn, Message.kind] using ih
    | spike x =>
      have e1 : spikesIn (Message.spike x :: ms) = x :: spikesIn ms := rfl
      rw [e1, List.filter_cons, List.filter_cons]
      have e2 : ((Message.spike x : Message F).kind == MsgKind.spike && g (Message.spike x : Message F).sender) =
        g x.header.senderUid := by simp [Message.kind, Message.sender, Message.header]
      rw [e2, ih]
      split <;> rfl

theorem spikesIn_impacts (l : List (SynapticImpactMessage F)) : spikesIn (l.map Message.impact) = [] := by
  simp [spikesIn]

theorem impactsIn_spikes (l : List SpikeMessage) : impactsIn (F := F) (l.map Message.spike) = [] := by
  simp [impactsIn]

/-- What is stored after an exchange. -/
theorem stored_exchange (q : List (Message F)) (e : Endpoint F) (r : UID) :
    storedE (absorbed q e) .impact r = storedE e .impact r ++
      ((impactsIn q).filter (fun m => hearsE e .impact r m.header.senderUid)).map .impact ∧
    storedE (absorbed q e) .spike r = storedE e .spike r ++
      ((spikesIn q).filter (fun m => hearsE e .spike r m.header.senderUid)).map .spike := by
  rw [stored_absorbed, stored_absorbed, filter_impacts q (hearsE e .impact r), filter_spikes q (hearsE e .spike r)]
  exact ⟨rfl, rfl⟩

theorem flowPops_uids (t : Nat) (f : UID → List (SynapticImpactMessage F)) : ∀ (ps : List (PopSt N F)) (ps' : List (PopSt N F))
    (ss : List SpikeMessage), flowPops t f ps = .ok (ps', ss) → ps'.map (·.uid) = ps.map (·.uid) := by
  intro ps
  induction ps with
  | nil => intro ps' ss h; simp only [flowPops, Outcome.ok.injEq, Prod.mk.injEq] at h; rw [← h.1]
  | cons p ps ih =>
    intro ps' ss h
    unfold flowPops at h
    cases h1 : stepPopulation p.kind p.uid t p.neurons (f p.uid) with
    | throw w => rw [h1] at h; cases h
    | ub => rw [h1] at h; cases h
    | ok r =>
      rw [h1] at h
      simp only at h
      cases h2 : flowPops t f ps with
      | throw w => rw [h2] at h; cases h
      | ub => rw [h2] at h; cases h
      | ok x =>
        obtain ⟨qs, ss2⟩ := x
        rw [h2] at h
        simp only [Outcome.ok.injEq, Prod.mk.injEq] at h
        rw [← h.1]
        simp [ih qs ss2 h2]

theorem step_spec {H : Hearing} {chans : Nat} {s : State N F} {pending : List (SynapticImpactMessage F)} {e0 : Endpoint F}
    (hb : Between H chans s pending e0) (hnp : (s.pops.map (·.uid)).Nodup) (hnj : (s.projs.map (·.ident.uid)).Nodup)
    (env : List (Op F)) (hf : ∀ op ∈ env, Foreign chans op) :
    match flowStep H s.step s.pops s.projs pending (extOf chans env) with
    | .ok (st, o) => ∃ s' e', stepSingle { s with world := s.world.run env } = .ok (s', o) ∧ s'.pops = st.1 ∧ s'.projs = st.2 ∧
        s'.step = s.step + 1 ∧ Between H chans s' o.impacts e'
    | .throw w => stepSingle { s with world := s.world.run env } = .throw w
    | .ub => stepSingle { s with world := s.world.run env } = .ub := by
  obtain ⟨r1, _, r3⟩ := foreign_run env hb.ready hf
  -- first exchange
  have hq : outbox (s.world.run env) = extOf chans env := by
    rw [outbox_split _ r1.len, r3 0 (by omega), hb.empty 0 (by omega)]
    have h0 : sentVia 0 env = [] := by
      unfold sentVia
      rw [List.filterMap_eq_nil_iff]
      intro op hop
      have := hf op hop
      cases op with
      | send e m =>
        have h1 : 1 ≤ e ∧ e ≤ chans := this
        simp only
        rw [if_neg (by omega)]
      | _ => rfl
    rw [h0]
    simp only [List.append_nil, List.nil_append, extOf]
    rw [List.flatMap_def, List.flatMap_def]
    congr 1
    apply List.map_congr_left
    intro e he
    rw [r3 (e + 1) (by simp at he; omega), hb.empty (e + 1) (by simp at he; omega), List.nil_append]
  obtain ⟨x1, x2⟩ := exchange_spec r1
  rw [hq] at x1
  generalize hw1 : exchange (s.world.run env) = w1 at *
  generalize hext : extOf chans env = ext at *
  have g1 : ∀ p ∈ s.pops, storedE (absorbed ext e0) .impact p.uid =
      ((pending ++ impactsIn ext).filter (fun m => H.impact p.uid m.header.senderUid)).map .impact := by
    intro p hp
    rw [(stored_exchange ext e0 p.uid).1, hb.stI p hp, List.filter_append, List.map_append]
    simp only [hb.hearI]
  have g2 : ∀ j ∈ s.projs, storedE (absorbed ext e0) .spike j.ident.uid =
      ((spikesIn ext).filter (fun m => H.spike j.ident.uid m.header.senderUid)).map .spike := by
    intro j hj
    rw [(stored_exchange ext e0 j.ident.uid).2, hb.stS j hj]
    simp only [hb.hearS, List.nil_append]
  have hpp := popPhase_spec s.step (fun r => (pending ++ impactsIn ext).filter (fun m => H.impact r m.header.senderUid))
    s.pops (absorbed ext e0) hnp g1
  unfold flowStep stepSingle
  simp only [hw1, x1.ep]
  cases hfp : flowPops s.step (fun r => (pending ++ impactsIn ext).filter (fun m => H.impact r m.header.senderUid)) s.pops with
  | throw w => rw [hfp] at hpp; simp only at hpp ⊢; rw [hpp]
  | ub => rw [hfp] at hpp; simp only at hpp ⊢; rw [hpp]
  | ok x =>
    obtain ⟨ps', ss⟩ := x
    rw [hfp] at hpp
    simp only at hpp ⊢
    obtain ⟨e2, y1, y2, y3, y4, y5⟩ := hpp
    rw [y1]
    simp only
    have ht2 : e2.toSend = ss.map .spike := by
      rw [y2]; rfl
    -- second exchange
    obtain ⟨z1, z2, z3⟩ := ready_set x1 y3
    have hq2 : outbox (w1.onEndpoint 0 (fun _ => e2)) = ss.map .spike := by
      rw [outbox_split _ z1.len, z2, ht2]
      have : (List.range chans).flatMap (fun e => outboxOf (w1.onEndpoint 0 (fun _ => e2)) (e + 1)) = [] := by
        rw [List.flatMap_eq_nil_iff]
        intro e _
        rw [z3 (e + 1) (by omega), x2]
      rw [this, List.append_nil]
    obtain ⟨v1, v2⟩ := exchange_spec z1
    rw [hq2] at v1
    generalize hw3 : exchange (w1.onEndpoint 0 (fun _ => e2)) = w3 at *
    rw [v1.ep]
    simp only
    have hs2 : ∀ j ∈ s.projs, storedE (absorbed (ss.map Message.spike) e2) .spike j.ident.uid =
        ((spikesIn ext ++ ss).filter (fun m => H.spike j.ident.uid m.header.senderUid)).map .spike := by
      intro j hj
      rw [(stored_exchange _ e2 j.ident.uid).2, y4, g2 j hj, spikesIn_map, List.filter_append, List.map_append]
      simp only [y3.hears, hears_absorbed, hb.hearS]
    obtain ⟨e4, u1, u2, u3, u4, u5⟩ := projPhase_spec s.step
      (fun r => (spikesIn ext ++ ss).filter (fun m => H.spike r m.header.senderUid)) s.projs
      (absorbed (ss.map Message.spike) e2) hnj hs2
    rw [u1]
    simp only
    generalize hims : s.projs.flatMap (fun j => (flowProj s.step j
      ((spikesIn ext ++ ss).filter (fun m => H.spike j.ident.uid m.header.senderUid))).1.toList) = ims at *
    -- third exchange
    obtain ⟨a1, a2, a3⟩ := ready_set v1 u3
    have hq3 : outbox (w3.onEndpoint 0 (fun _ => e4)) = ims.map .impact := by
      rw [outbox_split _ a1.len, a2, u2]
      have : (List.range chans).flatMap (fun e => outboxOf (w3.onEndpoint 0 (fun _ => e4)) (e + 1)) = [] := by
        rw [List.flatMap_eq_nil_iff]
        intro e _
        rw [a3 (e + 1) (by omega), v2]
      rw [this, List.append_nil]; rfl
    obtain ⟨b1, b2⟩ := exchange_spec a1
    rw [hq3] at b1
    refine ⟨_, _, rfl, rfl, rfl, rfl, ⟨b1, fun i _ => b2 i, ?_, ?_, ?_, ?_⟩⟩
    · intro r x; rw [hears_absorbed, u3.hears, hears_absorbed, y3.hears, hears_absorbed, hb.hearI]
    · intro r x; rw [hears_absorbed, u3.hears, hears_absorbed, y3.hears, hears_absorbed, hb.hearS]
    · intro p hp
      have hpu : p.uid ∈ s.pops.map (·.uid) := by
        have := flowPops_uids _ _ _ _ _ hfp
        rw [← this]; exact List.mem_map.2 ⟨p, hp, rfl⟩
      rw [(stored_exchange _ e4 p.uid).1, u4, (stored_exchange _ e2 p.uid).1, impactsIn_spikes, y5, if_pos hpu, impactsIn_map]
      simp only [u3.hears, hears_absorbed, y3.hears, hb.hearI, List.filter_nil, List.map_nil, List.append_nil, List.nil_append]
    · intro j hj
      have hju : j.ident.uid ∈ s.projs.map (·.ident.uid) := by
        simp only [List.mem_map] at hj
        obtain ⟨j0, hj0, rfl⟩ := hj
        exact List.mem_map.2 ⟨j0, hj0, rfl⟩
      rw [(stored_exchange _ e4 j.ident.uid).2, spikesIn_impacts, u5, if_pos hju]
      simp

end Knp.Sys
