import Verif.Lemmas.Zmq

/-! # More lemmas about the ZeroMQ bus: who receives what, and comparison with the in-process bus -/

namespace Knp.Zmq
open Knp Knp.Bus

variable {F X : Type}

/-! ## Subscriptions after a call -/

/-- What a call other than the bus's does to a subscription. -/
theorem portStep_sub {c : Codec F X} (i : Nat) (op : Op F) (q : Port F X) (k : MsgKind) (r : UID) (s' : Subscr F)
    (h : (portStep c i op q).ep.findSub k r = some s') :
    (∀ x ∈ s'.senders, (∃ s, q.ep.findSub k r = some s ∧ x ∈ s.senders) ∨ x ∈ Spec.everSubscribed i k r [op]) ∧
    (∀ m ∈ s'.messages, ∃ s, q.ep.findSub k r = some s ∧
      (m ∈ s.messages ∨ (m ∈ decoded c q.inn ∧ m.kind = k ∧ m.sender ∈ s.senders))) := by
  have same : ∀ op' : Op F, q.ep.findSub k r = some s' →
      (∀ x ∈ s'.senders, (∃ s, q.ep.findSub k r = some s ∧ x ∈ s.senders) ∨ x ∈ Spec.everSubscribed i k r [op']) ∧
      (∀ m ∈ s'.messages, ∃ s, q.ep.findSub k r = some s ∧
        (m ∈ s.messages ∨ (m ∈ decoded c q.inn ∧ m.kind = k ∧ m.sender ∈ s.senders))) :=
    fun _ h => ⟨fun x hx => Or.inl ⟨s', h, hx⟩, fun m hm => ⟨s', h, Or.inl hm⟩⟩
  have absorbed : ∀ ms : List (Message F), (∀ m ∈ ms, m ∈ decoded c q.inn) → (q.ep.findSub k r).map (absorb ms) = some s' → ∀ op' : Op F,
      (∀ x ∈ s'.senders, (∃ s, q.ep.findSub k r = some s ∧ x ∈ s.senders) ∨ x ∈ Spec.everSubscribed i k r [op']) ∧
      (∀ m ∈ s'.messages, ∃ s, q.ep.findSub k r = some s ∧
        (m ∈ s.messages ∨ (m ∈ decoded c q.inn ∧ m.kind = k ∧ m.sender ∈ s.senders))) := by
    intro ms hms h op'
    obtain ⟨s, hs, rfl⟩ := Option.map_eq_some_iff.1 h
    refine ⟨fun x hx => Or.inl ⟨s, hs, hx⟩, fun m hm => ⟨s, hs, ?_⟩⟩
    simp only [absorb, List.mem_append, List.mem_filter] at hm
    rcases hm with hm | ⟨hm, ha⟩
    · exact Or.inl hm
    · right
      have hw := (accepts_iff s m).1 ha
      exact ⟨hms m hm, hw.1.symm.trans (findSub_key hs).1, hw.2⟩
  unfold portStep at h
  by_cases ha : q.alive = true
  · rw [if_pos ha] at h
    cases op with
    | createEndpoint => exact same _ h
    | route => exact same _ h
    | busStep => exact same _ h
    | destroyEndpoint e => simp only at h; split at h <;> exact same _ h
    | send e m => simp only at h; split at h <;> exact same _ h
    | subscribe e k' r' xs =>
      simp only at h
      split at h
      · rename_i he
        simp only [findSub_subscribe] at h
        split at h
        · rename_i hk
          simp only [Option.some.injEq] at h
          subst h
          refine ⟨fun x hx => ?_, fun m hm => ?_⟩
          · simp only [mem_setInsertAll] at hx
            rcases hx with hx | hx
            · left
              cases hs : q.ep.findSub k r with
              | none => rw [hs] at hx; simp at hx
              | some s => rw [hs] at hx; exact ⟨s, rfl, hx⟩
            · right; simp [Spec.everSubscribed, he, hk, hx]
          · cases hs : q.ep.findSub k r with
            | none => simp [hs] at hm
            | some s => exact ⟨s, rfl, Or.inl (by simpa [hs] using hm)⟩
        · exact same _ h
      · exact same _ h
    | unsubscribe e k' r' =>
      simp only at h
      split at h
      · simp only [findSub_unsubscribe] at h
        split at h
        · cases h
        · exact same _ h
      · exact same _ h
    | subAddSender e k' r' y =>
      simp only at h
      split at h
      · rename_i he
        simp only at h
        rw [findSub_modify q.ep k k' r r' (fun s => (s.addSender y).1) (fun _ => rfl) (fun _ => rfl)] at h
        split at h
        · rename_i hk
          obtain ⟨s, hs, rfl⟩ := Option.map_eq_some_iff.1 h
          refine ⟨fun x hx => ?_, fun m hm => ⟨s, hs, Or.inl hm⟩⟩
          simp only [Subscr.addSender, mem_setInsert] at hx
          rcases hx with hx | hx
          · exact Or.inl ⟨s, hs, hx⟩
          · right; simp [Spec.everSubscribed, he, hk, hx]
        · exact same _ h
      · exact same _ h
    | subRemoveSender e k' r' y =>
      simp only at h
      split at h
      · simp only at h
        rw [findSub_modify q.ep k k' r r' (fun s => (s.removeSender y).1) (fun _ => rfl) (fun _ => rfl)] at h
        split at h
        · obtain ⟨s, hs, rfl⟩ := Option.map_eq_some_iff.1 h
          refine ⟨fun x hx => ?_, fun m hm => ⟨s, hs, Or.inl hm⟩⟩
          simp only [Subscr.removeSender, List.mem_filter] at hx
          exact Or.inl ⟨s, hs, hx.1⟩
        · exact same _ h
      · exact same _ h
    | unload e k' r' =>
      simp only at h
      split at h
      · simp only at h
        rw [unload_fst_findSub] at h
        split at h
        · obtain ⟨s, hs, rfl⟩ := Option.map_eq_some_iff.1 h
          exact ⟨fun x hx => Or.inl ⟨s, hs, hx⟩, fun m hm => by cases hm⟩
        · exact same _ h
      · exact same _ h
    | receiveMessage e =>
      simp only at h
      split at h
      · simp only at h
        rw [findSub_absorb] at h
        refine absorbed _ (fun m hm => ?_) h _
        rw [← List.take_append_drop 1 q.inn, decoded_append]
        exact List.mem_append_left _ hm
      · exact same _ h
    | receiveAll e =>
      simp only at h
      split at h
      · simp only at h
        rw [findSub_absorb] at h
        exact absorbed _ (fun m hm => hm) h _
      · exact same _ h
  · rw [if_neg ha] at h; exact same _ h

theorem portStep_alive {c : Codec F X} (i : Nat) (op : Op F) (q : Port F X) (h : (portStep c i op q).alive = true) : q.alive = true := by
  by_cases ha : q.alive = true
  · exact ha
  · unfold portStep at h; rw [if_neg ha] at h; exact h

theorem portStep_inn {c : Codec F X} (i : Nat) (op : Op F) (q : Port F X) : ∃ d, (portStep c i op q).inn = q.inn.drop d := by
  have all : ∃ d, ([] : List X) = q.inn.drop d := ⟨q.inn.length, by simp⟩
  have same : ∃ d, q.inn = q.inn.drop d := ⟨0, rfl⟩
  unfold portStep
  split
  · cases op <;> simp only <;> try (split)
    all_goals first | exact same | exact all | exact ⟨1, rfl⟩
  · exact same

/-- A step of the bus changes no endpoint but its pipes. -/
theorem steps_port {l : Limits} {w w' : World F X} {pk : Pick} (h : StepsTo l w pk w') (i : Nat) :
    (w'.port i).map (fun p => p.ep) = (w.port i).map (fun p => p.ep) := by
  cases h with
  | publish x hx =>
    unfold World.port
    simp only [List.getElem?_mapIdx]
    cases w.ports[i]? with
    | none => rfl
    | some q =>
      simp only [Option.map_some]
      rw [(offer_out l pk x i q).2.1]
      split
      · simp [(offer_out l pk x i q).2.2.1]
      · rfl
  | read x p hf hp hx =>
    unfold World.port
    simp only [List.getElem?_modify]
    cases w.ports[i]? with
    | none => rfl
    | some q =>
      by_cases he : pk.src = i
      · simp only [he, if_true, Option.map_eq_map, Option.map_some]; split <;> rfl
      · simp only [he, if_false, Option.map_eq_map, Option.map_some]

theorem bus_port {l : Limits} {c : Codec F X} (hc : Lawful c) {w w' : World F X} {call : Call F} (hop : IsBus call.op)
    (hw : AllPacked c w) (h : w.exec l c call = some (.ok w')) (i : Nat) :
    (w'.port i).map (fun p => p.ep) = (w.port i).map (fun p => p.ep) :=
  (bus_ind hc (fun v => (v.port i).map (fun p => p.ep) = (w.port i).map (fun p => p.ep))
    (fun _ _ _ _ hp hst => (steps_port hst i).trans hp) hop hw rfl h).2

theorem subscription_eq {w w' : World F X} {i : Nat} (h : (w'.port i).map (fun p => p.ep) = (w.port i).map (fun p => p.ep))
    (k : MsgKind) (r : UID) : subscription w' i k r = subscription w i k r := by
  unfold subscription
  cases h1 : w'.port i <;> cases h2 : w.port i <;> rw [h1, h2] at h <;> simp at h <;> simp [h]

/-- How a call changes a subscription. -/
theorem exec_sub {l : Limits} {c : Codec F X} (hc : Lawful c) {w w' : World F X} {call : Call F} (hw : AllPacked c w)
    (h : w.exec l c call = some (.ok w')) (i : Nat) (k : MsgKind) (r : UID) (s' : Subscr F) (hs : subscription w' i k r = some s') :
    (∀ x ∈ s'.senders, (∃ s, subscription w i k r = some s ∧ x ∈ s.senders) ∨ x ∈ Spec.everSubscribed i k r [call.op]) ∧
    (∀ m ∈ s'.messages, ∃ s, subscription w i k r = some s ∧
      (m ∈ s.messages ∨ (m ∈ decoded c (pipeIn w i) ∧ m.kind = k ∧ m.sender ∈ s.senders))) := by
  by_cases hb : IsBus call.op
  · rw [subscription_eq (bus_port hc hb hw h i)] at hs
    exact ⟨fun x hx => Or.inl ⟨s', hs, hx⟩, fun m hm => ⟨s', hs, Or.inl hm⟩⟩
  · by_cases hcr : call.op = .createEndpoint
    · obtain ⟨op, picks, lag⟩ := call
      simp only at hcr
      subst hcr
      simp only [World.exec, Option.some.injEq, Outcome.ok.injEq] at h
      subst h
      unfold subscription at hs
      obtain ⟨p, hp, hps⟩ := Option.bind_eq_some_iff.1 hs
      obtain ⟨hp1, hp2⟩ := port_some.1 hp
      simp only at hp1
      rcases Nat.lt_or_ge i w.ports.length with hi | hi
      · rw [List.getElem?_append_left hi] at hp1
        have : subscription w i k r = some s' := by
          unfold subscription; rw [port_some.2 ⟨hp1, hp2⟩]; exact hps
        exact ⟨fun x hx => Or.inl ⟨s', this, hx⟩, fun m hm => ⟨s', this, Or.inl hm⟩⟩
      · rw [List.getElem?_append_right hi] at hp1
        cases hn : i - w.ports.length with
        | zero =>
          rw [hn] at hp1
          simp only [List.getElem?_cons_zero, Option.some.injEq] at hp1
          subst hp1
          cases hps
        | succ n => rw [hn] at hp1; simp at hp1
    · obtain ⟨_, _, e3⟩ := exec_ports hc hw hb hcr h
      unfold subscription at hs
      obtain ⟨p, hp, hps⟩ := Option.bind_eq_some_iff.1 hs
      obtain ⟨hp1, hp2⟩ := port_some.1 hp
      rw [e3 i] at hp1
      obtain ⟨q, hq, rfl⟩ := Option.map_eq_some_iff.1 hp1
      have hqa := portStep_alive i call.op q hp2
      have hq' : w.port i = some q := port_some.2 ⟨hq, hqa⟩
      have hsub : subscription w i k r = q.ep.findSub k r := by unfold subscription; rw [hq']; rfl
      have hin : pipeIn w i = q.inn := by unfold pipeIn; rw [hq']; rfl
      rw [hsub, hin]
      exact portStep_sub i call.op q k r s' hps

/-! ## Where messages come from -/

/-- Everything stored or under way was sent (`S`), and what is stored for `(k, r)` on `i` is of kind `k` from senders in `A`. -/
structure From (c : Codec F X) (i : Nat) (k : MsgKind) (r : UID) (A : UID → Prop) (S : Message F → Prop) (w : World F X) : Prop where
  packed : AllPacked c w
  senders : ∀ s, subscription w i k r = some s → ∀ x ∈ s.senders, A x
  stored : ∀ m ∈ stored w i k r, m.kind = k ∧ A m.sender ∧ S m
  frame : ∀ m ∈ decoded c w.frame.toList, S m
  out : ∀ p ∈ w.ports, ∀ m ∈ decoded c p.out, S m
  inn : ∀ p ∈ w.ports, ∀ m ∈ decoded c p.inn, S m

theorem From.bus {l : Limits} {c : Codec F X} {w w' : World F X} {pk : Pick} {S : Message F → Prop}
    (h : (∀ m ∈ decoded c w.frame.toList, S m) ∧ (∀ p ∈ w.ports, ∀ m ∈ decoded c p.out, S m) ∧ ∀ p ∈ w.ports, ∀ m ∈ decoded c p.inn, S m)
    (hst : StepsTo l w pk w') :
    (∀ m ∈ decoded c w'.frame.toList, S m) ∧ (∀ p ∈ w'.ports, ∀ m ∈ decoded c p.out, S m) ∧ ∀ p ∈ w'.ports, ∀ m ∈ decoded c p.inn, S m := by
  obtain ⟨h1, h2, h3⟩ := h
  cases hst with
  | publish x hx =>
    refine ⟨(fun m hm => nomatch hm), fun p hp => ?_, fun p hp => ?_⟩ <;> obtain ⟨n, hn, rfl⟩ := List.mem_mapIdx.1 hp
    · rw [(offer_out l pk x n _).1]; exact h2 _ (List.getElem_mem hn)
    · rcases (offer_out l pk x n w.ports[n]).2.2.2.2 with h | h <;> rw [h]
      · exact h3 _ (List.getElem_mem hn)
      · intro m hm
        rw [decoded_append] at hm
        rcases List.mem_append.1 hm with hm | hm
        · exact h3 _ (List.getElem_mem hn) m hm
        · exact h1 m (by rw [hx]; exact hm)
  | read x p hf hp hx =>
    have hpm := List.mem_of_getElem? hp
    obtain ⟨ys, hys⟩ : ∃ ys, p.out = x :: ys := by
      cases ho : p.out with
      | nil => rw [ho] at hx; simp at hx
      | cons y ys => rw [ho] at hx; simp at hx; exact ⟨ys, by rw [hx]⟩
    have hsplit : ∀ q : Port F X, ∀ m ∈ decoded c q.out.tail, m ∈ decoded c q.out := by
      intro q m hm
      cases ho : q.out with
      | nil => rw [ho] at hm; exact hm
      | cons y ys =>
        rw [ho] at hm
        rw [show y :: ys = [y] ++ ys from rfl, decoded_append]
        exact List.mem_append_right _ hm
    refine ⟨fun m hm => ?_, fun q hq => ?_, fun q hq => ?_⟩
    · refine h2 p hpm m ?_
      rw [hys, show x :: ys = [x] ++ ys from rfl, decoded_append]
      exact List.mem_append_left _ hm
    all_goals
      obtain ⟨n, hn⟩ := List.mem_iff_getElem?.1 hq
      rw [List.getElem?_modify] at hn
      obtain ⟨q0, h0, rfl⟩ := Option.map_eq_some_iff.1 hn
    · split
      · intro m hm; exact h2 q0 (List.mem_of_getElem? h0) m (hsplit q0 m hm)
      · exact h2 q0 (List.mem_of_getElem? h0)
    · split
      · exact h3 q0 (List.mem_of_getElem? h0)
      · exact h3 q0 (List.mem_of_getElem? h0)

theorem From.exec {l : Limits} {c : Codec F X} (hc : Lawful c) {i : Nat} {k : MsgKind} {r : UID} {A : UID → Prop} {S : Message F → Prop}
    {w w' : World F X} {call : Call F} (hf : From c i k r A S w) (hA : ∀ x ∈ Spec.everSubscribed i k r [call.op], A x)
    (hS : ∀ e, ∀ m ∈ sentNow w e call.op, S m) (h : w.exec l c call = some (.ok w')) : From c i k r A S w' := by
  have hp' := exec_packed hc hf.packed h
  have hin : ∀ m ∈ decoded c (pipeIn w i), S m := by
    unfold pipeIn
    cases hq : w.port i with
    | none => intro m hm; cases hm
    | some q => exact hf.inn q (List.mem_of_getElem? (port_some.1 hq).1)
  have hsub := exec_sub hc hf.packed h i k r
  have hsend : ∀ s, subscription w' i k r = some s → ∀ x ∈ s.senders, A x := by
    intro s hs x hx
    rcases (hsub s hs).1 x hx with ⟨s0, h0, hx0⟩ | hx0
    · exact hf.senders s0 h0 x hx0
    · exact hA x hx0
  have hst : ∀ m ∈ Zmq.stored w' i k r, m.kind = k ∧ A m.sender ∧ S m := by
    intro m hm
    unfold Zmq.stored at hm
    cases hs : subscription w' i k r with
    | none => rw [hs] at hm; cases hm
    | some s =>
      rw [hs] at hm
      obtain ⟨s0, h0, hm0 | ⟨hm0, hk, hx⟩⟩ := (hsub s hs).2 m hm
      · refine hf.stored m ?_
        unfold Zmq.stored
        rw [h0]; exact hm0
      · exact ⟨hk, hf.senders s0 h0 _ hx, hin m hm0⟩
  by_cases hb : IsBus call.op
  · obtain ⟨_, a, b, d⟩ := bus_ind hc (fun v => (∀ m ∈ decoded c v.frame.toList, S m) ∧ (∀ p ∈ v.ports, ∀ m ∈ decoded c p.out, S m) ∧
      ∀ p ∈ v.ports, ∀ m ∈ decoded c p.inn, S m) (fun _ _ _ _ hp hst => From.bus hp hst) hb hf.packed ⟨hf.frame, hf.out, hf.inn⟩ h
    exact ⟨hp', hsend, hst, a, b, d⟩
  · have hfr : w'.frame = w.frame := by
      by_cases hcr : call.op = .createEndpoint
      · obtain ⟨op, picks, lag⟩ := call
        simp only at hcr
        subst hcr
        simp only [World.exec, Option.some.injEq, Outcome.ok.injEq] at h
        rw [← h]
      · exact (exec_ports hc hf.packed hb hcr h).1
    refine ⟨hp', hsend, hst, by rw [hfr]; exact hf.frame, fun p hp m hm => ?_, fun p hp => ?_⟩
    · obtain ⟨n, hn⟩ := List.mem_iff_getElem?.1 hp
      have hout := call_out hc hf.packed hb h n
      have : pipeOut w' n = p.out := by unfold pipeOut; rw [hn]; rfl
      rw [this] at hout
      rw [hout] at hm
      rcases List.mem_append.1 hm with hm | hm
      · unfold pipeOut at hm
        cases hq : w.ports[n]? with
        | none => rw [hq] at hm; cases hm
        | some q => rw [hq] at hm; exact hf.out q (List.mem_of_getElem? hq) m hm
      · exact hS n m hm
    · by_cases hcr : call.op = .createEndpoint
      · obtain ⟨op, picks, lag⟩ := call
        simp only at hcr
        subst hcr
        simp only [World.exec, Option.some.injEq, Outcome.ok.injEq] at h
        subst h
        rcases List.mem_append.1 hp with hp | hp
        · exact hf.inn p hp
        · rw [List.mem_singleton.1 hp]; intro m hm; cases hm
      · obtain ⟨_, _, e3⟩ := exec_ports hc hf.packed hb hcr h
        obtain ⟨n, hn⟩ := List.mem_iff_getElem?.1 hp
        rw [e3 n] at hn
        obtain ⟨q, hq, rfl⟩ := Option.map_eq_some_iff.1 hn
        obtain ⟨d, hd⟩ := portStep_inn (c := c) n call.op q
        rw [hd]
        intro m hm
        refine hf.inn q (List.mem_of_getElem? hq) m ?_
        rw [← List.take_append_drop d q.inn, decoded_append]
        exact List.mem_append_right _ hm

theorem From.run {l : Limits} {c : Codec F X} (hc : Lawful c) {i : Nat} {k : MsgKind} {r : UID} {A : UID → Prop} {S : Message F → Prop}
    (calls : List (Call F)) (w w' : World F X) (hf : From c i k r A S w) (hA : ∀ x ∈ Spec.everSubscribed i k r (calls.map (·.op)), A x)
    (hS : ∀ e, ∀ m ∈ sentVia l c e w calls, S m) (h : w.run l c calls = some (.ok w')) :
    From c i k r A S w' ∧ ∀ m ∈ unloaded l c i k r w calls, m.kind = k ∧ A m.sender ∧ S m := by
  induction calls generalizing w with
  | nil => cases h; exact ⟨hf, fun m hm => nomatch hm⟩
  | cons call calls ih =>
    obtain ⟨w1, he, hr⟩ := run_cons h
    have hA1 : ∀ x ∈ Spec.everSubscribed i k r [call.op], A x := by
      intro x hx
      refine hA x ?_
      simp only [Spec.everSubscribed, List.append_nil] at hx
      simp only [List.map_cons, Spec.everSubscribed]
      exact List.mem_append_left _ hx
    have h1 := hf.exec hc hA1 (fun e m hm => hS e m (by rw [sentVia_cons he]; exact List.mem_append_left _ hm)) he
    obtain ⟨h2, h3⟩ := ih w1 h1 (fun x hx => hA x (by
        simp only [List.map_cons, Spec.everSubscribed]; exact List.mem_append_right _ hx))
      (fun e m hm => hS e m (by rw [sentVia_cons he]; exact List.mem_append_right _ hm)) hr
    refine ⟨h2, fun m hm => ?_⟩
    rw [unloaded_cons he] at hm
    rcases List.mem_append.1 hm with hm | hm
    · refine hf.stored m ?_
      cases hop : call.op with
      | unload e k' r' =>
        rw [hop] at hm
        simp only [unloadedNow] at hm
        split at hm
        · exact hm
        · cases hm
      | _ => rw [hop] at hm; cases hm
    · exact h3 m hm

theorem From.init (c : Codec F X) (i : Nat) (k : MsgKind) (r : UID) (A : UID → Prop) (S : Message F → Prop) :
    From c i k r A S (World.init : World F X) := by
  refine ⟨init_packed c, ?_, ?_, (fun _ h => nomatch h), (fun _ h => nomatch h), (fun _ h => nomatch h)⟩
  · intro s hs; simp [subscription, World.port, World.init] at hs
  · intro m hm; simp [Zmq.stored, subscription, World.port, World.init] at hm

/-! ## No exceptions -/

theorem exec_no_throw {l : Limits} {c : Codec F X} (hc : Lawful c) {w : World F X} {call : Call F} (hw : AllPacked c w)
    {o : Outcome (World F X)} (h : w.exec l c call = some o) : ∃ w', o = .ok w' := by
  obtain ⟨op, picks, lag⟩ := call
  have hinn : ∀ e p, w.port e = some p → Packed c p.inn := fun e p hp => hw.inn p (List.mem_of_getElem? (port_some.1 hp).1)
  cases op with
  | receiveMessage e =>
    simp only [World.exec, Option.some.injEq] at h
    rw [tryPort_ok w e _ _ (fun p hp => receiveMessage_ok hc p (hinn e p hp))] at h
    exact ⟨_, h.symm⟩
  | receiveAll e =>
    simp only [World.exec, Option.some.injEq] at h
    rw [tryPort_ok w e _ _ (fun p hp => receiveAll_ok hc p (hinn e p hp))] at h
    exact ⟨_, h.symm⟩
  | send e m =>
    simp only [World.exec] at h
    split at h
    · exact ⟨_, (Option.some.inj h).symm⟩
    · split at h
      · cases h
      · exact ⟨_, (Option.some.inj h).symm⟩
  | busStep =>
    simp only [World.exec] at h
    split at h
    · obtain ⟨r, _, hr⟩ := Option.map_eq_some_iff.1 h; exact ⟨_, hr.symm⟩
    · cases h
  | route =>
    simp only [World.exec] at h
    obtain ⟨r, _, hr⟩ := Option.map_eq_some_iff.1 h; exact ⟨_, hr.symm⟩
  | _ => simp only [World.exec, Option.some.injEq] at h; exact ⟨_, h.symm⟩

theorem run_no_throw {l : Limits} {c : Codec F X} (hc : Lawful c) (calls : List (Call F)) (w : World F X) (hw : AllPacked c w)
    {o : Outcome (World F X)} (h : w.run l c calls = some o) : ∃ w', o = .ok w' := by
  induction calls generalizing w with
  | nil => cases h; exact ⟨w, rfl⟩
  | cons call calls ih =>
    unfold World.run at h
    cases he : w.exec l c call with
    | none => rw [he] at h; cases h
    | some o' =>
      obtain ⟨w1, rfl⟩ := exec_no_throw hc hw he
      rw [he] at h
      exact ih w1 (exec_packed hc hw he) h

/-! ## Comparison with the in-process bus -/

/-- The two buses have the same live endpoints. -/
structure Alike (w : World F X) (v : Bus.World F) : Prop where
  live : ∀ e, (w.port e).isSome = (v.endpoint e).isSome
  size : w.ports.length = v.slots.length

theorem steps_size {l : Limits} {w w' : World F X} {pk : Pick} (h : StepsTo l w pk w') : w'.ports.length = w.ports.length := by
  cases h <;> simp

theorem portStep_live {c : Codec F X} (i : Nat) (op : Op F) (q : Port F X) (h : op ≠ .destroyEndpoint i) :
    (portStep c i op q).alive = q.alive := by
  unfold portStep
  split
  · cases op <;> simp only <;> try (split)
    all_goals first | rfl | (rename_i he; subst he; exact absurd rfl h)
  · rfl

theorem cpu_live (v : Bus.World F) (hq : v.queue = []) (op : Op F) (hcr : op ≠ .createEndpoint) (hd : ∀ e, op ≠ .destroyEndpoint e) :
    (∀ e, ((v.exec op).endpoint e).isSome = (v.endpoint e).isSome) ∧ (v.exec op).slots.length = v.slots.length := by
  have on : ∀ j f, (∀ e, ((v.onEndpoint j f).endpoint e).isSome = (v.endpoint e).isSome) ∧ (v.onEndpoint j f).slots.length = v.slots.length :=
    fun j f => ⟨fun e => by rw [endpoint_onEndpoint, Option.isSome_map], slots_length_onEndpoint v j f⟩
  cases op with
  | createEndpoint => exact absurd rfl hcr
  | destroyEndpoint e => exact absurd rfl (hd e)
  | busStep => rw [endpoint_step_nil v hq]; exact ⟨fun _ => rfl, rfl⟩
  | route =>
    refine ⟨fun e => by rw [endpoint_route, Option.isSome_map], ?_⟩
    show v.route.1.slots.length = _
    rw [route_eq]
    simp [Bus.World.update]
  | _ => exact on _ _

theorem Alike.exec {l : Limits} {c : Codec F X} (hc : Lawful c) {w w' : World F X} {v : Bus.World F} {call : Call F} (hw : AllPacked c w)
    (hq : v.queue = []) (ha : Alike w v) (h : w.exec l c call = some (.ok w')) : Alike w' (v.exec call.op) := by
  by_cases hb : IsBus call.op
  · have hsize := (bus_ind hc (fun u => u.ports.length = w.ports.length) (fun _ _ _ _ hp hst => (steps_size hst).trans hp) hb hw rfl h).2
    obtain ⟨c1, c2⟩ := cpu_live v hq call.op (by rcases hb with h | h <;> rw [h] <;> simp) (by rcases hb with h | h <;> rw [h] <;> simp)
    refine ⟨fun e => ?_, hsize.trans (ha.size.trans c2.symm)⟩
    rw [c1, ← ha.live]
    have := bus_port hc hb hw h e
    rw [← Option.isSome_map (f := fun p : Port F X => p.ep), this, Option.isSome_map]
  · by_cases hcr : call.op = .createEndpoint
    · obtain ⟨op, picks, lag⟩ := call
      simp only at hcr
      subst hcr
      simp only [World.exec, Option.some.injEq, Outcome.ok.injEq] at h
      subst h
      refine ⟨fun e => ?_, by simp [Bus.World.exec, ha.size]⟩
      rw [endpoint_create]
      by_cases he : e = v.slots.length
      · rw [if_pos he]
        have : e = w.ports.length := he.trans ha.size.symm
        subst this
        simp [World.port]
      · rw [if_neg he, ← ha.live]
        unfold World.port
        rcases Nat.lt_or_ge e w.ports.length with hlt | hge
        · simp only; rw [List.getElem?_append_left hlt]
        · simp only
          rw [List.getElem?_eq_none (l := w.ports ++ _) (by simp; have := ha.size; omega), List.getElem?_eq_none hge]
    · obtain ⟨_, e2, e3⟩ := exec_ports hc hw hb hcr h
      have hport : ∀ e, call.op ≠ .destroyEndpoint e → (w'.port e).isSome = (w.port e).isSome := by
        intro e hne
        unfold World.port
        rw [e3 e]
        cases w.ports[e]? with
        | none => rfl
        | some q => simp only [Option.map_some, portStep_live e call.op q hne]; split <;> rfl
      by_cases hd : ∃ e, call.op = .destroyEndpoint e
      · obtain ⟨e, hd⟩ := hd
        rw [hd]
        refine ⟨fun i => ?_, by rw [e2, ha.size]; simp [Bus.World.exec]⟩
        rw [endpoint_destroy]
        by_cases hi : i = e
        · rw [if_pos hi]
          subst hi
          unfold World.port
          rw [e3 i, hd]
          cases w.ports[i]? with
          | none => rfl
          | some q =>
            have : (portStep c i (.destroyEndpoint i) q).alive = false := by
              unfold portStep
              by_cases hq : q.alive = true
              · simp [hq]
              · simp [hq]
            simp [this]
        · rw [if_neg hi, ← ha.live]
          exact hport i (by rw [hd]; intro hh; cases hh; exact hi rfl)
      · have hd' : ∀ e, call.op ≠ .destroyEndpoint e := fun e he => hd ⟨e, he⟩
        obtain ⟨c1, c2⟩ := cpu_live v hq call.op hcr hd'
        exact ⟨fun e => by rw [hport e (hd' e), c1, ha.live], e2.trans (ha.size.trans c2.symm)⟩

theorem Alike.run {l : Limits} {c : Codec F X} (hc : Lawful c) (calls : List (Call F)) (w w' : World F X) (v : Bus.World F)
    (hw : AllPacked c w) (hq : v.queue = []) (ha : Alike w v) (h : w.run l c calls = some (.ok w')) :
    Alike w' (v.run (calls.map (·.op))) := by
  induction calls generalizing w v with
  | nil => cases h; exact ha
  | cons call calls ih =>
    obtain ⟨w1, he, hr⟩ := run_cons h
    exact ih w1 (v.exec call.op) (exec_packed hc hw he) (queue_exec v _ hq) (ha.exec hc hw hq he) hr

/-- The same is sent on both. -/
theorem sent_alike {l : Limits} {c : Codec F X} (hc : Lawful c) (k : MsgKind) (u : UID) (src : Nat) (calls : List (Call F)) (w w' : World F X)
    (v : Bus.World F) (hw : AllPacked c w) (hq : v.queue = []) (ha : Alike w v)
    (hsrc : ∀ call ∈ calls, ∀ e m, call.op = .send e m → m.sender = u → e = src) (h : w.run l c calls = some (.ok w')) :
    (sentVia l c src w calls).filter (ofSender k u) = (Spec.sent v (calls.map (·.op))).filter (ofSender k u) := by
  induction calls generalizing w v with
  | nil => rfl
  | cons call calls ih =>
    obtain ⟨w1, he, hr⟩ := run_cons h
    rw [sentVia_cons he, List.map_cons]
    unfold Spec.sent
    rw [List.filter_append, List.filter_append, ih w1 (v.exec call.op) (exec_packed hc hw he) (queue_exec v _ hq) (ha.exec hc hw hq he)
      (fun x hx => hsrc x (List.mem_cons_of_mem _ hx)) hr]
    congr 1
    cases hop : call.op with
    | send e m =>
      simp only [sentNow]
      by_cases hm : ofSender k u m = true
      · have hu : m.sender = u := by
          unfold ofSender at hm; simp at hm; exact hm.2
        have := hsrc call (by simp) e m hop hu
        subst this
        simp only [true_and, ha.live]
      · have : ∀ (p q : Prop) [Decidable p] [Decidable q], (if p then [m] else []).filter (ofSender k u) =
            (if q then [m] else []).filter (ofSender k u) := by
          intro p q _ _
          by_cases p <;> by_cases q <;> simp [*]
        exact this _ _
    | _ => rfl

/-- Every call of a history that ran. -/
theorem sentVia_mem {l : Limits} {c : Codec F X} (calls : List (Call F)) (w : World F X) (e : Nat) (m : Message F)
    (h : m ∈ sentVia l c e w calls) : ∃ call ∈ calls, call.op = .send e m := by
  induction calls generalizing w with
  | nil => cases h
  | cons call calls ih =>
    unfold sentVia at h
    rcases List.mem_append.1 h with h | h
    · refine ⟨call, by simp, ?_⟩
      cases hop : call.op with
      | send e' m' =>
        rw [hop] at h
        simp only at h
        split at h
        · rename_i hc
          rw [List.mem_singleton.1 h, hc.1]
        · cases h
      | _ => rw [hop] at h; cases h
    · cases he : w.exec l c call with
      | none => rw [he] at h; cases h
      | some o =>
        rw [he] at h
        cases o with
        | ok w1 =>
          obtain ⟨x, hx, hx'⟩ := ih w1 h
          exact ⟨x, List.mem_cons_of_mem _ hx, hx'⟩
        | throw _ => cases h
        | ub => cases h

end Knp.Zmq
