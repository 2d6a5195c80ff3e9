import Verif.Lemmas.Bus
import Mathlib.Data.List.Dedup

/-! # C06–C14: message delivery through the in-process bus

`World.init` is a new bus, `World.run` executes a list of API calls; all theorems are about states
reached by arbitrary call lists.  Vocabulary: `Verif/Spec/Bus.lean`. -/

namespace Knp.Props
open Knp Knp.Bus Knp.Spec

variable {F : Type}

private theorem queue_reach (ops : List (Op F)) : (World.init.run ops).queue = [] :=
  queue_run _ ops rfl

private theorem covered_init (i : Nat) (ep : Endpoint F) (h : (World.init : World F).endpoint i = some ep) :
    Covered ep := by
  simp [World.endpoint, World.init] at h

private theorem run_append (w : World F) (a b : List (Op F)) : w.run (a ++ b) = (w.run a).run b := by
  simp [World.run, List.foldl_append]

/-! ## C06 -/

/-- C06, full statement: at any moment, sending a (not otherwise pending) message through any live
endpoint, routing and receiving adds exactly one copy to every subscription that wants it. -/
def C06_statement (F : Type) [DecidableEq F] : Prop :=
  ∀ (ops : List (Op F)) (j i : Nat) (k : MsgKind) (r : UID) (s : Subscr F) (m : Message F),
    let w := World.init.run ops
    (w.endpoint j).isSome → subscription w i k r = some s → Wants s m →
    m ∉ outbox w → m ∉ arrived w i →
    (stored (w.run [.send j m, .route, .receiveAll i]) i k r).count m = (stored w i k r).count m + 1

/-- C06 is false in general: a sender added through the `Subscription` reference that `subscribe`
returns (`add_sender`) is in the subscription's sender set but not in the endpoint's filter, so its
messages are not delivered. -/
theorem C06_direct_add_sender_refuted : ¬ C06_statement Nat := by
  intro h
  have := h [.createEndpoint, .subscribe 0 .spike 5 [], .subAddSender 0 .spike 5 7] 0 0 .spike 5
    (.mk .spike 5 [7] []) (.spike ⟨⟨7, 1⟩, [3]⟩) (by decide) (by decide) (by decide) (by decide) (by decide)
  exact absurd this (by decide)

/-- C06, exactly-once as a conservation law over arbitrary histories.  Take any history `pre`, then a
`subscribe<k>(r, xs)` on a live endpoint `i`, then any further calls `ops` that leave this subscription in
place (`Keeps`).  For every message `m` of kind `k` from a sender in `xs`: the copies unloaded by `r`, stored
for `r`, waiting in the endpoint, or waiting in an outbox at the end – plus those that were lost with a destroyed
endpoint – are exactly the copies there were at the start plus those sent.
(`_partial`: senders added with `Subscription::add_sender` are excluded, see the refutation.) -/
theorem C06_exactly_once_partial [DecidableEq F] (pre ops : List (Op F)) (i : Nat) (k : MsgKind) (r : UID)
    (xs : List UID) (m : Message F) :
    let w := (World.init.run pre).exec (.subscribe i k r xs)
    (w.endpoint i).isSome → m.kind = k → m.sender ∈ xs → Keeps i k r m.sender ops →
    (unloaded i k r w ops).count m + (stored (w.run ops) i k r).count m +
        (arrived (w.run ops) i).count m + (outbox (w.run ops)).count m + (lost w ops).count m =
      (stored w i k r).count m + (arrived w i).count m + (outbox w).count m + (sent w ops).count m := by
  intro w halive hk hx hkeep
  have hq : w.queue = [] := queue_exec _ _ (queue_reach pre)
  refine (ledger_run i k r m hk ops w hq ?_ hkeep).2
  obtain ⟨ep, he⟩ := Option.isSome_iff_exists.1 halive
  have he' : ((World.init.run pre).onEndpoint i (fun e => e.subscribe k r xs)).endpoint i = some ep := he
  rw [endpoint_onEndpoint] at he'
  obtain ⟨e0, h0, h1⟩ := Option.map_eq_some_iff.1 he'
  simp only [if_true] at h1
  subst h1
  refine ⟨_, _, he, by rw [findSub_subscribe]; simp; rfl, ?_, ?_⟩
  · simp [mem_setInsertAll, hx]
  · rw [(subscribe_frame e0 k r xs).1, mem_setInsertAll]; exact .inr hx

/-- C06, the reading "exactly once": if no copy of `m` existed when `r` subscribed, no endpoint was destroyed
with unrouted messages, and the calls end with a routing followed by a receive on the endpoint, then `r` gets (unloads or finds
stored) exactly as many copies of `m` as were sent – one for one. -/
theorem C06_each_send_delivered_once_partial [DecidableEq F] (pre ops : List (Op F)) (i : Nat) (k : MsgKind)
    (r : UID) (xs : List UID) (m : Message F) :
    let w := (World.init.run pre).exec (.subscribe i k r xs)
    let ops' := ops ++ [.route, .receiveAll i]
    (w.endpoint i).isSome → m.kind = k → m.sender ∈ xs → Keeps i k r m.sender ops →
    m ∉ stored w i k r → m ∉ arrived w i → m ∉ outbox w → lost w ops = [] →
    (unloaded i k r w ops' ++ stored (w.run ops') i k r).count m = (sent w ops).count m := by
  intro w ops' halive hk hx hkeep h1 h2 h3 h4
  have hkeep' : Keeps i k r m.sender ops' := by
    refine ⟨?_, ?_, ?_⟩
    · intro h; simp [ops'] at h; exact hkeep.1 h
    · intro h; simp [ops'] at h; exact hkeep.2.1 h
    · intro h; simp [ops'] at h; exact hkeep.2.2 h
  have hc := C06_exactly_once_partial pre ops' i k r xs m halive hk hx hkeep'
  change (unloaded i k r w ops').count m + (stored (w.run ops') i k r).count m +
        (arrived (w.run ops') i).count m + (outbox (w.run ops')).count m + (lost w ops').count m =
      (stored w i k r).count m + (arrived w i).count m + (outbox w).count m + (sent w ops').count m at hc
  have happ : ∀ (l : List (Op F)) (v : World F), lost v (l ++ [.route, .receiveAll i]) = lost v l ∧
      sent v (l ++ [.route, .receiveAll i]) = sent v l := by
    intro l
    induction l with
    | nil => intro v; exact ⟨rfl, rfl⟩
    | cons o l ih => intro v; simp [lost, sent, (ih (v.exec o)).1, (ih (v.exec o)).2]
  have hend : arrived (w.run ops') i = [] := by
    have : w.run ops' = (((w.run ops).exec .route).exec (.receiveAll i)) := by
      show w.run (ops ++ _) = _
      rw [run_append]; rfl
    rw [this, arrived_receiveAll]; simp
  have hout : outbox (w.run ops') = [] := by
    have : w.run ops' = (((w.run ops).exec .route).onEndpoint i (fun e => e.receiveAll.1)) := by
      show w.run (ops ++ _) = _
      rw [run_append]; rfl
    rw [this]
    unfold outbox
    rw [List.flatMap_eq_nil_iff]
    intro e _
    rw [outboxOf_onEndpoint _ _ _ (fun e => by rw [receiveAll_eq])]
    unfold outboxOf
    rw [endpoint_route]
    cases (w.run ops).endpoint e <;> rfl
  rw [List.count_eq_zero.2 h1, List.count_eq_zero.2 h2, List.count_eq_zero.2 h3, hend, hout, (happ ops w).1,
    (happ ops w).2, h4] at hc
  rw [List.count_append]
  simpa using hc

/-- Two endpoints, two messages (one of them sent twice), an unload in between. -/
example :
    let pre : List (Op Nat) := [.createEndpoint, .createEndpoint]
    let m : Message Nat := .spike ⟨⟨7, 1⟩, [3]⟩
    let w := (World.init.run pre).exec (.subscribe 1 .spike 5 [7, 8])
    let ops : List (Op Nat) := [.send 0 m, .route, .receiveMessage 1, .unload 1 .spike 5, .send 1 m,
      .send 0 (.impact ⟨⟨7, 1⟩, 0, 0, true, []⟩)]
    (w.endpoint 1).isSome ∧ Keeps 1 .spike 5 m.sender ops ∧ lost w ops = [] ∧
    unloaded 1 .spike 5 w (ops ++ [.route, .receiveAll 1]) = [m] ∧
    stored (w.run (ops ++ [.route, .receiveAll 1])) 1 .spike 5 = [m] := by
  refine ⟨by decide, ⟨by decide, by decide, by decide⟩, by decide, by decide, by decide⟩

/-! ## C07 -/

/-- C07, at the moment of receipt: whatever call is made in whatever reachable state, a message newly
present in the store of `(k, r)` on endpoint `i` was waiting in that endpoint, and the subscription as it
was just before the call had that message's kind and listed its sender. -/
theorem C07_stored_only_if_subscribed (ops : List (Op F)) (op : Op F) (i : Nat) (k : MsgKind) (r : UID)
    (m : Message F) :
    let w := World.init.run ops
    m ∈ stored (w.exec op) i k r → m ∉ stored w i k r →
    ∃ s, subscription w i k r = some s ∧ s.receiver = r ∧ s.kind = k ∧ m.kind = k ∧ m.sender ∈ s.senders ∧
      m ∈ arrived w i := by
  intro w hm hn
  have hq : w.queue = [] := queue_reach ops
  rw [stored_exec w hq] at hm
  have hn' : m ∉ ((subscription w i k r).map (·.messages)).getD [] := hn
  have habs : ∀ ms : List (Message F), (∀ x ∈ ms, x ∈ arrived w i) →
      m ∈ (((subscription w i k r).map (absorb ms)).map (·.messages)).getD [] →
      ∃ s, subscription w i k r = some s ∧ s.receiver = r ∧ s.kind = k ∧ m.kind = k ∧ m.sender ∈ s.senders ∧
        m ∈ arrived w i := by
    intro ms hms hm
    cases hs : subscription w i k r with
    | none => rw [hs] at hm; cases hm
    | some s =>
      rw [hs] at hm hn'
      simp only [Option.map_some, Option.getD_some, absorb, List.mem_append, List.mem_filter] at hm hn'
      rcases hm with hm | hm
      · exact absurd hm hn'
      · have hw := (accepts_iff s m).1 hm.2
        have hkey : s.kind = k ∧ s.receiver = r := by
          unfold subscription at hs
          obtain ⟨e, _, he2⟩ := Option.bind_eq_some_iff.1 hs
          exact findSub_key he2
        exact ⟨s, rfl, hkey.2, hkey.1, hw.1.symm.trans hkey.1, hw.2, hms m hm.1⟩
  cases op with
  | createEndpoint => exact absurd hm hn'
  | destroyEndpoint j =>
    simp only [subEffect] at hm
    split at hm
    · cases hm
    · exact absurd hm hn'
  | subscribe j k' r' xs =>
    simp only [subEffect] at hm
    split at hm <;> exact absurd hm hn'
  | unsubscribe j k' r' =>
    simp only [subEffect] at hm
    split at hm
    · cases hm
    · exact absurd hm hn'
  | subAddSender j k' r' x =>
    simp only [subEffect] at hm
    split at hm
    · cases hs : subscription w i k r <;> rw [hs] at hm hn' <;> exact absurd hm hn'
    · exact absurd hm hn'
  | subRemoveSender j k' r' x =>
    simp only [subEffect] at hm
    split at hm
    · cases hs : subscription w i k r <;> rw [hs] at hm hn' <;> exact absurd hm hn'
    · exact absurd hm hn'
  | send j m' => exact absurd hm hn'
  | receiveMessage j =>
    simp only [subEffect] at hm
    split at hm
    · refine habs _ ?_ hm
      intro x hx
      exact List.mem_of_getLast? (by simpa using hx)
    · exact absurd hm hn'
  | receiveAll j =>
    simp only [subEffect] at hm
    split at hm
    · exact habs _ (fun x hx => List.mem_reverse.1 hx) hm
    · exact absurd hm hn'
  | unload j k' r' =>
    simp only [subEffect] at hm
    split at hm
    · cases hs : subscription w i k r <;> rw [hs] at hm <;> cases hm
    · exact absurd hm hn'
  | busStep => exact absurd hm hn'
  | route => exact absurd hm hn'

private theorem unloaded_subset_stored (i : Nat) (k : MsgKind) (r : UID) (w : World F) (op : Op F) :
    ∀ m ∈ unloaded i k r w [op], m ∈ stored w i k r := by
  intro m hm
  cases op with
  | unload j k' r' =>
    simp only [unloaded, List.append_nil] at hm
    split at hm
    · simp only [stored, subscription]
      cases he : w.endpoint i with
      | none => rw [he] at hm; cases hm
      | some e =>
        rw [he] at hm
        simp only [Option.map_some, Option.getD_some, Option.bind_some, Endpoint.unload] at hm ⊢
        cases hf : e.findSub k r with
        | none => rw [hf] at hm; cases hm
        | some s => rw [hf] at hm; exact hm
    · cases hm
  | _ => simp [unloaded] at hm

/-- C07 over a whole history: everything a receiver `r` ever unloads (or still has stored) for kind `k` on
endpoint `i` is a message of kind `k` whose sender was put on `r`'s list by some call of the history, and
it is a message that was really sent during the history. -/
theorem C07_received_only_from_subscribed (ops : List (Op F)) (i : Nat) (k : MsgKind) (r : UID)
    (m : Message F) :
    m ∈ unloaded i k r World.init ops ++ stored (World.init.run ops) i k r →
    m.kind = k ∧ m.sender ∈ everSubscribed i k r ops ∧ m ∈ sent World.init ops := by
  -- generalise over the start state; `A` allowed senders, `S` sent messages
  suffices key : ∀ (A : List UID) (S : List (Message F)) (ops : List (Op F)) (w : World F), w.queue = [] →
      (∀ s, subscription w i k r = some s → ∀ u ∈ s.senders, u ∈ A) →
      (∀ m ∈ stored w i k r, m.kind = k ∧ m.sender ∈ A ∧ m ∈ S) →
      (∀ e, ∀ m ∈ arrived w e, m ∈ S) → (∀ e, ∀ m ∈ outboxOf w e, m ∈ S) →
      (∀ u ∈ everSubscribed i k r ops, u ∈ A) → (∀ m ∈ sent w ops, m ∈ S) →
      ∀ m ∈ unloaded i k r w ops ++ stored (w.run ops) i k r, m.kind = k ∧ m.sender ∈ A ∧ m ∈ S by
    intro hm
    refine key (everSubscribed i k r ops) (sent World.init ops) ops World.init rfl ?_ ?_ ?_ ?_
      (fun u h => h) (fun m h => h) m hm
    · intro s hs; simp [subscription, World.endpoint, World.init] at hs
    · intro m hm; simp [stored, subscription, World.endpoint, World.init] at hm
    · intro e m hm; simp [arrived, World.endpoint, World.init] at hm
    · intro e m hm; simp [outboxOf, World.endpoint, World.init] at hm
  intro A S ops
  induction ops with
  | nil =>
    intro w _ _ hst _ _ _ _ m hm
    simp only [unloaded, List.nil_append] at hm
    exact hst m hm
  | cons op ops ih =>
    intro w hq hA hst harr hout hes hsent m hm
    have hes1 : ∀ u ∈ everSubscribed i k r [op], u ∈ A := by
      intro u hu
      refine hes u ?_
      simp only [everSubscribed, List.append_nil, List.mem_append] at hu ⊢
      exact .inl hu
    have hes2 : ∀ u ∈ everSubscribed i k r ops, u ∈ A := by
      intro u hu; exact hes u (by simp only [everSubscribed, List.mem_append]; exact .inr hu)
    have hsent1 : ∀ x ∈ sent w [op], x ∈ S := by
      intro x hx
      refine hsent x ?_
      simp only [sent, List.append_nil, List.mem_append] at hx ⊢
      exact .inl hx
    have hsent2 : ∀ x ∈ sent (w.exec op) ops, x ∈ S := by
      intro x hx; exact hsent x (by simp only [sent, List.mem_append]; exact .inr hx)
    have hA' : ∀ s, subscription (w.exec op) i k r = some s → ∀ u ∈ s.senders, u ∈ A := by
      intro s hs u hu
      rw [subscription_exec w hq] at hs
      cases op with
      | destroyEndpoint j =>
        simp only [subEffect] at hs
        split at hs
        · cases hs
        · exact hA s hs u hu
      | unsubscribe j k' r' =>
        simp only [subEffect] at hs
        split at hs
        · cases hs
        · exact hA s hs u hu
      | subscribe j k' r' xs =>
        simp only [subEffect] at hs
        split at hs
        · rename_i hc
          cases hs
          simp only [mem_setInsertAll] at hu
          rcases hu with hu | hu
          · cases ho : subscription w i k r with
            | none => rw [ho] at hu; cases hu
            | some s0 => rw [ho] at hu; exact hA s0 ho u hu
          · refine hes1 u ?_
            simp [everSubscribed, hc.1, hc.2.1, hc.2.2.1, hu]
        · exact hA s hs u hu
      | subAddSender j k' r' x =>
        simp only [subEffect] at hs
        split at hs
        · rename_i hc
          obtain ⟨s0, h0, rfl⟩ := Option.map_eq_some_iff.1 hs
          simp only [Subscr.addSender, mem_setInsert] at hu
          rcases hu with hu | hu
          · exact hA s0 h0 u hu
          · refine hes1 u ?_
            simp [everSubscribed, hc.1, hc.2.1, hc.2.2, hu]
        · exact hA s hs u hu
      | subRemoveSender j k' r' x =>
        simp only [subEffect] at hs
        split at hs
        · obtain ⟨s0, h0, rfl⟩ := Option.map_eq_some_iff.1 hs
          exact hA s0 h0 u (List.mem_filter.1 hu).1
        · exact hA s hs u hu
      | receiveMessage j =>
        simp only [subEffect] at hs
        split at hs
        · obtain ⟨s0, h0, rfl⟩ := Option.map_eq_some_iff.1 hs; exact hA s0 h0 u hu
        · exact hA s hs u hu
      | receiveAll j =>
        simp only [subEffect] at hs
        split at hs
        · obtain ⟨s0, h0, rfl⟩ := Option.map_eq_some_iff.1 hs; exact hA s0 h0 u hu
        · exact hA s hs u hu
      | unload j k' r' =>
        simp only [subEffect] at hs
        split at hs
        · obtain ⟨s0, h0, rfl⟩ := Option.map_eq_some_iff.1 hs; exact hA s0 h0 u hu
        · exact hA s hs u hu
      | createEndpoint => exact hA s hs u hu
      | send j m' => exact hA s hs u hu
      | busStep => exact hA s hs u hu
      | route => exact hA s hs u hu
    have habs : ∀ ms : List (Message F), (∀ x ∈ ms, x ∈ arrived w i) →
        ∀ x ∈ (((subscription w i k r).map (absorb ms)).map (·.messages)).getD [],
          x.kind = k ∧ x.sender ∈ A ∧ x ∈ S := by
      intro ms hms x hx
      cases hs : subscription w i k r with
      | none => rw [hs] at hx; cases hx
      | some s =>
        rw [hs] at hx
        simp only [Option.map_some, Option.getD_some, absorb, List.mem_append, List.mem_filter] at hx
        rcases hx with hx | hx
        · exact hst x (by simp [stored, hs, hx])
        · have hw := (accepts_iff s x).1 hx.2
          have hkey : s.kind = k ∧ s.receiver = r := by
            unfold subscription at hs
            obtain ⟨e, _, he2⟩ := Option.bind_eq_some_iff.1 hs
            exact findSub_key he2
          exact ⟨hw.1.symm.trans hkey.1, hA s hs _ hw.2, harr i x (hms x hx.1)⟩
    have hst' : ∀ x ∈ stored (w.exec op) i k r, x.kind = k ∧ x.sender ∈ A ∧ x ∈ S := by
      intro x hx
      rw [stored_exec w hq] at hx
      have hst0 : ∀ x ∈ ((subscription w i k r).map (·.messages)).getD [],
        x.kind = k ∧ x.sender ∈ A ∧ x ∈ S := hst
      cases op with
      | destroyEndpoint j =>
        simp only [subEffect] at hx
        split at hx
        · cases hx
        · exact hst0 x hx
      | unsubscribe j k' r' =>
        simp only [subEffect] at hx
        split at hx
        · cases hx
        · exact hst0 x hx
      | subscribe j k' r' xs =>
        simp only [subEffect] at hx
        split at hx <;> exact hst0 x hx
      | subAddSender j k' r' y =>
        simp only [subEffect] at hx
        split at hx
        · refine hst0 x ?_; cases hs : subscription w i k r <;> rw [hs] at hx <;> exact hx
        · exact hst0 x hx
      | subRemoveSender j k' r' y =>
        simp only [subEffect] at hx
        split at hx
        · refine hst0 x ?_; cases hs : subscription w i k r <;> rw [hs] at hx <;> exact hx
        · exact hst0 x hx
      | receiveMessage j =>
        simp only [subEffect] at hx
        split at hx
        · refine habs _ ?_ x hx
          intro y hy
          exact List.mem_of_getLast? (by simpa using hy)
        · exact hst0 x hx
      | receiveAll j =>
        simp only [subEffect] at hx
        split at hx
        · exact habs _ (fun y hy => List.mem_reverse.1 hy) x hx
        · exact hst0 x hx
      | unload j k' r' =>
        simp only [subEffect] at hx
        split at hx
        · cases hs : subscription w i k r <;> rw [hs] at hx <;> cases hx
        · exact hst0 x hx
      | createEndpoint => exact hst0 x hx
      | send j m' => exact hst0 x hx
      | busStep => exact hst0 x hx
      | route => exact hst0 x hx
    have harr' : ∀ e, ∀ x ∈ arrived (w.exec op) e, x ∈ S := by
      intro e x hx
      rcases arrived_exec w hq e op with ⟨d, hd⟩ | ⟨_, ep, _, hd⟩
      · rw [hd] at hx; exact harr e x (List.mem_of_mem_take hx)
      · rw [hd] at hx
        rcases List.mem_append.1 hx with hx | hx
        · exact harr e x hx
        · have := List.mem_reverse.1 (List.mem_filter.1 hx).1
          obtain ⟨e', _, h'⟩ := List.mem_flatMap.1 this
          exact hout e' x h'
    have hout' : ∀ e, ∀ x ∈ outboxOf (w.exec op) e, x ∈ S := by
      intro e x hx
      rcases outboxOf_exec w hq e op with h | h | ⟨m', h, ha, h'⟩
      · rw [h] at hx; exact hout e x hx
      · rw [h] at hx; cases hx
      · rw [h'] at hx
        rcases List.mem_append.1 hx with hx | hx
        · exact hout e x hx
        · refine hsent1 x ?_
          subst h
          simp only [sent, ha, if_true, List.append_nil]
          exact hx
    have hrest := ih (w.exec op) (queue_exec w op hq) hA' hst' harr' hout' hes2 hsent2
    have hrun : w.run (op :: ops) = (w.exec op).run ops := rfl
    rw [hrun] at hm
    have hsplit : unloaded i k r w (op :: ops) = unloaded i k r w [op] ++ unloaded i k r (w.exec op) ops := by
      simp [unloaded]
    rw [hsplit, List.append_assoc] at hm
    rcases List.mem_append.1 hm with hm | hm
    · exact hst m (unloaded_subset_stored i k r w op m hm)
    · exact hrest m hm

example :
    let ops : List (Op Nat) := [.createEndpoint, .subscribe 0 .spike 5 [7], .send 0 (.spike ⟨⟨7, 1⟩, [3]⟩),
      .send 0 (.spike ⟨⟨8, 1⟩, [4]⟩), .send 0 (.impact ⟨⟨7, 1⟩, 0, 0, true, []⟩), .route, .receiveAll 0]
    stored (World.init.run ops) 0 .spike 5 = [.spike ⟨⟨7, 1⟩, [3]⟩] := by decide

/-! ## C08 -/

/-- C08, full statement: if all messages of sender `u` are sent through endpoint `src`, every receiver sees
(a subsequence of) them in sending order. -/
def C08_statement (F : Type) : Prop :=
  ∀ (ops : List (Op F)) (src : Nat) (u : UID) (i : Nat) (k : MsgKind) (r : UID),
    (∀ e m, Op.send e m ∈ ops → m.sender = u → e = src) →
    ((unloaded i k r World.init ops ++ stored (World.init.run ops) i k r).filter (fun m => m.sender == u)).Sublist
      ((sent World.init ops).filter (fun m => m.sender == u))

/-- C08 is false: when the bus routes twice before the endpoint receives, the later message is received
first. -/
theorem C08_order_refuted : ¬ C08_statement Nat := by
  intro h
  have := h [.createEndpoint, .subscribe 0 .spike 5 [7], .send 0 (.spike ⟨⟨7, 1⟩, [1]⟩), .route,
    .send 0 (.spike ⟨⟨7, 2⟩, [2]⟩), .route, .receiveAll 0] 0 7 0 .spike 5 (by
      intro e m h _; simp at h; rcases h with h | h <;> exact h.1)
  exact absurd this (by decide)

/-- C08, what holds: the order is kept for every history in which the receiving endpoint has taken in
everything routed to it before the bus routes again (this is how the backends use the bus). -/
theorem C08_order_partial (ops : List (Op F)) (src : Nat) (u : UID) (i : Nat) (k : MsgKind) (r : UID)
    (hsrc : ∀ e m, Op.send e m ∈ ops → m.sender = u → e = src)
    (hrecv : ReceivesBetweenRoutes i World.init ops) :
    ((unloaded i k r World.init ops ++ stored (World.init.run ops) i k r).filter (fun m => m.sender == u)).Sublist
      ((sent World.init ops).filter (fun m => m.sender == u)) := by
  let p : Message F → Bool := fun m => m.sender == u
  suffices key : ∀ (ops : List (Op F)) (w : World F) (L S : List (Message F)), w.queue = [] →
      (∀ e m, Op.send e m ∈ ops → m.sender = u → e = src) → ReceivesBetweenRoutes i w ops →
      (∀ e, e ≠ src → (outboxOf w e).filter p = []) →
      ((L ++ stored w i k r ++ (arrived w i).reverse ++ outboxOf w src).filter p).Sublist (S.filter p) →
      ((L ++ unloaded i k r w ops ++ stored (w.run ops) i k r).filter p).Sublist ((S ++ sent w ops).filter p) by
    have h := key ops World.init [] [] rfl hsrc hrecv (by
      intro e _; simp [outboxOf, World.endpoint, World.init]) (by
      simp [stored, subscription, arrived, outboxOf, World.endpoint, World.init])
    simpa using h
  intro ops
  induction ops with
  | nil =>
    intro w L S _ _ _ _ h
    simp only [unloaded, sent, List.append_nil, World.run, List.foldl_nil]
    refine List.Sublist.trans ?_ h
    rw [List.append_assoc (L ++ stored w i k r), List.filter_append (L ++ stored w i k r)]
    exact List.sublist_append_left _ _
  | cons op ops ih =>
    intro w L S hq hs hrb hother hsub
    have hq' := queue_exec w op hq
    have hs' : ∀ e m, Op.send e m ∈ ops → m.sender = u → e = src :=
      fun e m hm => hs e m (List.mem_cons_of_mem _ hm)
    have hother' : ∀ e, e ≠ src → (outboxOf (w.exec op) e).filter p = [] := by
      intro e he
      rcases outboxOf_exec w hq e op with h | h | ⟨m', h, _, h'⟩
      · rw [h]; exact hother e he
      · rw [h]; rfl
      · rw [h', List.filter_append, hother e he]
        have : p m' = false := by
          by_cases hu : m'.sender = u
          · exact absurd (hs e m' (by rw [h]; simp) hu) he
          · simpa [p] using hu
        simp [this]
    have hsplit : unloaded i k r w (op :: ops) = unloaded i k r w [op] ++ unloaded i k r (w.exec op) ops := by
      simp [unloaded]
    have hsplit2 : sent w (op :: ops) = sent w [op] ++ sent (w.exec op) ops := by simp [sent]
    have hrun : w.run (op :: ops) = (w.exec op).run ops := rfl
    have step : (((L ++ unloaded i k r w [op]) ++ stored (w.exec op) i k r ++ (arrived (w.exec op) i).reverse ++
        outboxOf (w.exec op) src).filter p).Sublist ((S ++ sent w [op]).filter p) := by
      by_cases hroute : op = .route
      · subst hroute
        have harr0 : arrived w i = [] := hrb.1 rfl
        have hst : stored (w.exec .route) i k r = stored w i k r := by
          rw [stored_exec w hq]; rfl
        have hout : outboxOf (w.exec .route) src = [] := by
          unfold outboxOf; rw [endpoint_route]; cases w.endpoint src <;> rfl
        have hu : unloaded i k r w [Op.route] = [] := rfl
        have hse : sent w [Op.route] = [] := rfl
        rw [hst, hout, hu, hse, List.append_nil, List.append_nil, List.append_nil]
        refine List.Sublist.trans ?_ hsub
        rw [harr0]
        simp only [List.reverse_nil, List.append_nil, List.filter_append]
        refine (List.Sublist.refl _).append ?_
        rcases arrived_exec w hq i .route with ⟨d, hd⟩ | ⟨_, ep, _, hd⟩
        · rw [hd, harr0]; simp
        · rw [hd, harr0, List.nil_append, ← outbox_filter_single w p src hother]
          simp only [List.filter_reverse, List.reverse_reverse, List.filter_filter]
          have : (List.filter (fun a => p a && ep.senders.contains a.sender) (outbox w)) =
              ((outbox w).filter p).filter (fun a => ep.senders.contains a.sender) := by
            rw [List.filter_filter]; congr 1; funext a; exact Bool.and_comm _ _
          rw [this]
          exact List.filter_sublist
      · have hp := pipeline_exec w hq i k r op hroute
        have hout : (outboxOf (w.exec op) src).Sublist (outboxOf w src ++ sent w [op]) := by
          rcases outboxOf_exec w hq src op with h | h | ⟨m', h, ha, h'⟩
          · rw [h]; exact List.sublist_append_left _ _
          · rw [h]; exact List.nil_sublist _
          · rw [h']
            subst h
            simp only [sent, ha, if_true, List.append_nil]
            exact List.Sublist.refl _
        have h1 := (((List.Sublist.refl L).append hp).append hout).filter p
        refine List.Sublist.trans (by simpa only [List.append_assoc] using h1) ?_
        have : (L ++ (stored w i k r ++ (arrived w i).reverse) ++ (outboxOf w src ++ sent w [op])) =
            (L ++ stored w i k r ++ (arrived w i).reverse ++ outboxOf w src) ++ sent w [op] := by
          simp only [List.append_assoc]
        rw [show L ++ (stored w i k r ++ ((arrived w i).reverse ++ (outboxOf w src ++ sent w [op]))) =
          (L ++ stored w i k r ++ (arrived w i).reverse ++ outboxOf w src) ++ sent w [op] by
            simp only [List.append_assoc]]
        rw [List.filter_append _ (sent w [op]), List.filter_append S]
        exact hsub.append (List.Sublist.refl _)
    have := ih (w.exec op) (L ++ unloaded i k r w [op]) (S ++ sent w [op]) hq' hs' hrb.2 hother' step
    rw [hsplit, hsplit2, hrun]
    simpa only [List.append_assoc] using this

example :
    let ops : List (Op Nat) := [.createEndpoint, .createEndpoint, .subscribe 1 .spike 5 [7],
      .send 0 (.spike ⟨⟨7, 1⟩, [1]⟩), .send 0 (.spike ⟨⟨7, 2⟩, [2]⟩), .route, .receiveAll 1,
      .unload 1 .spike 5, .send 0 (.spike ⟨⟨7, 3⟩, [3]⟩), .route, .receiveMessage 1]
    ReceivesBetweenRoutes 1 World.init ops ∧
    unloaded 1 .spike 5 World.init ops ++ stored (World.init.run ops) 1 .spike 5 =
      [.spike ⟨⟨7, 1⟩, [1]⟩, .spike ⟨⟨7, 2⟩, [2]⟩, .spike ⟨⟨7, 3⟩, [3]⟩] := by
  refine ⟨?_, by decide⟩
  simp only [ReceivesBetweenRoutes]
  refine ⟨by decide, by decide, by decide, by decide, by decide, by decide, by decide, by decide, by decide,
    by decide, by decide, trivial⟩

/-! ## C09 -/

/-- C09: in every reachable state `route_messages()` returns the number of unrouted messages of the live
endpoints, leaves none, and a second call returns 0 and changes nothing. -/
theorem C09_route_drains (ops : List (Op F)) :
    let w := World.init.run ops
    w.route.2 = (outbox w).length ∧ outbox w.route.1 = [] ∧ w.route.1.queue = [] ∧
    w.route.1.route = (w.route.1, 0) := by
  intro w
  have hq : w.queue = [] := queue_reach ops
  have hout : outbox w.route.1 = [] := outbox_route w
  have hq' : w.route.1.queue = [] := by rw [route_eq]
  refine ⟨by rw [route_eq]; simp [update_queue w hq], hout, hq', ?_⟩
  rw [route_eq (w.route.1), update_queue _ hq', hout]
  refine Prod.ext ?_ rfl
  have hid : (offerAll ([] : List (Message F))) = id := funext offerAll_nil
  simp only [List.reverse_nil, hid, List.map_id]
  have hslots : (w.route.1).update.slots = w.route.1.slots := by
    rw [route_eq]
    simp only [World.update, List.map_map]
    apply List.map_congr_left
    intro s _
    obtain ⟨al, ep⟩ := s
    cases al <;> simp [offerAll]
  rw [hslots]
  show _ = World.mk _ _
  rw [hq']

/-- C09: the returned number is the number of messages sent since the previous call of
`route_messages()`, minus those sent through endpoints that were destroyed since. -/
theorem C09_route_count (pre ops : List (Op F)) (h : Op.route ∉ ops) :
    let w := World.init.run (pre ++ [.route])
    (w.run ops).route.2 + (lost w ops).length = (sent w ops).length := by
  intro w
  have hq : w.queue = [] := queue_reach _
  have hout : outbox w = [] := by
    show outbox (World.init.run (pre ++ [.route])) = []
    rw [run_append]
    exact outbox_route _
  have hl := length_outbox_run ops w hq h
  rw [hout] at hl
  rw [route_eq, update_queue _ (queue_run w ops hq)]
  simpa using hl

example :
    let w : World Nat := World.init.run ([.createEndpoint, .createEndpoint, .send 0 (.spike ⟨⟨1, 1⟩, [1]⟩)] ++ [.route])
    let ops : List (Op Nat) := [.send 0 (.spike ⟨⟨1, 2⟩, [1]⟩), .send 1 (.spike ⟨⟨2, 2⟩, []⟩),
      .destroyEndpoint 1, .send 1 (.spike ⟨⟨1, 3⟩, [4]⟩)]
    (w.run ops).route.2 = 1 ∧ (lost w ops).length = 1 ∧ (sent w ops).length = 2 := by decide

/-! ## C10 -/

/-- C10: `unsubscribe` reports whether a subscription existed, removes it, and touches no other
subscription, no stored message and no endpoint queue. -/
theorem C10_unsubscribe (e : Endpoint F) (k : MsgKind) (r : UID) :
    ((e.unsubscribe k r).2 = true ↔ ∃ s ∈ e.subs, s.kind = k ∧ s.receiver = r) ∧
    (e.unsubscribe k r).1.findSub k r = none ∧
    (∀ k' r', (k', r') ≠ (k, r) → (e.unsubscribe k r).1.findSub k' r' = e.findSub k' r') ∧
    (e.unsubscribe k r).1.recv = e.recv ∧ (e.unsubscribe k r).1.toSend = e.toSend := by
  refine ⟨?_, ?_, ?_, (unsubscribe_frame e k r).2.1, (unsubscribe_frame e k r).2.2⟩
  · unfold Endpoint.unsubscribe
    cases h : e.findSub k r with
    | none =>
      simp only [Bool.false_eq_true, false_iff]
      rintro ⟨s, hs, h1, h2⟩
      have := List.find?_eq_none.1 h s hs
      simp [Subscr.hasKey, h1, h2] at this
    | some s =>
      simp only [true_iff]
      exact ⟨s, findSub_mem h, findSub_key h⟩
  · rw [findSub_unsubscribe]; simp
  · intro k' r' hne
    rw [findSub_unsubscribe]
    have : ¬ (k = k' ∧ r = r') := fun hh => hne (by rw [hh.1, hh.2])
    simp [this]

/-- C10 over histories: after `unsubscribe`, whatever calls follow (sends, routing, receiving, other
subscriptions …) other than a new `subscribe` of the same key, nothing is stored for or returned to the
receiver. -/
theorem C10_nothing_after_unsubscribe (pre ops : List (Op F)) (i : Nat) (k : MsgKind) (r : UID)
    (h : ∀ xs, Op.subscribe i k r xs ∉ ops) :
    let w := World.init.run (pre ++ [.unsubscribe i k r])
    unloaded i k r w ops = [] ∧ stored (w.run ops) i k r = [] := by
  intro w
  have hq : w.queue = [] := queue_reach _
  have hnone : subscription w i k r = none := by
    show subscription (World.init.run (pre ++ [.unsubscribe i k r])) i k r = none
    rw [run_append]
    show subscription ((World.init.run pre).exec (.unsubscribe i k r)) i k r = none
    rw [subscription_exec _ (queue_reach pre)]
    simp [subEffect]
  clear_value w
  induction ops generalizing w with
  | nil => simp [unloaded, World.run, stored, hnone]
  | cons op ops ih =>
    have hnone' : subscription (w.exec op) i k r = none := by
      rw [subscription_exec w hq, hnone]
      cases op with
      | subscribe j k' r' xs =>
        simp only [subEffect]
        split
        · rename_i hc
          obtain ⟨rfl, rfl, rfl, _⟩ := hc
          exact absurd List.mem_cons_self (h xs)
        · rfl
      | _ => simp [subEffect]
    have := ih (fun xs hx => h xs (List.mem_cons_of_mem _ hx)) (w.exec op) (queue_exec w op hq) hnone'
    refine ⟨?_, this.2⟩
    have hsplit : unloaded i k r w (op :: ops) = unloaded i k r w [op] ++ unloaded i k r (w.exec op) ops := by
      simp [unloaded]
    rw [hsplit, this.1, List.append_nil]
    apply List.eq_nil_iff_forall_not_mem.2
    intro m hm
    have := unloaded_subset_stored i k r w op m hm
    simp [stored, hnone] at this

example :
    let ops : List (Op Nat) := [.send 0 (.spike ⟨⟨7, 1⟩, [1]⟩), .route, .receiveAll 0, .unload 0 .spike 5,
      .unload 0 .spike 6]
    let w : World Nat := World.init.run ([.createEndpoint, .subscribe 0 .spike 5 [7], .subscribe 0 .spike 6 [7]] ++
      [.unsubscribe 0 .spike 5])
    unloaded 0 .spike 6 w ops = [.spike ⟨⟨7, 1⟩, [1]⟩] ∧ unloaded 0 .spike 5 w ops = [] := by decide

/-! ## C11 -/

/-- C11, full statement: in a reachable state, a message sent through a live endpoint and routed
arrives at endpoint `i` exactly if some subscription of `i` lists its sender. -/
def C11_statement (F : Type) : Prop :=
  ∀ (ops : List (Op F)) (i j : Nat) (ep : Endpoint F) (m : Message F), NoDirectAdd ops →
    let w := World.init.run ops
    w.endpoint i = some ep → (w.endpoint j).isSome → m ∉ arrived w i →
    (m ∈ arrived (w.run [.send j m, .route]) i ↔ ∃ s ∈ ep.subs, m.sender ∈ s.senders)

/-- C11 is false: after its only subscription is removed, an endpoint still takes delivery of the
sender's messages (`update_senders` drops the set it computes). -/
theorem C11_filter_refuted : ¬ C11_statement Nat := by
  intro h
  have := h [.createEndpoint, .subscribe 0 .spike 5 [7], .unsubscribe 0 .spike 5] 0 0
    (.mk [] [7] [] []) (.spike ⟨⟨7, 1⟩, [1]⟩) (by intro i k r x; simp) (by decide) (by decide) (by decide)
  exact absurd this (by decide)

private theorem senders_ever (ops : List (Op F)) (i : Nat) :
    ∀ ep, (World.init.run ops).endpoint i = some ep → ∀ u ∈ ep.senders, u ∈ everFiltered i ops := by
  suffices key : ∀ (A : List UID) (ops : List (Op F)) (w : World F), w.queue = [] →
      (∀ ep, w.endpoint i = some ep → ∀ u ∈ ep.senders, u ∈ A) → (∀ u ∈ everFiltered i ops, u ∈ A) →
      ∀ ep, (w.run ops).endpoint i = some ep → ∀ u ∈ ep.senders, u ∈ A from
    key _ ops World.init rfl (by intro ep h; simp [World.endpoint, World.init] at h) (fun u h => h)
  intro A ops
  induction ops with
  | nil => intro w _ h _; exact h
  | cons op ops ih =>
    intro w hq h hA
    refine ih (w.exec op) (queue_exec w op hq) ?_ (fun u hu => hA u (by simp [everFiltered, hu]))
    have on : ∀ (j : Nat) (f : Endpoint F → Endpoint F), (∀ e, ∀ u ∈ (f e).senders, u ∈ e.senders ∨ (i = j → u ∈ A)) →
        ∀ ep, (w.onEndpoint j f).endpoint i = some ep → ∀ u ∈ ep.senders, u ∈ A := by
      intro j f hf ep he u hu
      rw [endpoint_onEndpoint] at he
      obtain ⟨e0, h0, rfl⟩ := Option.map_eq_some_iff.1 he
      split at hu
      · rename_i hij
        rcases hf e0 u hu with h1 | h1
        · exact h e0 h0 u h1
        · exact h1 hij
      · exact h e0 h0 u hu
    cases op with
    | createEndpoint =>
      intro ep he u hu
      rw [endpoint_create] at he
      split at he
      · cases he; cases hu
      · exact h ep he u hu
    | destroyEndpoint j =>
      intro ep he u hu
      rw [endpoint_destroy] at he
      split at he
      · cases he
      · exact h ep he u hu
    | subscribe j k r xs =>
      refine on j (fun e => e.subscribe k r xs) ?_
      intro e u hu
      rw [(subscribe_frame e k r xs).1, mem_setInsertAll] at hu
      rcases hu with hu | hu
      · exact .inl hu
      · right; intro hij; exact hA u (by simp [everFiltered, hij, hu])
    | unsubscribe j k r =>
      refine on j (fun e => (e.unsubscribe k r).1) ?_
      intro e u hu; rw [(unsubscribe_frame e k r).1] at hu; exact .inl hu
    | subAddSender j k r x => exact on j (fun ep => ep.modifySub k r _) (fun e u hu => .inl hu)
    | subRemoveSender j k r x => exact on j (fun ep => ep.modifySub k r _) (fun e u hu => .inl hu)
    | send j m => exact on j (fun ep => ep.send m) (fun e u hu => .inl hu)
    | receiveMessage j =>
      refine on j (fun ep => ep.receiveMessage.1) ?_
      intro e u hu; rw [receiveMessage_eq] at hu; exact .inl hu
    | receiveAll j =>
      refine on j (fun ep => ep.receiveAll.1) ?_
      intro e u hu; rw [receiveAll_eq] at hu; exact .inl hu
    | unload j k r =>
      refine on j (fun e => (e.unload k r).1) ?_
      intro e u hu; rw [(unload_fst_frame e k r).1] at hu; exact .inl hu
    | busStep => rw [endpoint_step_nil w hq]; exact h
    | route =>
      intro ep he u hu
      rw [endpoint_route] at he
      obtain ⟨e0, h0, rfl⟩ := Option.map_eq_some_iff.1 he
      exact h e0 h0 u hu

/-- C11, what holds: the filter is never too narrow (a message from a listed sender always arrives), and
it passes only senders that some `subscribe` call on this endpoint named at some time.  It is not narrowed
again when subscriptions go (see the refutation). -/
theorem C11_filter_partial (ops : List (Op F)) (i j : Nat) (ep : Endpoint F) (m : Message F) (hd : NoDirectAdd ops) :
    let w := World.init.run ops
    w.endpoint i = some ep → (w.endpoint j).isSome →
    ((∃ s ∈ ep.subs, m.sender ∈ s.senders) → m ∈ arrived (w.run [.send j m, .route]) i) ∧
    (m ∉ arrived w i → m ∈ arrived (w.run [.send j m, .route]) i → m.sender ∈ everFiltered i ops) := by
  intro w he hj
  have hq : w.queue = [] := queue_reach ops
  have hq1 := queue_exec w (.send j m) hq
  -- endpoint `i` after the send: same filter, same arrived messages
  have he1 : ∃ ep1, (w.exec (.send j m)).endpoint i = some ep1 ∧ ep1.senders = ep.senders ∧ ep1.recv = ep.recv := by
    show ∃ ep1, (w.onEndpoint j _).endpoint i = some ep1 ∧ _
    rw [endpoint_onEndpoint, he]
    refine ⟨_, rfl, ?_⟩
    split <;> exact ⟨rfl, rfl⟩
  obtain ⟨ep1, he1, hs1, hr1⟩ := he1
  have harr : arrived (w.run [.send j m, .route]) i =
      ep.recv ++ (outbox (w.exec (.send j m))).reverse.filter (fun x => ep.senders.contains x.sender) := by
    show arrived ((w.exec (.send j m)).exec .route) i = _
    unfold arrived
    rw [endpoint_route, he1, update_queue _ hq1]
    simp [routed, hs1, hr1]
  have hmem : m ∈ outbox (w.exec (.send j m)) := by
    obtain ⟨ej, hej⟩ := Option.isSome_iff_exists.1 hj
    have hlt := endpoint_lt hej
    have hlen : (w.exec (.send j m)).slots.length = w.slots.length := slots_length_onEndpoint _ _ _
    unfold outbox
    rw [List.mem_flatMap]
    refine ⟨j, List.mem_range.2 (by omega), ?_⟩
    unfold outboxOf
    show m ∈ (((w.onEndpoint j _).endpoint j).map _).getD []
    rw [endpoint_onEndpoint, hej]
    simp [Endpoint.send]
  constructor
  · rintro ⟨s, hs, hu⟩
    rw [harr, List.mem_append]
    right
    rw [List.mem_filter]
    refine ⟨List.mem_reverse.2 hmem, ?_⟩
    simpa using covered_run ops hd World.init rfl covered_init i ep he s hs _ hu
  · intro hn hm
    rw [harr, List.mem_append] at hm
    rcases hm with hm | hm
    · rw [arrived_of he] at hn; exact absurd hm hn
    · refine senders_ever ops i ep he _ ?_
      simpa using (List.mem_filter.1 hm).2

/-! ## C12 -/

/-- C12, full statement: `remove_receiver` is defined and removes exactly `r`'s subscriptions. -/
def C12_statement (F : Type) : Prop :=
  ∀ (e : Endpoint F) (r : UID), ∃ e', e.removeReceiver r = .ok e' ∧
    e'.subs = e.subs.filter (fun s => s.receiver != r)

/-- C12 is false: on an endpoint where `r` has a subscription the call increments an erased iterator –
undefined behaviour – so exactly the calls that would have something to do are undefined. -/
theorem C12_remove_receiver_refuted : ¬ C12_statement Nat := by
  intro h
  obtain ⟨e', h', _⟩ := h (.mk [.mk .spike 5 [7] []] [7] [] []) 5
  exact absurd h' (by simp [Endpoint.removeReceiver])

/-- C12, exact characterisation: undefined iff `r` has a subscription; otherwise nothing changes. -/
theorem C12_remove_receiver_partial (e : Endpoint F) (r : UID) :
    (e.removeReceiver r = .ub ↔ ∃ s ∈ e.subs, s.receiver = r) ∧
    ((∀ s ∈ e.subs, s.receiver ≠ r) → e.removeReceiver r = .ok e ∧
      e.subs = e.subs.filter (fun s => s.receiver != r)) := by
  unfold Endpoint.removeReceiver
  constructor
  · constructor
    · intro h
      split at h
      · rename_i ha
        obtain ⟨s, hs, hr⟩ := List.any_eq_true.1 ha
        exact ⟨s, hs, by simpa using hr⟩
      · cases h
    · rintro ⟨s, hs, hr⟩
      have : e.subs.any (fun s => s.receiver == r) = true := List.any_eq_true.2 ⟨s, hs, by simpa using hr⟩
      simp [this]
  · intro h
    have : e.subs.any (fun s => s.receiver == r) = false := by
      rw [Bool.eq_false_iff]
      intro ha
      obtain ⟨s, hs, hr⟩ := List.any_eq_true.1 ha
      exact h s hs (by simpa using hr)
    refine ⟨by simp [this, Endpoint.updateSenders], ?_⟩
    symm
    rw [List.filter_eq_self]
    intro s hs
    simpa using h s hs

/-! ## C13 -/

/-- C13: one `unload` returns exactly what is stored for the key, empties it, and leaves every other
store and the endpoint's queues as they are. -/
theorem C13_unload (e : Endpoint F) (k : MsgKind) (r : UID) :
    (e.unload k r).2 = ((e.findSub k r).map (·.messages)).getD [] ∧
    ((e.unload k r).1.findSub k r).map (·.messages) = (e.findSub k r).map (fun _ => []) ∧
    ((e.unload k r).1.findSub k r).map (·.senders) = (e.findSub k r).map (·.senders) ∧
    (∀ k' r', (k', r') ≠ (k, r) → (e.unload k r).1.findSub k' r' = e.findSub k' r') ∧
    (e.unload k r).1.recv = e.recv ∧ (e.unload k r).1.toSend = e.toSend := by
  refine ⟨?_, ?_, ?_, ?_, (unload_fst_frame e k r).2.1, (unload_fst_frame e k r).2.2⟩
  · unfold Endpoint.unload; cases e.findSub k r <;> rfl
  · rw [unload_fst_findSub]; cases e.findSub k r <;> simp
  · rw [unload_fst_findSub]; cases e.findSub k r <;> simp
  · intro k' r' hne
    rw [unload_fst_findSub]
    have : ¬ (k = k' ∧ r = r') := fun hh => hne (by rw [hh.1, hh.2])
    simp [this]

/-- C13 over histories: as long as the subscription stays, the messages unloaded so far followed by those
still stored are exactly the ones stored at the start followed by those accepted since – in order, none lost
and none returned twice. -/
theorem C13_unload_history (pre ops : List (Op F)) (i : Nat) (k : MsgKind) (r : UID)
    (h1 : Op.destroyEndpoint i ∉ ops) (h2 : Op.unsubscribe i k r ∉ ops) :
    let w := World.init.run pre
    (subscription w i k r).isSome →
    unloaded i k r w ops ++ stored (w.run ops) i k r = stored w i k r ++ accepted i k r w ops := by
  intro w hsome
  have hq : w.queue = [] := queue_reach pre
  clear_value w
  induction ops generalizing w with
  | nil => simp [unloaded, accepted, World.run]
  | cons op ops ih =>
    obtain ⟨s, hs⟩ := Option.isSome_iff_exists.1 hsome
    have hsplit : unloaded i k r w (op :: ops) = unloaded i k r w [op] ++ unloaded i k r (w.exec op) ops := by
      simp [unloaded]
    have hsplit2 : accepted i k r w (op :: ops) = accepted i k r w [op] ++ accepted i k r (w.exec op) ops := by
      simp [accepted]
    have hrun : w.run (op :: ops) = (w.exec op).run ops := rfl
    have hsub := subscription_exec w hq i k r op
    have hst0 : stored w i k r = s.messages := by simp [stored, hs]
    have haccept : ∀ ms : List (Message F), ms.filter (accepts s) = ms.filter (fun m => decide (Wants s m)) := by
      intro ms
      congr 1
      funext m
      by_cases hw : Wants s m
      · simp [hw, (accepts_iff s m).2 hw]
      · have : accepts s m = false := by
          rw [Bool.eq_false_iff]; exact fun h => hw ((accepts_iff s m).1 h)
        simp [hw, this]
    -- one call
    have step : ∃ s', subscription (w.exec op) i k r = some s' ∧
        unloaded i k r w [op] ++ s'.messages = s.messages ++ accepted i k r w [op] := by
      rw [hsub, hs]
      cases op with
      | destroyEndpoint j =>
        have : i ≠ j := by rintro rfl; exact h1 (by simp)
        exact ⟨s, by simp [subEffect, this], by simp [unloaded, accepted, hs]⟩
      | unsubscribe j k' r' =>
        have : ¬ (i = j ∧ k' = k ∧ r' = r) := by rintro ⟨rfl, rfl, rfl⟩; exact h2 (by simp)
        exact ⟨s, by simp [subEffect, this], by simp [unloaded, accepted, hs]⟩
      | subscribe j k' r' xs =>
        simp only [subEffect]
        split
        · exact ⟨_, rfl, by simp [unloaded, accepted, hs]⟩
        · exact ⟨s, rfl, by simp [unloaded, accepted, hs]⟩
      | subAddSender j k' r' x =>
        simp only [subEffect]
        split
        · exact ⟨_, rfl, by simp [unloaded, accepted, hs, Subscr.addSender]⟩
        · exact ⟨s, rfl, by simp [unloaded, accepted, hs]⟩
      | subRemoveSender j k' r' x =>
        simp only [subEffect]
        split
        · exact ⟨_, rfl, by simp [unloaded, accepted, hs, Subscr.removeSender]⟩
        · exact ⟨s, rfl, by simp [unloaded, accepted, hs]⟩
      | receiveMessage j =>
        simp only [subEffect]
        split
        · rename_i hij
          refine ⟨_, rfl, ?_⟩
          simp [unloaded, accepted, hs, hij.symm, absorb, haccept]
        · rename_i hij
          have : ¬ j = i := fun h => hij h.symm
          exact ⟨s, rfl, by simp [unloaded, accepted, hs, this]⟩
      | receiveAll j =>
        simp only [subEffect]
        split
        · rename_i hij
          refine ⟨_, rfl, ?_⟩
          simp [unloaded, accepted, hs, hij.symm, absorb, haccept]
        · rename_i hij
          have : ¬ j = i := fun h => hij h.symm
          exact ⟨s, rfl, by simp [unloaded, accepted, hs, this]⟩
      | unload j k' r' =>
        simp only [subEffect]
        split
        · rename_i hc
          obtain ⟨rfl, rfl, rfl⟩ := hc
          refine ⟨_, rfl, ?_⟩
          obtain ⟨e, he, hf⟩ := Option.bind_eq_some_iff.1 (show (w.endpoint i).bind _ = some s from hs)
          simp [unloaded, accepted, hs, he, unload_eq hf]
        · rename_i hc
          have : ¬ (j = i ∧ k' = k ∧ r' = r) := fun h => hc ⟨h.1.symm, h.2⟩
          exact ⟨s, rfl, by simp [unloaded, accepted, hs, this]⟩
      | createEndpoint => exact ⟨s, rfl, by simp [unloaded, accepted, hs]⟩
      | send j m => exact ⟨s, rfl, by simp [unloaded, accepted, hs]⟩
      | busStep => exact ⟨s, rfl, by simp [unloaded, accepted, hs]⟩
      | route => exact ⟨s, rfl, by simp [unloaded, accepted, hs]⟩
    obtain ⟨s', hs', heq⟩ := step
    have := ih (fun h => h1 (List.mem_cons_of_mem _ h)) (fun h => h2 (List.mem_cons_of_mem _ h)) (w.exec op)
      (by rw [hs']; rfl) (queue_exec w op hq)
    have hst1 : stored (w.exec op) i k r = s'.messages := by simp [stored, hs']
    rw [hsplit, hsplit2, hrun, List.append_assoc, this, hst0, hst1, ← List.append_assoc, heq, List.append_assoc]

example :
    let w : World Nat := World.init.run [.createEndpoint, .subscribe 0 .spike 5 [7]]
    let ops : List (Op Nat) := [.send 0 (.spike ⟨⟨7, 1⟩, [1]⟩), .route, .receiveAll 0, .unload 0 .spike 5,
      .unload 0 .spike 5, .send 0 (.spike ⟨⟨7, 2⟩, [1]⟩), .route, .receiveMessage 0]
    (subscription w 0 .spike 5).isSome ∧
    unloaded 0 .spike 5 w ops = [.spike ⟨⟨7, 1⟩, [1]⟩] ∧
    accepted 0 .spike 5 w ops = [.spike ⟨⟨7, 1⟩, [1]⟩, .spike ⟨⟨7, 2⟩, [1]⟩] := by decide

/-! ## C14 -/

/-- C14: `subscribe` makes the sender set of `(k, r)` the union of what it was and `xs`, keeps the stored
messages, and leaves every other subscription alone. -/
theorem C14_subscribe_union (e : Endpoint F) (k : MsgKind) (r : UID) (xs : List UID) :
    (∃ s', (e.subscribe k r xs).findSub k r = some s' ∧
      (∀ u, u ∈ s'.senders ↔ u ∈ ((e.findSub k r).map (·.senders)).getD [] ∨ u ∈ xs) ∧
      s'.messages = ((e.findSub k r).map (·.messages)).getD []) ∧
    (∀ k' r', (k', r') ≠ (k, r) → (e.subscribe k r xs).findSub k' r' = e.findSub k' r') ∧
    (e.subscribe k r xs).recv = e.recv ∧ (e.subscribe k r xs).toSend = e.toSend := by
  refine ⟨⟨_, by rw [findSub_subscribe]; simp; rfl, fun u => by simp [mem_setInsertAll], rfl⟩, ?_,
    (subscribe_frame e k r xs).2.1, (subscribe_frame e k r xs).2.2⟩
  intro k' r' hne
  rw [findSub_subscribe]
  have : ¬ (k = k' ∧ r = r') := fun hh => hne (by rw [hh.1, hh.2])
  simp [this]

/-- C14 over histories: starting from an existing subscription, after any calls that do not remove it or take senders
away, its sender set is what it was plus every sender named in any `subscribe`/`add_sender` call for it –
independent of order, grouping and repetition. -/
theorem C14_subscribe_history (pre ops : List (Op F)) (i : Nat) (k : MsgKind) (r : UID) (s : Subscr F)
    (h1 : Op.destroyEndpoint i ∉ ops) (h2 : Op.unsubscribe i k r ∉ ops)
    (h3 : ∀ x, Op.subRemoveSender i k r x ∉ ops) :
    let w := World.init.run pre
    subscription w i k r = some s →
    ∃ s', subscription (w.run ops) i k r = some s' ∧
      ∀ u, u ∈ s'.senders ↔ u ∈ s.senders ∨ u ∈ everSubscribed i k r ops := by
  intro w hs
  have hq : w.queue = [] := queue_reach pre
  clear_value w
  induction ops generalizing w s with
  | nil => exact ⟨s, hs, fun u => by simp [everSubscribed]⟩
  | cons op ops ih =>
    have hsub := subscription_exec w hq i k r op
    rw [hs] at hsub
    have halive : (w.endpoint i).isSome := by
      cases he : w.endpoint i with
      | none => simp [subscription, he] at hs
      | some e => rfl
    have step : ∃ s', subscription (w.exec op) i k r = some s' ∧
        ∀ u, u ∈ s'.senders ↔ u ∈ s.senders ∨ u ∈ everSubscribed i k r [op] := by
      rw [hsub]
      cases op with
      | destroyEndpoint j =>
        have : i ≠ j := by rintro rfl; exact h1 (by simp)
        exact ⟨s, by simp [subEffect, this], fun u => by simp [everSubscribed]⟩
      | unsubscribe j k' r' =>
        have : ¬ (i = j ∧ k' = k ∧ r' = r) := by rintro ⟨rfl, rfl, rfl⟩; exact h2 (by simp)
        exact ⟨s, by simp [subEffect, this], fun u => by simp [everSubscribed]⟩
      | subscribe j k' r' xs =>
        simp only [subEffect]
        split
        · rename_i hc
          exact ⟨_, rfl, fun u => by simp [everSubscribed, hc.1, hc.2.1, hc.2.2.1, mem_setInsertAll]⟩
        · rename_i hc
          have : ¬ (j = i ∧ k' = k ∧ r' = r) := fun h => hc ⟨h.1.symm, h.2.1, h.2.2, halive⟩
          exact ⟨s, rfl, fun u => by simp [everSubscribed, this]⟩
      | subAddSender j k' r' x =>
        simp only [subEffect]
        split
        · rename_i hc
          exact ⟨_, rfl, fun u => by
            simp [everSubscribed, hc.1, hc.2.1, hc.2.2, Subscr.addSender, mem_setInsert]⟩
        · rename_i hc
          have : ¬ (j = i ∧ k' = k ∧ r' = r) := fun h => hc ⟨h.1.symm, h.2⟩
          exact ⟨s, rfl, fun u => by simp [everSubscribed, this]⟩
      | subRemoveSender j k' r' x =>
        have : ¬ (i = j ∧ k' = k ∧ r' = r) := by rintro ⟨rfl, rfl, rfl⟩; exact h3 x (by simp)
        exact ⟨s, by simp [subEffect, this], fun u => by simp [everSubscribed]⟩
      | receiveMessage j =>
        simp only [subEffect]
        split <;> exact ⟨_, rfl, fun u => by simp [everSubscribed, absorb]⟩
      | receiveAll j =>
        simp only [subEffect]
        split <;> exact ⟨_, rfl, fun u => by simp [everSubscribed, absorb]⟩
      | unload j k' r' =>
        simp only [subEffect]
        split <;> exact ⟨_, rfl, fun u => by simp [everSubscribed]⟩
      | createEndpoint => exact ⟨s, rfl, fun u => by simp [everSubscribed]⟩
      | send j m => exact ⟨s, rfl, fun u => by simp [everSubscribed]⟩
      | busStep => exact ⟨s, rfl, fun u => by simp [everSubscribed]⟩
      | route => exact ⟨s, rfl, fun u => by simp [everSubscribed]⟩
    obtain ⟨s1, hs1, hu1⟩ := step
    obtain ⟨s2, hs2, hu2⟩ := ih s1 (fun h => h1 (List.mem_cons_of_mem _ h)) (fun h => h2 (List.mem_cons_of_mem _ h))
      (fun x h => h3 x (List.mem_cons_of_mem _ h)) (w.exec op) hs1 (queue_exec w op hq)
    refine ⟨s2, hs2, fun u => ?_⟩
    rw [hu2, hu1]
    have : everSubscribed i k r (op :: ops) = everSubscribed i k r [op] ++ everSubscribed i k r ops := by
      simp [everSubscribed]
    rw [this, List.mem_append, or_assoc]

private theorem length_setInsertAll (s xs : List UID) (hs : s.Nodup) :
    (setInsertAll s xs).length - s.length = ((xs.filter (fun x => !s.contains x)).dedup).length ∧
    s.length ≤ (setInsertAll s xs).length := by
  have hle : s.length ≤ (setInsertAll s xs).length := by
    have : ∀ (xs s : List UID), s.length ≤ (setInsertAll s xs).length := by
      intro xs
      induction xs with
      | nil => intro s; exact Nat.le_refl _
      | cons x xs ih =>
        intro s
        show s.length ≤ (setInsertAll (setInsert s x) xs).length
        refine Nat.le_trans ?_ (ih _)
        unfold setInsert; split <;> simp
    exact this xs s
  refine ⟨?_, hle⟩
  -- both sides enumerate the same set without repetition
  have hn := nodup_setInsertAll hs xs
  have hpre : ∀ (xs s : List UID), ∃ t, setInsertAll s xs = s ++ t := by
    intro xs
    induction xs with
    | nil => intro s; exact ⟨[], by simp [setInsertAll]⟩
    | cons x xs ih =>
      intro s
      obtain ⟨t, ht⟩ := ih (setInsert s x)
      show ∃ t, setInsertAll (setInsert s x) xs = s ++ t
      rw [ht]
      unfold setInsert
      split
      · exact ⟨t, rfl⟩
      · exact ⟨[x] ++ t, by simp⟩
  obtain ⟨t, ht⟩ := hpre xs s
  rw [ht, List.length_append]
  have htn : t.Nodup ∧ ∀ a ∈ t, a ∉ s := by
    rw [ht, List.nodup_append] at hn
    exact ⟨hn.2.1, fun a ha hs => hn.2.2 a hs a ha rfl⟩
  have hmem : ∀ a, a ∈ t ↔ a ∈ (xs.filter (fun x => !s.contains x)).dedup := by
    intro a
    have h1 := mem_setInsertAll s xs a
    rw [ht, List.mem_append] at h1
    simp only [List.mem_dedup, List.mem_filter, Bool.not_eq_true', List.contains_eq_mem, decide_eq_false_iff_not]
    constructor
    · intro ha
      have hna := htn.2 a ha
      rcases h1.1 (.inr ha) with h | h
      · exact absurd h hna
      · exact ⟨h, hna⟩
    · rintro ⟨h, hna⟩
      rcases h1.2 (.inr h) with h | h
      · exact absurd h hna
      · exact h
  have hperm := (List.perm_ext_iff_of_nodup htn.1 (List.nodup_dedup _)).2 hmem
  have := hperm.length_eq
  omega

/-- C14: the results of `add_sender`, `add_senders` and `remove_sender` are exactly the number of senders
added or removed, and the sets afterwards are what one expects. -/
theorem C14_sender_counts (s : Subscr F) (h : s.senders.Nodup) (x : UID) (xs : List UID) :
    ((s.addSender x).2 = if x ∈ s.senders then 0 else 1) ∧
    (∀ u, u ∈ (s.addSender x).1.senders ↔ u ∈ s.senders ∨ u = x) ∧
    ((s.addSenders xs).2 = ((xs.filter (fun x => !s.senders.contains x)).dedup).length) ∧
    (∀ u, u ∈ (s.addSenders xs).1.senders ↔ u ∈ s.senders ∨ u ∈ xs) ∧
    ((s.removeSender x).2 = if x ∈ s.senders then 1 else 0) ∧
    (∀ u, u ∈ (s.removeSender x).1.senders ↔ u ∈ s.senders ∧ u ≠ x) := by
  refine ⟨by simp [Subscr.addSender], fun u => by simp [Subscr.addSender, mem_setInsert],
    (length_setInsertAll s.senders xs h).1, fun u => by simp [Subscr.addSenders, mem_setInsertAll], ?_,
    fun u => by simp [Subscr.removeSender]⟩
  simp only [Subscr.removeSender]
  have : (s.senders.filter (fun y => y == x)).length = s.senders.count x := by
    rw [List.count, List.countP_eq_length_filter]
  rw [this]
  exact h.count

/-- C14: sender sets never hold duplicates, in any reachable state (so `C14_sender_counts` applies). -/
theorem C14_senders_nodup (ops : List (Op F)) (i : Nat) (k : MsgKind) (r : UID) (s : Subscr F)
    (hs : subscription (World.init.run ops) i k r = some s) : s.senders.Nodup := by
  suffices key : ∀ (ops : List (Op F)) (w : World F), w.queue = [] →
      (∀ s, subscription w i k r = some s → s.senders.Nodup) →
      ∀ s, subscription (w.run ops) i k r = some s → s.senders.Nodup from
    key ops World.init rfl (by intro s h; simp [subscription, World.endpoint, World.init] at h) s hs
  intro ops
  induction ops with
  | nil => intro w _ h; exact h
  | cons op ops ih =>
    intro w hq h
    refine ih (w.exec op) (queue_exec w op hq) ?_
    intro s hs
    rw [subscription_exec w hq] at hs
    cases op with
    | destroyEndpoint j =>
      simp only [subEffect] at hs
      split at hs
      · cases hs
      · exact h s hs
    | unsubscribe j k' r' =>
      simp only [subEffect] at hs
      split at hs
      · cases hs
      · exact h s hs
    | subscribe j k' r' xs =>
      simp only [subEffect] at hs
      split at hs
      · cases hs
        refine nodup_setInsertAll ?_ xs
        cases ho : subscription w i k r with
        | none => simp
        | some s0 => exact h s0 ho
      · exact h s hs
    | subAddSender j k' r' x =>
      simp only [subEffect] at hs
      split at hs
      · obtain ⟨s0, h0, rfl⟩ := Option.map_eq_some_iff.1 hs
        exact nodup_setInsert (h s0 h0) x
      · exact h s hs
    | subRemoveSender j k' r' x =>
      simp only [subEffect] at hs
      split at hs
      · obtain ⟨s0, h0, rfl⟩ := Option.map_eq_some_iff.1 hs
        exact (h s0 h0).filter _
      · exact h s hs
    | receiveMessage j =>
      simp only [subEffect] at hs
      split at hs
      · obtain ⟨s0, h0, rfl⟩ := Option.map_eq_some_iff.1 hs; exact h s0 h0
      · exact h s hs
    | receiveAll j =>
      simp only [subEffect] at hs
      split at hs
      · obtain ⟨s0, h0, rfl⟩ := Option.map_eq_some_iff.1 hs; exact h s0 h0
      · exact h s hs
    | unload j k' r' =>
      simp only [subEffect] at hs
      split at hs
      · obtain ⟨s0, h0, rfl⟩ := Option.map_eq_some_iff.1 hs; exact h s0 h0
      · exact h s hs
    | createEndpoint => exact h s hs
    | send j m => exact h s hs
    | busStep => exact h s hs
    | route => exact h s hs

example :
    let w : World Nat := World.init.run [.createEndpoint, .subscribe 0 .spike 5 [7], .subscribe 0 .spike 5 [8, 7, 9]]
    subscription w 0 .spike 5 = some (.mk .spike 5 [7, 8, 9] []) := by decide

end Knp.Props
