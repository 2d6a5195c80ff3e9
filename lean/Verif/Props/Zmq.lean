import Verif.Lemmas.ZmqMore
import Verif.Props.Messages
import Verif.Props.Bus

/-!
# Properties of the ZeroMQ message bus (C127–C132)

`l : Limits` are the limits of ZeroMQ's pipes (default high-water marks: 1000 on each end), `c : Codec F X` the conversion to frames.
A `Call` carries, beside the API call, what ZeroMQ decides during it; every theorem holds whatever it decides.
-/

namespace Knp.Props
open Knp Knp.Zmq

variable {F X : Type}

/-- The codec of the code satisfies the assumption of the theorems below: what is packed is unpacked (C15), and no FlatBuffers
envelope is 0 or 5 bytes long. -/
theorem Zmq_envelope_lawful (size : FbEnvelope F → Nat) (h : ∀ m : Message F, size (packToEnvelope m) ≠ 5 ∧ size (packToEnvelope m) ≠ 0) :
    Lawful (envelope size) :=
  ⟨C15_envelope_round_trip, h⟩

namespace ZmqEx

/-- All envelopes are 64 bytes long. -/
def codec : Codec Nat (FbEnvelope Nat) := envelope (fun _ => 64)

theorem lawful : Lawful codec := Zmq_envelope_lawful _ (fun _ => by decide)

/-- The default limits. -/
def limits : Limits := ⟨1000, 2000⟩

/-- A call during which ZeroMQ decides nothing. -/
def call (op : Bus.Op Nat) : Call Nat := ⟨op, [], false⟩

/-- Routing of messages of the endpoints `es` in this order; the endpoints in `joins` are attached. -/
def route (es : List Nat) (joins : List Nat) : Call Nat :=
  ⟨.route, es.flatMap (fun e => [⟨e, [], []⟩, ⟨e, joins, []⟩]) ++ [⟨0, [], []⟩], false⟩

/-- A message of `u`. -/
def msg (u t : Nat) : Message Nat := .spike ⟨⟨u, t⟩, [t]⟩

end ZmqEx

/-! ## C127 -/

/-- C127, full statement: take any history `pre`, after which endpoint `i` (for which `P` holds) has a subscription of `r` to sender `u`,
and any further calls that leave the subscription in place and end with routing and receiving.  If `u`'s messages are sent through
`src`, then what `r` unloads or finds stored from `u` is what was on the way to it before, and then what was sent, in this order. -/
def C127_statement (l : Limits) (P : World Nat (FbEnvelope Nat) → Nat → Prop) : Prop :=
  ∀ (pre calls : List (Call Nat)) (picks : List Pick) (i src : Nat) (k : MsgKind) (r u : UID) (s : Bus.Subscr Nat)
    (w w' : World Nat (FbEnvelope Nat)),
    World.init.run l ZmqEx.codec pre = some (.ok w) → subscription w i k r = some s → u ∈ s.senders → P w i →
    w.run l ZmqEx.codec (calls ++ [⟨.route, picks, false⟩, ⟨.receiveAll i, [], false⟩]) = some (.ok w') →
    Spec.Keeps i k r u (calls.map (·.op)) →
    (∀ call ∈ pre ++ calls, ∀ e m, call.op = .send e m → m.sender = u → e = src) →
    (unloaded l ZmqEx.codec i k r w calls ++ stored w' i k r).filter (ofSender k u) =
      (stored w i k r ++ decoded ZmqEx.codec (pipeIn w i) ++ decoded ZmqEx.codec (inFlight w src) ++
        sentVia l ZmqEx.codec src w calls).filter (ofSender k u)

private theorem track_of {l : Limits} {c : Codec F X} (hc : Lawful c) (pre : List (Call F)) {i src : Nat} {k : MsgKind} {r u : UID}
    {s : Bus.Subscr F} {w : World F X} (hpre : World.init.run l c pre = some (.ok w)) (hs : subscription w i k r = some s)
    (hu : u ∈ s.senders) (hcon : Connected w i) (hsrc : ∀ call ∈ pre, ∀ e m, call.op = .send e m → m.sender = u → e = src) :
    Track c i k r u src w := by
  obtain ⟨p, hp, hj⟩ := hcon
  refine ⟨run_packed hc pre _ _ (init_packed c) hpre, ⟨p, s, hp, hj, ?_, hu⟩,
    run_only hc pre _ _ (init_packed c) init_only hsrc hpre⟩
  unfold subscription at hs
  rw [hp] at hs
  exact hs

/-- C127, over all histories and whatever ZeroMQ decides: while endpoint `i` is connected and there is room for what is in flight
whenever the bus works (`Roomy`), everything that `u` sends through `src` is, in the order of sending, unloaded by `r`, or stored,
or in the pipe to `i`, or in the pipe from `src`: nothing is lost, nothing comes twice, nothing overtakes.  It does not matter how often
the bus routes before the endpoint receives, nor whether `u` was added with `subscribe` or with `Subscription::add_sender`; both matter
on the in-process bus (C08, C06).  (`_partial`: `Connected` and `Roomy` cannot be dropped, see the refutations.) -/
theorem C127_fifo_partial {l : Limits} {c : Codec F X} (hc : Lawful c) (hl : l.sure ≤ l.hard) (pre calls : List (Call F)) (i src : Nat)
    (k : MsgKind) (r u : UID) (s : Bus.Subscr F) (w w' : World F X) (hpre : World.init.run l c pre = some (.ok w))
    (hs : subscription w i k r = some s) (hu : u ∈ s.senders) (hcon : Connected w i) (hrun : w.run l c calls = some (.ok w'))
    (hroom : Roomy l c i w calls) (hkeep : Spec.Keeps i k r u (calls.map (·.op)))
    (hsrc : ∀ call ∈ pre ++ calls, ∀ e m, call.op = .send e m → m.sender = u → e = src) :
    (unloaded l c i k r w calls ++ stored w' i k r ++ decoded c (pipeIn w' i) ++ decoded c (inFlight w' src)).filter (ofSender k u) =
      (stored w i k r ++ decoded c (pipeIn w i) ++ decoded c (inFlight w src) ++ sentVia l c src w calls).filter (ofSender k u) := by
  have ht := track_of hc pre hpre hs hu hcon (fun call h => hsrc call (List.mem_append_left _ h))
  have hk : ∀ call ∈ calls, call.op ≠ .destroyEndpoint i ∧ call.op ≠ .unsubscribe i k r ∧ call.op ≠ .subRemoveSender i k r u :=
    fun call h => ⟨fun e => hkeep.1 (List.mem_map.2 ⟨call, h, e⟩), fun e => hkeep.2.1 (List.mem_map.2 ⟨call, h, e⟩),
      fun e => hkeep.2.2 (List.mem_map.2 ⟨call, h, e⟩)⟩
  have := (run_track hc hl calls w w' ht hroom hk (fun call h => hsrc call (List.mem_append_right _ h)) hrun).2
  simpa only [line, List.append_assoc] using this

/-- C127, exactly once and in order: if the calls end with routing and receiving, then what `r` has got from `u` – unloaded or
stored – is what was on its way when they began and then what was sent, one for one and in the order of sending. -/
theorem C127_exactly_once_partial {l : Limits} {c : Codec F X} (hc : Lawful c) (hl : l.sure ≤ l.hard) (pre calls : List (Call F))
    (picks : List Pick) (lag lag' : Bool) (i src : Nat) (k : MsgKind) (r u : UID) (s : Bus.Subscr F) (w w' : World F X)
    (hpre : World.init.run l c pre = some (.ok w)) (hs : subscription w i k r = some s) (hu : u ∈ s.senders) (hcon : Connected w i)
    (hrun : w.run l c (calls ++ [⟨.route, picks, lag⟩, ⟨.receiveAll i, [], lag'⟩]) = some (.ok w'))
    (hroom : Roomy l c i w (calls ++ [⟨.route, picks, lag⟩, ⟨.receiveAll i, [], lag'⟩]))
    (hkeep : Spec.Keeps i k r u (calls.map (·.op)))
    (hsrc : ∀ call ∈ pre ++ calls, ∀ e m, call.op = .send e m → m.sender = u → e = src) :
    (unloaded l c i k r w calls ++ stored w' i k r).filter (ofSender k u) =
      (stored w i k r ++ decoded c (pipeIn w i) ++ decoded c (inFlight w src) ++ sentVia l c src w calls).filter (ofSender k u) := by
  obtain ⟨w1, h1, h2⟩ := run_split _ _ _ _ hrun
  obtain ⟨w2, h3, h4⟩ := run_cons h2
  obtain ⟨w3, h5, h6⟩ := run_cons h4
  cases h6
  have hkeep' : Spec.Keeps i k r u ((calls ++ [⟨.route, picks, lag⟩, ⟨.receiveAll i, [], lag'⟩] : List (Call F)).map (·.op)) := by
    obtain ⟨a, b, d⟩ := hkeep
    refine ⟨fun h => a ?_, fun h => b ?_, fun h => d ?_⟩ <;> simpa using h
  have key := C127_fifo_partial hc hl pre _ i src k r u s w w' hpre hs hu hcon hrun hroom hkeep' (by
    intro call h e m he hm
    rw [← List.append_assoc] at h
    simp only [List.mem_append, List.mem_cons, List.not_mem_nil, or_false] at h
    rcases h with h | h | h
    · exact hsrc call (List.mem_append.2 h) e m he hm
    · rw [h] at he; cases he
    · rw [h] at he; cases he)
  -- the two calls at the end neither unload nor send
  have hunl : ∀ (cs : List (Call F)) (v v' : World F X), v.run l c cs = some (.ok v') →
      ∀ t, (∀ x ∈ t, (x : Call F).op = .route ∨ x.op = .receiveAll i) → ∀ v'', v'.run l c t = some (.ok v'') →
      unloaded l c i k r v (cs ++ t) = unloaded l c i k r v cs ∧ sentVia l c src v (cs ++ t) = sentVia l c src v cs := by
    intro cs
    induction cs with
    | nil =>
      intro v v' hv t ht v'' hv''
      cases hv
      rw [List.nil_append]
      clear hrun hroom hkeep hsrc key
      induction t generalizing v with
      | nil => exact ⟨rfl, rfl⟩
      | cons x t ih =>
        obtain ⟨v1, e1, e2⟩ := run_cons hv''
        rw [unloaded_cons e1, sentVia_cons e1, (ih v1 (fun y hy => ht y (List.mem_cons_of_mem _ hy)) e2).1,
          (ih v1 (fun y hy => ht y (List.mem_cons_of_mem _ hy)) e2).2]
        rcases ht x (by simp) with h | h <;> rw [h] <;> exact ⟨rfl, rfl⟩
    | cons x cs ih =>
      intro v v' hv t ht v'' hv''
      obtain ⟨v1, e1, e2⟩ := run_cons hv
      obtain ⟨a, b⟩ := ih v1 v' e2 t ht v'' hv''
      rw [List.cons_append, unloaded_cons e1, sentVia_cons e1, unloaded_cons e1, sentVia_cons e1, a, b]
      exact ⟨rfl, rfl⟩
  have htail := hunl calls w w1 h1 _ (by
    intro x hx
    simp only [List.mem_cons, List.not_mem_nil, or_false] at hx
    rcases hx with hx | hx <;> rw [hx]
    · exact Or.inl rfl
    · exact Or.inr rfl) w' h2
  rw [htail.1, htail.2] at key
  -- at the end the pipes are empty
  have p1 : AllPacked c w1 := run_packed hc calls _ _ (run_packed hc pre _ _ (init_packed c) hpre) h1
  have p2 : AllPacked c w2 := exec_packed hc p1 h3
  obtain ⟨f1, f2⟩ := route_clear hc p1 rfl h3
  have hb : ¬ IsBus (.receiveAll i : Bus.Op F) := by rintro (h | h) <;> cases h
  obtain ⟨g1, _, g3⟩ := exec_ports hc p2 hb (by simp) h5
  have q1 : inFlight w' src = [] := by
    unfold inFlight pipeOut
    rw [g1, f1, g3 src]
    have := f2 src
    unfold pipeOut at this
    cases hp : w2.ports[src]? with
    | none => rfl
    | some p =>
      rw [hp] at this
      simp only [Option.map_some, Option.getD_some] at this ⊢
      rw [portStep_out, this]
      rfl
  have q2 : pipeIn w' i = [] := by
    unfold pipeIn
    cases hp : w'.port i with
    | none => rfl
    | some p =>
      obtain ⟨a, b⟩ := port_some.1 hp
      rw [g3 i] at a
      obtain ⟨q, _, rfl⟩ := Option.map_eq_some_iff.1 a
      simp only [Option.map_some, Option.getD_some]
      unfold portStep at b ⊢
      split
      · simp
      · rename_i hq; rw [if_neg hq] at b; exact absurd b hq
  rw [q1, q2] at key
  simpa only [decoded_nil, List.append_nil] using key

open ZmqEx in
/-- Two senders, two routings before the receiver unloads, a sender added by `add_sender`: nothing is lost and each sender's order is
kept, while the messages of different senders come in an order that ZeroMQ chooses. -/
example :
    let pre := [call .createEndpoint, call .createEndpoint, call .createEndpoint, call (.subscribe 2 .spike 5 [7]),
      call (.subAddSender 2 .spike 5 8), call (.send 0 (msg 1 0)), route [0] [2]]
    let calls := [call (.send 0 (msg 7 1)), call (.send 1 (msg 8 2)), call (.send 0 (msg 7 3)), route [1, 0, 0] [],
      call (.send 0 (msg 7 4)), route [0] [], call (.receiveMessage 2), call (.receiveMessage 2), call (.receiveMessage 2),
      call (.unload 2 .spike 5)]
    ∃ w w', World.init.run limits codec pre = some (.ok w) ∧ (subscription w 2 .spike 5).isSome ∧ Connected w 2 ∧
      Roomy limits codec 2 w (calls ++ [route [] [], call (.receiveAll 2)]) ∧
      w.run limits codec (calls ++ [route [] [], call (.receiveAll 2)]) = some (.ok w') ∧
      unloaded limits codec 2 .spike 5 w calls = [msg 8 2, msg 7 1] ∧ stored w' 2 .spike 5 = [msg 7 3, msg 7 4] := by
  refine ⟨_, _, rfl, rfl, ⟨_, rfl, rfl⟩, ?_, rfl, by decide +kernel, by decide +kernel⟩
  simp only [List.cons_append, List.nil_append, Roomy]
  refine ⟨fun _ => ?_, fun _ => ?_, fun _ => ?_, fun _ => ?_, fun _ => ?_, fun _ => ?_, fun _ => ?_, fun _ => ?_, fun _ => ?_,
    fun _ => ?_, fun _ => ?_, fun _ => ?_, trivial⟩ <;> decide +kernel

section Refutations
open ZmqEx

/-- A world of one endpoint. -/
private def one (j : Bool) (ep : Bus.Endpoint Nat) (out inn : List (FbEnvelope Nat)) : World Nat (FbEnvelope Nat) :=
  ⟨[⟨true, j, ep, out, inn⟩], none⟩

private theorem send_one (l : Limits) (j : Bool) (ep : Bus.Endpoint Nat) (out inn : List (FbEnvelope Nat)) (m : Message Nat)
    (h : out.length < l.hard) :
    (one j ep out inn).exec l codec (call (.send 0 m)) = some (.ok (one j ep (out ++ [codec.pack m]) inn)) := by
  have : full l false out.length = false := by unfold full; simp; omega
  simp [World.exec, call, one, World.port, this, World.onPort]

private theorem route_one (l : Limits) (joins : List Nat) (j : Bool) (ep : Bus.Endpoint Nat) (inn : List (FbEnvelope Nat)) (x : FbEnvelope Nat) :
    (one j ep [x] inn).exec l codec (route [0] joins) =
      some (.ok (one (j || joins.contains 0) ep [] (if (j || joins.contains 0) && decide (inn.length < l.hard) then inn ++ [x] else inn))) := by
  have hf : (!full l false inn.length) = decide (inn.length < l.hard) := by
    unfold full; by_cases h : inn.length < l.hard
    · simp [h]
    · simp [h, Nat.not_lt.1 h]
  have e1 : (one j ep [x] inn).step l codec ⟨0, [], []⟩ = some (⟨[⟨true, j, ep, [], inn⟩], some x⟩, 1) := rfl
  have e2 : (⟨[⟨true, j, ep, [], inn⟩], some x⟩ : World Nat (FbEnvelope Nat)).step l codec ⟨0, joins, []⟩ =
      some (one (j || joins.contains 0) ep []
        (if (j || joins.contains 0) && decide (inn.length < l.hard) then inn ++ [x] else inn), 1) := by
    have : codec.size x = 64 := rfl
    simp only [World.step, this, List.mapIdx_cons, List.mapIdx_nil, World.offer, List.contains_nil, hf, Bool.true_and, one]
    by_cases hc : ((j || joins.contains 0) && decide (inn.length < l.hard)) = true
    · simp only [hc, if_true]; rfl
    · simp only [Bool.not_eq_true] at hc
      simp only [hc]; rfl
  have e3 : ∀ j' inn', (one j' ep [] inn').step l codec ⟨0, [], []⟩ = some (one j' ep [] inn', 0) := fun _ _ => rfl
  simp only [World.exec, route, List.flatMap_cons, List.flatMap_nil, List.append_nil, List.cons_append, List.nil_append,
    World.routeLoop, e1, e2, e3, if_true, Option.map_some]

/-- C127 is false: an endpoint that ZeroMQ has not yet attached to the bus's publisher – connecting is asynchronous – misses what is
routed, although it is subscribed. -/
theorem C127_late_refuted (l : Limits) (hl : 0 < l.hard) : ¬ C127_statement l (fun _ _ => True) := by
  intro h
  have hcreate : (World.init : World Nat (FbEnvelope Nat)).run l codec [call .createEndpoint, call (.subscribe 0 .spike 5 [7])] =
      some (.ok (one false (Bus.Endpoint.fresh.subscribe .spike 5 [7]) [] [])) := rfl
  have h1 := send_one l false (Bus.Endpoint.fresh.subscribe .spike 5 [7]) [] [] (msg 7 1) hl
  have h2 := route_one l [] false (Bus.Endpoint.fresh.subscribe .spike 5 [7]) [] (codec.pack (msg 7 1))
  have := h _ [call (.send 0 (msg 7 1))] (route [0] []).picks 0 0 .spike 5 7 _ _ (one false (Bus.Endpoint.fresh.subscribe .spike 5 [7]) [] [])
    hcreate rfl (by decide) trivial (by
      rw [List.cons_append, run_cons_eq h1, List.nil_append]
      exact (run_cons_eq h2).trans rfl) ⟨by decide, by decide, by decide⟩ (by
      intro c hc e m he _
      simp only [call, List.cons_append, List.nil_append, List.mem_cons, List.not_mem_nil, or_false] at hc
      rcases hc with rfl | rfl | rfl <;> cases he
      rfl)
  rw [unloaded_cons h1, sentVia_cons h1] at this
  simp only [unloaded, sentVia] at this
  exact absurd this (by decide +kernel)

/-- `n` times: send, route. -/
private def rounds (m : Message Nat) : Nat → List (Call Nat)
  | 0 => []
  | n + 1 => call (.send 0 m) :: route [0] [] :: rounds m n

private theorem rounds_run (l : Limits) (hl : 0 < l.hard) (ep : Bus.Endpoint Nat) (m : Message Nat) (n k : Nat) (hk : k ≤ l.hard) :
    (one true ep [] (List.replicate k (codec.pack m))).run l codec (rounds m n) =
        some (.ok (one true ep [] (List.replicate (min (k + n) l.hard) (codec.pack m)))) ∧
    unloaded l codec 0 .spike 5 (one true ep [] (List.replicate k (codec.pack m))) (rounds m n) = [] ∧
    sentVia l codec 0 (one true ep [] (List.replicate k (codec.pack m))) (rounds m n) = List.replicate n m := by
  induction n generalizing k with
  | zero => simp [rounds, World.run, unloaded, sentVia, Nat.min_eq_left hk]
  | succ n ih =>
    have h1 : _ = some (Outcome.ok (one true ep [codec.pack m] (List.replicate k (codec.pack m)))) :=
      send_one l true ep [] (List.replicate k (codec.pack m)) m hl
    have h2 := route_one l [] true ep (List.replicate k (codec.pack m)) (codec.pack m)
    have h3 : (if (true || ([] : List Nat).contains 0) && decide ((List.replicate k (codec.pack m)).length < l.hard) then
        List.replicate k (codec.pack m) ++ [codec.pack m] else List.replicate k (codec.pack m)) =
        List.replicate (min (k + 1) l.hard) (codec.pack m) := by
      by_cases hlt : k < l.hard
      · rw [if_pos (by simpa using hlt), Nat.min_eq_left (by omega), List.replicate_succ']
      · rw [if_neg (by simpa using hlt)]
        congr 1
        omega
    rw [h3] at h2
    obtain ⟨i1, i2, i3⟩ := ih (min (k + 1) l.hard) (Nat.min_le_right _ _)
    unfold rounds
    rw [run_cons_eq h1, run_cons_eq h2, unloaded_cons h1, unloaded_cons h2, sentVia_cons h1, sentVia_cons h2]
    refine ⟨?_, ?_, ?_⟩
    · rw [show min (min (k + 1) l.hard + n) l.hard = min (k + (n + 1)) l.hard by omega] at i1
      exact i1
    · exact i2
    · refine Eq.trans (congrArg (fun t => [m] ++ ([] ++ t)) i3) ?_
      rfl

/-- C127 is false for connected endpoints too: whatever the limits, one message more than `hard` that is routed before the endpoint
receives is dropped, without any notice to the sender. -/
theorem C127_overflow_refuted (l : Limits) (hl : 0 < l.hard) : ¬ C127_statement l Connected := by
  intro h
  let ep : Bus.Endpoint Nat := Bus.Endpoint.fresh.subscribe .spike 5 [7]
  have h1 : _ = some (Outcome.ok (one false ep [codec.pack (msg 1 0)] [])) := send_one l false ep [] [] (msg 1 0) hl
  have h2 := route_one l [0] false ep [] (codec.pack (msg 1 0))
  rw [if_pos (by simpa using hl)] at h2
  have hpre : (World.init : World Nat (FbEnvelope Nat)).run l codec [call .createEndpoint, call (.subscribe 0 .spike 5 [7]),
      call (.send 0 (msg 1 0)), route [0] [0], call (.receiveAll 0)] = some (.ok (one true ep [] [])) := by
    rw [show (World.init : World Nat (FbEnvelope Nat)).run l codec [call .createEndpoint, call (.subscribe 0 .spike 5 [7]),
      call (.send 0 (msg 1 0)), route [0] [0], call (.receiveAll 0)] = (one false ep [] []).run l codec
        [call (.send 0 (msg 1 0)), route [0] [0], call (.receiveAll 0)] from rfl, run_cons_eq h1, run_cons_eq h2]
    rfl
  obtain ⟨r1, r2, r3⟩ := rounds_run l hl ep (msg 7 1) (l.hard + 1) 0 (Nat.zero_le _)
  rw [show min (0 + (l.hard + 1)) l.hard = l.hard by omega] at r1
  have hp : Packed codec (List.replicate l.hard (codec.pack (msg 7 1))) := fun x hx => ⟨_, List.eq_of_mem_replicate hx⟩
  have hdec : decoded codec (List.replicate l.hard (codec.pack (msg 7 1))) = List.replicate l.hard (msg 7 1) := by
    generalize l.hard = n
    induction n with
    | zero => rfl
    | succ n ih => rw [List.replicate_succ, decoded_pack lawful, ih, List.replicate_succ]
  have hall : ∀ n, (rounds (msg 7 1) n).all (fun c => match c.op with
      | .send e _ => e == 0
      | .route => true
      | _ => false) = true := by
    intro n
    induction n with
    | zero => rfl
    | succ n ih => unfold rounds; rw [List.all_cons, List.all_cons, ih]; rfl
  have hev : World.run l codec (one true ep [] (List.replicate l.hard (codec.pack (msg 7 1))))
      [⟨.route, [⟨0, [], []⟩], false⟩, ⟨.receiveAll 0, [], false⟩] =
      some (.ok (one true { ep with subs := ep.subs.map (Bus.absorb (List.replicate l.hard (msg 7 1))) } [] [])) := by
    rw [run_cons_eq (w1 := one true ep [] (List.replicate l.hard (codec.pack (msg 7 1)))) rfl]
    have hr := receiveAll_ok lawful (⟨true, true, ep, [], List.replicate l.hard (codec.pack (msg 7 1))⟩ : Port Nat (FbEnvelope Nat)) hp
    simp only [hdec] at hr
    simp only [World.run, World.exec, World.tryPort, World.port, one, List.getElem?_cons_zero, if_true, hr, World.onPort,
      List.modify_zero_cons]
  have key := h _ (rounds (msg 7 1) (l.hard + 1)) [⟨0, [], []⟩] 0 0 .spike 5 7 _ _ _ hpre rfl (by decide) ⟨_, rfl, rfl⟩
    ((Zmq.run_append _ _ _ _ r1).trans hev) (by
      refine ⟨?_, ?_, ?_⟩ <;> intro hm <;> obtain ⟨c, hc, he⟩ := List.mem_map.1 hm <;>
        have := List.all_eq_true.1 (hall _) c hc <;> rw [he] at this <;> cases this) (by
      intro c hc e m he _
      rcases List.mem_append.1 hc with hc | hc
      · simp only [List.mem_cons, List.not_mem_nil, or_false] at hc
        rcases hc with rfl | rfl | rfl | rfl | rfl <;> cases he
        rfl
      · have := List.all_eq_true.1 (hall _) c hc
        rw [he] at this
        simpa using this)
  rw [show one true ep [] [] = one true ep [] (List.replicate 0 (codec.pack (msg 7 1))) from rfl, r2, r3] at key
  have hl1 := congrArg List.length key
  have hst : stored (one true { ep with subs := ep.subs.map (Bus.absorb (List.replicate l.hard (msg 7 1))) } [] []) 0 .spike 5 =
      [] ++ (List.replicate l.hard (msg 7 1)).filter (Bus.accepts ⟨.spike, 5, [7], []⟩) := rfl
  rw [hst, show stored (one true ep [] (List.replicate 0 (codec.pack (msg 7 1)))) 0 .spike 5 = [] from rfl,
    show pipeIn (one true ep [] (List.replicate 0 (codec.pack (msg 7 1)))) 0 = [] from rfl,
    show inFlight (one true ep [] (List.replicate 0 (codec.pack (msg 7 1)))) 0 = [] from rfl] at hl1
  simp only [decoded_nil, List.nil_append, List.filter_replicate] at hl1
  simp [show Bus.accepts (⟨.spike, 5, [7], []⟩ : Bus.Subscr Nat) (msg 7 1) = true from rfl,
    show ofSender .spike 7 (msg 7 1) = true from rfl] at hl1

end Refutations

/-! ## C128 -/

/-- C128, full statement: at any moment, `send_message` on a live endpoint returns if ZeroMQ is kind enough. -/
def C128_statement (l : Limits) : Prop :=
  ∀ (pre : List (Call Nat)) (w : World Nat (FbEnvelope Nat)) (e : Nat) (m : Message Nat),
    World.init.run l ZmqEx.codec pre = some (.ok w) → (w.port e).isSome → ∃ lag w', w.exec l ZmqEx.codec ⟨.send e m, [], lag⟩ = some (.ok w')

open ZmqEx in
/-- C128 is false: whatever the limits, after `hard` messages that nobody routed, the next `send_message` never returns (on the
in-process bus, whose outbox is a vector, it always does). -/
theorem C128_send_blocks_refuted (l : Limits) : ¬ C128_statement l := by
  intro h
  have hr : ∀ n k, k + n ≤ l.hard → (one false Bus.Endpoint.fresh (List.replicate k (codec.pack (msg 7 1))) []).run l codec
      (List.replicate n (call (.send 0 (msg 7 1)))) =
      some (.ok (one false Bus.Endpoint.fresh (List.replicate (k + n) (codec.pack (msg 7 1))) [])) := by
    intro n
    induction n with
    | zero => intro k _; rfl
    | succ n ih =>
      intro k hk
      have h1 := send_one l false Bus.Endpoint.fresh (List.replicate k (codec.pack (msg 7 1))) [] (msg 7 1) (by simp; omega)
      rw [← List.replicate_succ'] at h1
      rw [List.replicate_succ, run_cons_eq h1, ih (k + 1) (by omega), show k + 1 + n = k + (n + 1) by omega]
  have h0 := hr l.hard 0 (by omega)
  obtain ⟨lag, w', hw⟩ := h (call .createEndpoint :: List.replicate l.hard (call (.send 0 (msg 7 1)))) _ 0 (msg 7 1)
    ((run_cons_eq (w1 := one false Bus.Endpoint.fresh (List.replicate 0 (codec.pack (msg 7 1))) []) rfl).trans h0) rfl
  have : full l lag (List.replicate (0 + l.hard) (codec.pack (msg 7 1))).length = true := by unfold full; simp
  simp only [World.exec, World.port, one, List.getElem?_cons_zero, if_true, this] at hw
  cases hw

/-- C128, what holds: `send_message` returns whatever ZeroMQ decides as long as fewer than `sure` messages of the endpoint wait for
routing, and it puts the message behind them. -/
theorem C128_send_returns_partial {l : Limits} (c : Codec F X) (hl : l.sure ≤ l.hard) (w : World F X) (e : Nat) (m : Message F)
    (picks : List Pick) (lag : Bool) (he : (w.port e).isSome) (h : (pipeOut w e).length < l.sure) :
    ∃ w', w.exec l c ⟨.send e m, picks, lag⟩ = some (.ok w') ∧ pipeOut w' e = pipeOut w e ++ [c.pack m] := by
  obtain ⟨p, hp⟩ := Option.isSome_iff_exists.1 he
  obtain ⟨hp1, hp2⟩ := port_some.1 hp
  have hlen : pipeOut w e = p.out := by unfold pipeOut; rw [hp1]; rfl
  rw [hlen] at h
  have hf : full l lag p.out.length = false := by
    unfold full
    have h1 : ¬ l.hard ≤ p.out.length := by omega
    have h2 : ¬ l.sure ≤ p.out.length := by omega
    simp [h1, h2]
  refine ⟨w.onPort e (fun p => { p with out := p.out ++ [c.pack m] }), ?_, ?_⟩
  · simp only [World.exec, hp, hf]; rfl
  · unfold pipeOut
    rw [ports_onPort, hp1]
    simp [hp2]

/-- C128: in particular it returns after every `route_messages`, and at most `sure - 1` sends later. -/
theorem C128_after_route_partial {l : Limits} {c : Codec F X} (hc : Lawful c) (hl : l.sure ≤ l.hard) (pre : List (Call F))
    (w w' : World F X) (hpre : World.init.run l c pre = some (.ok w)) (picks : List Pick) (lag : Bool)
    (hr : w.exec l c ⟨.route, picks, lag⟩ = some (.ok w')) (e : Nat) (he : (w'.port e).isSome) (ms : List (Message F)) (lags : Nat → Bool)
    (hm : ms.length ≤ l.sure) :
    ∃ w'', w'.run l c (ms.mapIdx (fun n m => ⟨.send e m, [], lags n⟩)) = some (.ok w'') ∧ pipeOut w'' e = ms.map c.pack := by
  have h0 : pipeOut w' e = [] := (route_clear hc (run_packed hc pre _ _ (init_packed c) hpre) rfl hr).2 e
  suffices key : ∀ (ms : List (Message F)) (lags : Nat → Bool) (v : World F X), (v.port e).isSome → (pipeOut v e).length + ms.length ≤ l.sure →
      ∃ w'', v.run l c (ms.mapIdx (fun n m => ⟨.send e m, [], lags n⟩)) = some (.ok w'') ∧
        pipeOut w'' e = pipeOut v e ++ ms.map c.pack by
    have := key ms lags w' he (by rw [h0]; simpa using hm)
    rwa [h0, List.nil_append] at this
  intro ms
  induction ms with
  | nil => intro lags v _ _; exact ⟨v, rfl, by simp⟩
  | cons m ms ih =>
    intro lags v hv hlen
    obtain ⟨v1, e1, e2⟩ := C128_send_returns_partial c hl v e m [] (lags 0) hv (by simp at hlen; omega)
    have hv1 : (v1.port e).isSome := by
      obtain ⟨p, hp⟩ := Option.isSome_iff_exists.1 hv
      simp only [World.exec, hp] at e1
      split at e1
      · cases e1
      · cases e1
        rw [port_onPort _ _ (fun p => { p with out := p.out ++ [c.pack m] }) (fun _ => rfl)]
        rw [hp]; rfl
    obtain ⟨w'', f1, f2⟩ := ih (fun n => lags (n + 1)) v1 hv1 (by rw [e2]; simp at hlen ⊢; omega)
    refine ⟨w'', ?_, ?_⟩
    · rw [List.mapIdx_cons, run_cons_eq e1]; exact f1
    · rw [f2, e2]; simp

open ZmqEx in
example : ∃ w w', World.init.run limits codec [call .createEndpoint, call (.send 0 (msg 7 1))] = some (.ok w) ∧
    w.exec limits codec (route [0] []) = some (.ok w') ∧ (w'.port 0).isSome ∧ [msg 7 1, msg 7 2].length ≤ limits.sure :=
  ⟨_, _, rfl, rfl, rfl, by decide⟩

/-! ## C129 -/

/-- C129, full statement: in every reachable state `route_messages` returns the number of messages routed. -/
def C129_statement (l : Limits) : Prop :=
  ∀ (pre : List (Call Nat)) (w w' : World Nat (FbEnvelope Nat)) (picks : List Pick) (n : Nat),
    World.init.run l ZmqEx.codec pre = some (.ok w) → World.routeLoop l ZmqEx.codec picks w 0 = some (w', n) → n = flying w

open ZmqEx in
/-- C129 is false: one message makes `route_messages` return 2, for the frame with its sender's identity is counted as well (on the
in-process bus it returns 1, C09). -/
theorem C129_count_refuted (l : Limits) (hl : 0 < l.hard) : ¬ C129_statement l := by
  intro h
  have h1 := send_one l false Bus.Endpoint.fresh [] [] (msg 7 1) hl
  have := h [call .createEndpoint, call (.send 0 (msg 7 1))] _ (one false Bus.Endpoint.fresh [] []) [⟨0, [], []⟩, ⟨0, [], []⟩, ⟨0, [], []⟩] 2
    ((run_cons_eq (w1 := one false Bus.Endpoint.fresh [] []) rfl).trans (run_cons_eq h1)) rfl
  exact absurd this (by decide +kernel)

/-- C129, what holds, in every reachable state and whatever ZeroMQ decides: `route_messages` reads two frames for each message in a
pipe (one, if `step` had already read the identity), returns their number and leaves nothing to be routed.  So it returns 0 exactly if
there was nothing to do, and a second call returns 0. -/
theorem C129_route_partial {l : Limits} {c : Codec F X} (hc : Lawful c) (pre : List (Call F)) (w w' : World F X) (picks : List Pick)
    (n : Nat) (hpre : World.init.run l c pre = some (.ok w)) (h : World.routeLoop l c picks w 0 = some (w', n)) :
    n = w.frame.toList.length + 2 * (w.ports.map (fun p => p.out.length)).sum ∧ flying w' = 0 ∧ (n = 0 ↔ flying w = 0) ∧
    ∀ picks' w'' n', World.routeLoop l c picks' w' 0 = some (w'', n') → n' = 0 ∧ w'' = w' := by
  have hw := run_packed hc pre _ _ (init_packed c) hpre
  obtain ⟨a, _⟩ := routeLoop_count hc picks w w' 0 n hw h
  obtain ⟨p', _, f1, f2⟩ := routeLoop_ind hc (fun _ => True) (fun _ _ _ _ _ _ => trivial) picks w 0 w' n hw trivial h
  have ho : (outs w).length = (w.ports.map (fun p => p.out.length)).sum := by unfold outs; rw [List.length_flatMap]
  have hn : n = w.frame.toList.length + 2 * (w.ports.map (fun p => p.out.length)).sum := by
    rw [a, ← ho]; unfold frames; omega
  refine ⟨hn, ?_, ?_, ?_⟩
  · rw [← outs_length, idle_outs f2, f1]; rfl
  · rw [hn]; unfold flying; omega
  · intro picks' w'' n' h'
    cases picks' with
    | nil => cases h'
    | cons pk pks =>
      unfold World.routeLoop at h'
      cases hs : w'.step l c pk with
      | none => rw [hs] at h'; cases h'
      | some r =>
        obtain ⟨w1, k⟩ := r
        rw [hs] at h'
        rcases step_cases hc p' hs with ⟨rfl, hst⟩ | ⟨rfl, rfl, _, _⟩
        · have := steps_frames hst
          unfold frames at this
          rw [idle_outs f2, f1] at this
          simp at this
        · simp only at h'
          split at h'
          · simp only [Option.some.injEq, Prod.mk.injEq] at h'
            exact ⟨h'.2.symm, h'.1.symm⟩
          · cases h'

/-- C129: it always has a way to end, whichever endpoints ZeroMQ attaches (`joins`) and delays (`lag`) meanwhile. -/
theorem C129_route_returns {l : Limits} {c : Codec F X} (hc : Lawful c) (pre : List (Call F)) (w : World F X) (joins lag : List Nat)
    (hpre : World.init.run l c pre = some (.ok w)) :
    ∃ picks w', w.exec l c ⟨.route, picks, false⟩ = some (.ok w') ∧ ∀ pk ∈ picks, pk.joins = joins ∧ pk.lag = lag := by
  obtain ⟨picks, w', n, h1, h2⟩ := routeLoop_exists (l := l) hc joins lag _ w 0 (run_packed hc pre _ _ (init_packed c) hpre) rfl
  refine ⟨picks, w', ?_, h2⟩
  simp only [World.exec, h1, Option.map_some]

/-- C129: a connected endpoint with room gets every message there was to route – of every sender, subscribed to or not – once. -/
theorem C129_everyone {l : Limits} {c : Codec F X} (hc : Lawful c) (hl : l.sure ≤ l.hard) (pre : List (Call F)) (w w' : World F X)
    (picks : List Pick) (lag : Bool) (i : Nat) (hpre : World.init.run l c pre = some (.ok w)) (hcon : Connected w i)
    (hroom : (pipeIn w i).length + flying w ≤ l.sure) (h : w.exec l c ⟨.route, picks, lag⟩ = some (.ok w')) :
    ∃ xs, pipeIn w' i = pipeIn w i ++ xs ∧ xs.Perm (w.frame.toList ++ w.ports.flatMap (fun p => p.out)) := by
  have hw := run_packed hc pre _ _ (init_packed c) hpre
  obtain ⟨_, _, _, xs, h1, h2⟩ := bus_ind hc (fun v => Connected v i ∧ (pipeIn v i).length + flying v ≤ l.sure ∧
      ∃ ys, pipeIn v i = pipeIn w i ++ ys ∧ (ys ++ (v.frame.toList ++ outs v)).Perm (w.frame.toList ++ outs w))
    (fun a b pk _ hp hst => steps_everyone hl i _ _ hp.1 hp.2.1 hp.2.2 hst) (call := ⟨.route, picks, lag⟩) (Or.inl rfl) hw
    ⟨hcon, hroom, [], by simp, List.Perm.refl _⟩ h
  obtain ⟨c1, c2⟩ := route_clear hc hw rfl h
  refine ⟨xs, h1, ?_⟩
  have : outs w' = [] := by
    unfold outs
    rw [List.flatMap_eq_nil_iff]
    intro p hp
    obtain ⟨n, hn⟩ := List.mem_iff_getElem?.1 hp
    have := c2 n
    unfold pipeOut at this
    rw [hn] at this
    exact this
  rw [this, c1] at h2
  simpa [outs] using h2

open ZmqEx in
/-- Three messages of two endpoints: six frames, and endpoint 2 gets all three. -/
example :
    let pre := [call .createEndpoint, call .createEndpoint, call .createEndpoint, call (.send 0 (msg 1 0)), route [0] [2],
      call (.receiveAll 2), call (.send 0 (msg 7 1)), call (.send 1 (msg 8 1)), call (.send 0 (msg 7 2))]
    ∃ w w', World.init.run limits codec pre = some (.ok w) ∧ Connected w 2 ∧ (pipeIn w 2).length + flying w ≤ limits.sure ∧
      World.routeLoop limits codec (route [1, 0, 0] []).picks w 0 = some (w', 6) ∧
      decoded codec (pipeIn w' 2) = [msg 8 1, msg 7 1, msg 7 2] :=
  ⟨_, _, rfl, ⟨_, rfl, rfl⟩, by decide +kernel, rfl, by decide +kernel⟩

/-! ## C130 -/

private theorem cpu_split (i : Nat) (k : MsgKind) (r : UID) (a b : List (Bus.Op F)) (v : Bus.World F) :
    Spec.unloaded i k r v (a ++ b) = Spec.unloaded i k r v a ++ Spec.unloaded i k r (v.run a) b ∧
    Spec.sent v (a ++ b) = Spec.sent v a ++ Spec.sent (v.run a) b ∧ v.run (a ++ b) = (v.run a).run b := by
  induction a generalizing v with
  | nil => exact ⟨rfl, rfl, rfl⟩
  | cons o a ih =>
    obtain ⟨h1, h2, h3⟩ := ih (v.exec o)
    refine ⟨?_, ?_, h3⟩
    · show _ ++ Spec.unloaded i k r (v.exec o) (a ++ b) = (_ ++ Spec.unloaded i k r (v.exec o) a) ++ _
      rw [h1, List.append_assoc]; rfl
    · show _ ++ Spec.sent (v.exec o) (a ++ b) = (_ ++ Spec.sent (v.exec o) a) ++ _
      rw [h2, List.append_assoc]; rfl

/-- Nothing of `u` is under way on the in-process bus if `u` has sent nothing. -/
private theorem cpu_quiet (u : UID) (ops : List (Bus.Op F)) (hops : ∀ e m, Bus.Op.send e m ∈ ops → m.sender ≠ u) (v : Bus.World F)
    (hq : v.queue = []) (h : ∀ e, (∀ m ∈ Spec.outboxOf v e, m.sender ≠ u) ∧ ∀ m ∈ Spec.arrived v e, m.sender ≠ u) :
    ∀ e, (∀ m ∈ Spec.outboxOf (v.run ops) e, m.sender ≠ u) ∧ ∀ m ∈ Spec.arrived (v.run ops) e, m.sender ≠ u := by
  induction ops generalizing v with
  | nil => exact h
  | cons op ops ih =>
    refine ih (fun e m hm => hops e m (List.mem_cons_of_mem _ hm)) (v.exec op) (Bus.queue_exec v op hq) (fun e => ⟨?_, ?_⟩)
    · rcases Bus.outboxOf_exec v hq e op with h1 | h1 | ⟨m', h1, _, h2⟩
      · rw [h1]; exact (h e).1
      · rw [h1]; intro m hm; cases hm
      · rw [h2]
        intro m hm
        rcases List.mem_append.1 hm with hm | hm
        · exact (h e).1 m hm
        · rw [List.mem_singleton.1 hm]; exact hops e m' (by rw [h1]; simp)
    · rcases Bus.arrived_exec v hq e op with ⟨d, h1⟩ | ⟨_, ep, _, h1⟩
      · rw [h1]; intro m hm; exact (h e).2 m (List.mem_of_mem_take hm)
      · rw [h1]
        intro m hm
        rcases List.mem_append.1 hm with hm | hm
        · exact (h e).2 m hm
        · have hm' := (List.mem_filter.1 hm).1
          rw [List.mem_reverse] at hm'
          unfold Spec.outbox at hm'
          obtain ⟨j, _, hj⟩ := List.mem_flatMap.1 hm'
          exact (h j).1 m hj

/-- C130, the in-process bus (C06 and C08 together): after a subscription to `u`, who has not sent anything before and sends through
`src`, and calls that keep the subscription and destroy no endpoint, receive before each routing and end with routing and receiving, `r`
has got from `u` exactly what was sent, in the order of sending. -/
theorem C130_in_process [DecidableEq F] (pre ops : List (Bus.Op F)) (i src : Nat) (k : MsgKind) (r u : UID) (xs : List UID)
    (halive : (((Bus.World.init.run pre).exec (.subscribe i k r xs)).endpoint i).isSome) (hu : u ∈ xs) (hkeep : Spec.Keeps i k r u ops)
    (hdes : ∀ e, Bus.Op.destroyEndpoint e ∉ ops) (hpre : ∀ e m, Bus.Op.send e m ∈ pre → m.sender ≠ u)
    (hsrc : ∀ e m, Bus.Op.send e m ∈ ops → m.sender = u → e = src)
    (hrecv : Spec.ReceivesBetweenRoutes i Bus.World.init (pre ++ .subscribe i k r xs :: (ops ++ [.route, .receiveAll i]))) :
    let v := (Bus.World.init.run pre).exec (.subscribe i k r xs)
    (Spec.unloaded i k r v ops ++ Spec.stored (v.run (ops ++ [.route, .receiveAll i])) i k r).filter (ofSender k u) =
      (Spec.sent v ops).filter (ofSender k u) := by
  intro v
  have hlost : ∀ (ops : List (Bus.Op F)) (v : Bus.World F), (∀ e, Bus.Op.destroyEndpoint e ∉ ops) → Spec.lost v ops = [] := by
    intro ops
    induction ops with
    | nil => intro _ _; rfl
    | cons o ops ih =>
      intro v h
      unfold Spec.lost
      rw [ih (v.exec o) (fun e he => h e (List.mem_cons_of_mem _ he)), List.append_nil]
      cases o with
      | destroyEndpoint e => exact absurd (by simp) (h e)
      | _ => rfl
  have hrunv : Bus.World.init.run (pre ++ [.subscribe i k r xs]) = v := by rw [(cpu_split i k r _ _ _).2.2]; rfl
  have hq0 : ∀ e, (∀ m ∈ Spec.outboxOf v e, m.sender ≠ u) ∧ ∀ m ∈ Spec.arrived v e, m.sender ≠ u := by
    rw [← hrunv]
    refine cpu_quiet u _ ?_ _ rfl (fun e => ?_)
    · intro e m hm
      rcases List.mem_append.1 hm with hm | hm
      · exact hpre e m hm
      · simp at hm
    · constructor <;> intro m hm <;> simp [Spec.outboxOf, Spec.arrived, Bus.World.endpoint, Bus.World.init] at hm
  have hsent0 : ∀ m ∈ Spec.sent Bus.World.init (pre ++ [.subscribe i k r xs]), m.sender ≠ u := by
    have : ∀ (ops : List (Bus.Op F)) (v : Bus.World F) (m), m ∈ Spec.sent v ops → ∃ e, Bus.Op.send e m ∈ ops := by
      intro ops
      induction ops with
      | nil => intro _ m hm; cases hm
      | cons o ops ih =>
        intro v m hm
        unfold Spec.sent at hm
        rcases List.mem_append.1 hm with hm | hm
        · cases o with
          | send e m' =>
            simp only at hm
            split at hm
            · rw [List.mem_singleton.1 hm]; exact ⟨e, by simp⟩
            · cases hm
          | _ => cases hm
        · obtain ⟨e, he⟩ := ih _ m hm; exact ⟨e, List.mem_cons_of_mem _ he⟩
    intro m hm
    obtain ⟨e, he⟩ := this _ _ m hm
    rcases List.mem_append.1 he with he | he
    · exact hpre e m he
    · simp at he
  have hrecd := C07_received_only_from_subscribed (pre ++ [.subscribe i k r xs]) i k r
  rw [hrunv] at hrecd
  have hst0 : ∀ m ∈ Spec.stored v i k r, m.sender ≠ u := fun m hm => hsent0 m (hrecd m (List.mem_append_right _ hm)).2.2
  have hun0 : ∀ m ∈ Spec.unloaded i k r Bus.World.init (pre ++ [.subscribe i k r xs]), m.sender ≠ u :=
    fun m hm => hsent0 m (hrecd m (List.mem_append_left _ hm)).2.2
  -- the tail neither unloads nor sends
  obtain ⟨t1, t2, t3⟩ := cpu_split i k r ops [.route, .receiveAll i] v
  have t1' : Spec.unloaded i k r v (ops ++ [.route, .receiveAll i]) = Spec.unloaded i k r v ops := by rw [t1]; simp [Spec.unloaded]
  have t2' : Spec.sent v (ops ++ [.route, .receiveAll i]) = Spec.sent v ops := by rw [t2]; simp [Spec.sent]
  -- order: C08
  have h8 := C08_order_partial (pre ++ .subscribe i k r xs :: (ops ++ [.route, .receiveAll i])) src u i k r (by
    intro e m hm hmu
    rcases List.mem_append.1 hm with hm | hm
    · exact absurd hmu (hpre e m hm)
    · simp only [List.mem_cons, List.mem_append, List.not_mem_nil, or_false] at hm
      rcases hm with hm | hm | hm | hm
      · cases hm
      · exact hsrc e m hm hmu
      · cases hm
      · cases hm) hrecv
  have hall : pre ++ Bus.Op.subscribe i k r xs :: (ops ++ [.route, .receiveAll i]) =
      (pre ++ [.subscribe i k r xs]) ++ (ops ++ [.route, .receiveAll i]) := by simp
  obtain ⟨a1, a2, a3⟩ := cpu_split i k r (pre ++ [.subscribe i k r xs]) (ops ++ [.route, .receiveAll i]) Bus.World.init
  rw [hall, a1, a2, a3, hrunv, t1', t2'] at h8
  have hnil : ∀ l : List (Message F), (∀ m ∈ l, m.sender ≠ u) → l.filter (fun m => m.sender == u) = [] := by
    intro l hl
    rw [List.filter_eq_nil_iff]
    intro m hm
    simpa using hl m hm
  rw [List.append_assoc, List.filter_append, hnil _ hun0, List.nil_append, List.filter_append (Spec.sent _ _), hnil _ hsent0,
    List.nil_append] at h8
  have h8' := h8.filter (ofSender k u)
  have hff : ∀ l : List (Message F), (l.filter (fun m => m.sender == u)).filter (ofSender k u) = l.filter (ofSender k u) := by
    intro l
    rw [List.filter_filter]
    apply List.filter_congr
    intro m _
    unfold ofSender
    cases h1 : (m.kind == k) <;> cases h2 : (m.sender == u) <;> rfl
  rw [hff, hff] at h8'
  -- number: C06
  refine h8'.eq_of_length (List.Perm.length_eq (List.perm_iff_count.2 (fun m => ?_)))
  by_cases hm : ofSender k u m = true
  · rw [List.count_filter hm, List.count_filter hm]
    have hmk : m.kind = k ∧ m.sender = u := by unfold ofSender at hm; simpa using hm
    have hno : ∀ l : List (Message F), (∀ m ∈ l, m.sender ≠ u) → m ∉ l := fun l hl h => hl m h hmk.2
    have h6 := C06_each_send_delivered_once_partial pre ops i k r xs m halive hmk.1 (by rw [hmk.2]; exact hu)
      (by rw [hmk.2]; exact hkeep) (hno _ hst0) (hno _ (hq0 i).2) (hno _ (by
        intro m' hm'
        unfold Spec.outbox at hm'
        obtain ⟨j, _, hj⟩ := List.mem_flatMap.1 hm'
        exact (hq0 j).1 m' hj)) (hlost ops v hdes)
    change (Spec.unloaded i k r v (ops ++ [.route, .receiveAll i]) ++ Spec.stored (v.run (ops ++ [.route, .receiveAll i])) i k r).count m =
      (Spec.sent v ops).count m at h6
    rw [t1'] at h6
    exact h6
  · have hz : ∀ l : List (Message F), (l.filter (ofSender k u)).count m = 0 := by
      intro l
      rw [List.count_eq_zero]
      intro h
      exact hm (List.mem_filter.1 h).2
    rw [hz, hz]

/-- C130: the two implementations of the bus are interchangeable as far as one sender is concerned.  Make the same calls on both: any
history `pre` in which `u` sends nothing, after which endpoint `i` is connected on the ZeroMQ bus; then `r` subscribes to `u`; then calls
that keep the subscription, destroy no endpoint, receive before every routing, send `u`'s messages through `src`, leave room in the pipes, and
end with routing and receiving.  Then `r` gets from `u` the same messages in the same order on both, whatever ZeroMQ decides. -/
theorem C130_same_per_sender_partial [DecidableEq F] {l : Limits} {c : Codec F X} (hc : Lawful c) (hl : l.sure ≤ l.hard)
    (pre calls : List (Call F)) (sub : Call F) (picks : List Pick) (lag lag' : Bool) (i src : Nat) (k : MsgKind) (r u : UID) (xs : List UID)
    (w0 w w' : World F X) (hpre : World.init.run l c pre = some (.ok w0)) (hop : sub.op = .subscribe i k r xs) (hu : u ∈ xs)
    (hsub : w0.exec l c sub = some (.ok w)) (hcon : Connected w i)
    (hrun : w.run l c (calls ++ [⟨.route, picks, lag⟩, ⟨.receiveAll i, [], lag'⟩]) = some (.ok w'))
    (hroom : Roomy l c i w (calls ++ [⟨.route, picks, lag⟩, ⟨.receiveAll i, [], lag'⟩]))
    (hkeep : Spec.Keeps i k r u (calls.map (·.op))) (hdes : ∀ e, Bus.Op.destroyEndpoint e ∉ calls.map (·.op))
    (hquiet : ∀ e m, Bus.Op.send e m ∈ pre.map (·.op) → m.sender ≠ u)
    (hsrc : ∀ e m, Bus.Op.send e m ∈ calls.map (·.op) → m.sender = u → e = src)
    (hrecv : Spec.ReceivesBetweenRoutes i Bus.World.init
      (pre.map (·.op) ++ .subscribe i k r xs :: (calls.map (·.op) ++ [.route, .receiveAll i]))) :
    let v := (Bus.World.init.run (pre.map (·.op))).exec (.subscribe i k r xs)
    (unloaded l c i k r w calls ++ stored w' i k r).filter (ofSender k u) =
      (Spec.unloaded i k r v (calls.map (·.op)) ++ Spec.stored (v.run (calls.map (·.op) ++ [.route, .receiveAll i])) i k r).filter
        (ofSender k u) := by
  intro v
  have hp0 := run_packed hc pre _ _ (init_packed c) hpre
  have hp1 := exec_packed hc hp0 hsub
  have hpre' : World.init.run l c (pre ++ [sub]) = some (.ok w) := by
    rw [Zmq.run_append _ _ _ _ hpre, run_cons_eq hsub]; rfl
  have ha0 : Alike w0 (Bus.World.init.run (pre.map (·.op))) :=
    Alike.run hc pre World.init w0 Bus.World.init (init_packed c) rfl ⟨fun _ => rfl, rfl⟩ hpre
  have ha : Alike w v := by
    have := ha0.exec hc hp0 (Bus.queue_run _ _ rfl) hsub
    rw [hop] at this
    exact this
  obtain ⟨p, hp, hj⟩ := hcon
  have halive : (v.endpoint i).isSome := by rw [← ha.live i, hp]; rfl
  -- the subscription
  obtain ⟨s, hs, hus⟩ : ∃ s, subscription w i k r = some s ∧ u ∈ s.senders := by
    obtain ⟨hpi, hpa⟩ := port_some.1 hp
    have hb : ¬ IsBus sub.op := by rw [hop]; rintro (h | h) <;> cases h
    obtain ⟨_, _, e3⟩ := exec_ports hc hp0 hb (by rw [hop]; simp) hsub
    rw [e3 i] at hpi
    obtain ⟨q, hq, rfl⟩ := Option.map_eq_some_iff.1 hpi
    have hqa := portStep_alive i sub.op q hpa
    unfold subscription
    rw [hp, hop]
    unfold portStep
    simp only [Option.bind_some, hqa, if_true, Bus.findSub_subscribe]
    exact ⟨_, rfl, by simp [Bus.mem_setInsertAll, hu]⟩
  have hsend : ∀ call ∈ (pre ++ [sub]) ++ calls, ∀ e m, call.op = .send e m → m.sender = u → e = src := by
    intro call hcall e m he hm
    rcases List.mem_append.1 hcall with h | h
    · rcases List.mem_append.1 h with h | h
      · exact absurd hm (hquiet e m (List.mem_map.2 ⟨call, h, he⟩))
      · rw [List.mem_singleton.1 h, hop] at he; cases he
    · exact hsrc e m (List.mem_map.2 ⟨call, h, he⟩) hm
  have hz := C127_exactly_once_partial hc hl (pre ++ [sub]) calls picks lag lag' i src k r u s w w' hpre' hs hus ⟨p, hp, hj⟩ hrun hroom
    hkeep hsend
  -- nothing of `u` was under way
  have hfrom := (From.run hc (pre ++ [sub]) World.init w (From.init c i k r (fun _ => True) (fun m => m.sender ≠ u)) (fun _ _ => trivial)
    (fun e m hm => by
      obtain ⟨call, hcall, he⟩ := sentVia_mem _ _ _ _ hm
      rcases List.mem_append.1 hcall with h | h
      · exact hquiet e m (List.mem_map.2 ⟨call, h, he⟩)
      · rw [List.mem_singleton.1 h, hop] at he; cases he) hpre').1
  have hnil : ∀ l : List (Message F), (∀ m ∈ l, m.sender ≠ u) → l.filter (ofSender k u) = [] := by
    intro l hl
    rw [List.filter_eq_nil_iff]
    intro m hm
    unfold ofSender
    simp [hl m hm]
  have n1 : (stored w i k r).filter (ofSender k u) = [] := hnil _ (fun m hm => (hfrom.stored m hm).2.2)
  have n2 : (decoded c (pipeIn w i)).filter (ofSender k u) = [] := by
    refine hnil _ ?_
    unfold pipeIn
    rw [hp]
    exact hfrom.inn p (List.mem_of_getElem? (port_some.1 hp).1)
  have n3 : (decoded c (inFlight w src)).filter (ofSender k u) = [] := by
    refine hnil _ ?_
    unfold inFlight pipeOut
    intro m hm
    rw [decoded_append] at hm
    rcases List.mem_append.1 hm with hm | hm
    · exact hfrom.frame m hm
    · cases hq : w.ports[src]? with
      | none => rw [hq] at hm; cases hm
      | some q => rw [hq] at hm; exact hfrom.out q (List.mem_of_getElem? hq) m hm
  rw [hz, List.filter_append, List.filter_append, List.filter_append, n1, n2, n3, List.nil_append, List.nil_append, List.nil_append]
  obtain ⟨w1, hr1, _⟩ := run_split _ _ _ _ hrun
  rw [sent_alike hc k u src calls w w1 v hp1 (Bus.queue_exec _ _ (Bus.queue_run _ _ rfl)) ha
    (fun call h e m he hm => hsrc e m (List.mem_map.2 ⟨call, h, he⟩) hm) hr1]
  exact (C130_in_process (pre.map (·.op)) (calls.map (·.op)) i src k r u xs halive hu hkeep hdes hquiet hsrc hrecv).symm

open ZmqEx in
/-- C130 cannot be extended to all senders at once: with two senders the in-process bus delivers in the order of the endpoints, ZeroMQ in
any order. -/
theorem C130_across_senders_refuted :
    ∃ (calls : List (Call Nat)) (w : World Nat (FbEnvelope Nat)), World.init.run limits codec calls = some (.ok w) ∧
      stored w 2 .spike 5 ≠ Spec.stored (Bus.World.init.run (calls.map (·.op))) 2 .spike 5 ∧
      (stored w 2 .spike 5).Perm (Spec.stored (Bus.World.init.run (calls.map (·.op))) 2 .spike 5) :=
  ⟨[call .createEndpoint, call .createEndpoint, call .createEndpoint, call (.subscribe 2 .spike 5 [7, 8]), call (.send 0 (msg 7 1)),
    call (.send 1 (msg 8 1)), route [1, 0] [2], call (.receiveAll 2)], _, rfl, by decide +kernel, by decide +kernel⟩

open ZmqEx in
example :
    let pre := [call .createEndpoint, call .createEndpoint, call .createEndpoint, call (.send 0 (msg 1 0)), route [0] [2]]
    let sub := call (.subscribe 2 .spike 5 [7, 8])
    let calls := [call (.send 0 (msg 7 1)), call (.send 1 (msg 8 2)), call (.send 0 (msg 7 3)), route [1, 0, 0] [],
      call (.receiveAll 2), call (.unload 2 .spike 5), call (.send 0 (msg 7 4))]
    ∃ w0 w w', World.init.run limits codec pre = some (.ok w0) ∧ w0.exec limits codec sub = some (.ok w) ∧ Connected w 2 ∧
      w.run limits codec (calls ++ [route [0] [], call (.receiveAll 2)]) = some (.ok w') ∧
      Spec.ReceivesBetweenRoutes 2 Bus.World.init
        (pre.map (·.op) ++ .subscribe 2 .spike 5 [7, 8] :: (calls.map (·.op) ++ [.route, .receiveAll 2])) ∧
      unloaded limits codec 2 .spike 5 w calls ++ stored w' 2 .spike 5 = [msg 8 2, msg 7 1, msg 7 3, msg 7 4] := by
  refine ⟨_, _, _, rfl, rfl, ⟨_, rfl, rfl⟩, rfl, ?_, by decide +kernel⟩
  simp only [List.map_cons, List.map_nil, List.cons_append, List.nil_append, Spec.ReceivesBetweenRoutes]
  refine ⟨?_, ?_, ?_, ?_, ?_, ?_, ?_, ?_, ?_, ?_, ?_, ?_, ?_, ?_, ?_, trivial⟩ <;> decide +kernel

/-! ## C131 -/

/-- C131, at the moment of receipt: whatever call is made in whatever reachable state, a message newly stored for `(k, r)` on endpoint
`i` was in the pipe to `i`, and the subscription as it was just before the call had its kind and listed its sender.  (Every endpoint
gets every message from the bus, `C129_everyone`; this is the only filter.) -/
theorem C131_stored_only_if_subscribed {l : Limits} {c : Codec F X} (hc : Lawful c) (pre : List (Call F)) (w w' : World F X)
    (call : Call F) (i : Nat) (k : MsgKind) (r : UID) (m : Message F) (hpre : World.init.run l c pre = some (.ok w))
    (h : w.exec l c call = some (.ok w')) (hm : m ∈ stored w' i k r) (hn : m ∉ stored w i k r) :
    ∃ s, subscription w i k r = some s ∧ m.kind = k ∧ m.sender ∈ s.senders ∧ m ∈ decoded c (pipeIn w i) := by
  have hw := run_packed hc pre _ _ (init_packed c) hpre
  cases hs : subscription w' i k r with
  | none => unfold stored at hm; rw [hs] at hm; cases hm
  | some s =>
    unfold stored at hm
    rw [hs] at hm
    obtain ⟨s0, h0, h1 | ⟨h1, h2, h3⟩⟩ := (exec_sub hc hw h i k r s hs).2 m hm
    · exact absurd (by unfold stored; rw [h0]; exact h1) hn
    · exact ⟨s0, h0, h2, h3, h1⟩

/-- C131 over a whole history: everything a receiver `r` ever unloads, or still has stored, for kind `k` on endpoint `i` is of kind `k`,
its sender was put on `r`'s list by some call of the history, and it was really sent through some endpoint. -/
theorem C131_received_only_from_subscribed {l : Limits} {c : Codec F X} (hc : Lawful c) (calls : List (Call F)) (w : World F X) (i : Nat)
    (k : MsgKind) (r : UID) (m : Message F) (h : World.init.run l c calls = some (.ok w))
    (hm : m ∈ unloaded l c i k r World.init calls ++ stored w i k r) :
    m.kind = k ∧ m.sender ∈ Spec.everSubscribed i k r (calls.map (·.op)) ∧ ∃ e, m ∈ sentVia l c e World.init calls := by
  obtain ⟨h1, h2⟩ := From.run hc calls World.init w
    (From.init c i k r (fun x => x ∈ Spec.everSubscribed i k r (calls.map (·.op))) (fun m => ∃ e, m ∈ sentVia l c e World.init calls))
    (fun x hx => hx) (fun e m hm => ⟨e, hm⟩) h
  rcases List.mem_append.1 hm with hm | hm
  · exact h2 m hm
  · exact h1.stored m hm

open ZmqEx in
/-- Of three messages in the pipe of endpoint 1, one is of a subscribed sender. -/
example :
    let pre := [call .createEndpoint, call .createEndpoint, call (.subscribe 1 .spike 5 [7]), call (.send 0 (msg 6 1)),
      call (.send 0 (msg 7 1)), call (.send 0 (.impact ⟨⟨7, 1⟩, 0, 0, true, []⟩)), route [0, 0, 0] [1]]
    ∃ w w', World.init.run limits codec pre = some (.ok w) ∧ w.exec limits codec (call (.receiveAll 1)) = some (.ok w') ∧
      (pipeIn w 1).length = 3 ∧ stored w 1 .spike 5 = [] ∧ stored w' 1 .spike 5 = [msg 7 1] :=
  ⟨_, _, rfl, rfl, by decide +kernel, by decide +kernel, by decide +kernel⟩

/-! ## C132 -/

/-- C132: no call of the API ever throws or is undefined on this bus, whatever was done before and whatever ZeroMQ decides: a call that
returns, returns normally.  In particular every message that arrives is decoded ("Unknown message type." is never thrown). -/
theorem C132_no_exceptions {l : Limits} {c : Codec F X} (hc : Lawful c) (calls : List (Call F)) (o : Outcome (World F X))
    (h : World.init.run l c calls = some o) : ∃ w, o = .ok w :=
  run_no_throw hc calls _ (init_packed c) h

/-- C132: only sending and routing can fail to return; all other calls do, in every state. -/
theorem C132_returns {l : Limits} (c : Codec F X) (w : World F X) (op : Bus.Op F) (h : ∀ e m, op ≠ .send e m) (hr : op ≠ .route)
    (hs : op ≠ .busStep) (picks : List Pick) (lag : Bool) : (w.exec l c ⟨op, picks, lag⟩).isSome := by
  cases op with
  | send e m => exact absurd rfl (h e m)
  | route => exact absurd rfl hr
  | busStep => exact absurd rfl hs
  | _ => rfl

open ZmqEx in
example : World.init.run limits codec [call .createEndpoint, call (.subscribe 0 .impact 5 [7]),
    call (.send 0 (.impact ⟨⟨7, 1⟩, 0, 0, true, []⟩)), route [0] [0], call (.receiveMessage 0), call (.receiveMessage 0)] ≠ none := by
  decide +kernel

end Knp.Props
