import Verif.Model.Bus

/-!
# Specification vocabulary for message delivery

Bookkeeping over a history of API calls, used in the statements of C06–C14.  These functions only
record what the calls did (which messages were sent, unloaded, …); they contain no delivery logic.
-/

namespace Knp.Spec
open Knp Knp.Bus

variable {F : Type}

/-- The subscription `s` is interested in message `m`. -/
def Wants (s : Subscr F) (m : Message F) : Prop := s.kind = m.kind ∧ m.sender ∈ s.senders

instance (s : Subscr F) (m : Message F) : Decidable (Wants s m) := by unfold Wants; infer_instance

/-- The subscription with key `(k, r)` on endpoint `i`, if the endpoint is alive and has one. -/
def subscription (w : World F) (i : Nat) (k : MsgKind) (r : UID) : Option (Subscr F) :=
  (w.endpoint i).bind (fun ep => ep.findSub k r)

/-- Messages stored for `(k, r)` on endpoint `i` and not yet unloaded. -/
def stored (w : World F) (i : Nat) (k : MsgKind) (r : UID) : List (Message F) :=
  ((subscription w i k r).map (·.messages)).getD []

/-- Messages routed to endpoint `i` and not yet received by it. -/
def arrived (w : World F) (i : Nat) : List (Message F) := ((w.endpoint i).map (·.recv)).getD []

/-- Messages sent through endpoint `i` and not yet routed. -/
def outboxOf (w : World F) (i : Nat) : List (Message F) := ((w.endpoint i).map (·.toSend)).getD []

/-- Messages sent through live endpoints and not yet routed, in endpoint order. -/
def outbox (w : World F) : List (Message F) :=
  (List.range w.slots.length).flatMap (outboxOf w)

/-- Messages sent during a history (a destroyed endpoint cannot send). -/
def sent (w : World F) : List (Op F) → List (Message F)
  | [] => []
  | op :: ops =>
    (match op with
      | .send e m => if (w.endpoint e).isSome then [m] else []
      | _ => []) ++ sent (w.exec op) ops

/-- Messages that were still unrouted in an endpoint when it was destroyed. -/
def lost (w : World F) : List (Op F) → List (Message F)
  | [] => []
  | op :: ops =>
    (match op with
      | .destroyEndpoint e => outboxOf w e
      | _ => []) ++ lost (w.exec op) ops

/-- Messages returned by `unload_messages<k>(r)` on endpoint `i` during a history, in order. -/
def unloaded (i : Nat) (k : MsgKind) (r : UID) (w : World F) : List (Op F) → List (Message F)
  | [] => []
  | op :: ops =>
    (match op with
      | .unload e k' r' =>
        if e = i ∧ k' = k ∧ r' = r then ((w.endpoint i).map (fun ep => (ep.unload k r).2)).getD [] else []
      | _ => []) ++ unloaded i k r (w.exec op) ops

/-- Senders that were ever put on the list of `(k, r)` on endpoint `i`, read off the calls alone. -/
def everSubscribed (i : Nat) (k : MsgKind) (r : UID) : List (Op F) → List UID
  | [] => []
  | op :: ops =>
    (match op with
      | .subscribe e k' r' xs => if e = i ∧ k' = k ∧ r' = r then xs else []
      | .subAddSender e k' r' x => if e = i ∧ k' = k ∧ r' = r then [x] else []
      | _ => []) ++ everSubscribed i k r ops

/-- No call of the history edits a subscription's sender set behind the endpoint's back
(`Subscription::add_sender` on the reference returned by `subscribe`). -/
def NoDirectAdd (ops : List (Op F)) : Prop := ∀ i k r x, Op.subAddSender i k r x ∉ ops

/-- The subscription `(k, r)` on endpoint `i` is left in place and keeps listening to sender `u`. -/
def Keeps (i : Nat) (k : MsgKind) (r : UID) (u : UID) (ops : List (Op F)) : Prop :=
  Op.destroyEndpoint i ∉ ops ∧ Op.unsubscribe i k r ∉ ops ∧ Op.subRemoveSender i k r u ∉ ops

/-- Whenever the bus routes, endpoint `i` has already received everything that was routed to it before. -/
def ReceivesBetweenRoutes (i : Nat) (w : World F) : List (Op F) → Prop
  | [] => True
  | op :: ops => (op = .route → arrived w i = []) ∧ ReceivesBetweenRoutes i (w.exec op) ops

end Knp.Spec

namespace Knp.Spec
open Knp Knp.Bus
variable {F : Type}

/-- The messages endpoint `i` took delivery of, in that order, while its subscription `(k, r)` wanted
them. -/
def accepted (i : Nat) (k : MsgKind) (r : UID) (w : World F) : List (Op F) → List (Message F)
  | [] => []
  | op :: ops =>
    (match op, subscription w i k r with
      | .receiveMessage e, some s =>
        if e = i then (arrived w i).getLast?.toList.filter (fun m => decide (Wants s m)) else []
      | .receiveAll e, some s =>
        if e = i then (arrived w i).reverse.filter (fun m => decide (Wants s m)) else []
      | _, _ => []) ++ accepted i k r (w.exec op) ops

/-- Senders that were ever named in a `subscribe` call on endpoint `i`, for any receiver. -/
def everFiltered (i : Nat) : List (Op F) → List UID
  | [] => []
  | op :: ops =>
    (match op with
      | .subscribe e _ _ xs => if e = i then xs else []
      | _ => []) ++ everFiltered i ops

end Knp.Spec
