import Verif.Model.Zmq

/-!
# Specification vocabulary for the ZeroMQ bus

Bookkeeping over a history of calls, as in `Verif/Spec/Bus.lean`; no delivery logic.
-/

namespace Knp.Zmq
open Knp Knp.Bus

variable {F X : Type}

/-- The messages in a pipe. -/
def decoded (c : Codec F X) (xs : List X) : List (Message F) :=
  xs.filterMap (fun x => match c.unpack x with | .ok m => some m | _ => none)

/-- Messages of kind `k` from `u`. -/
def ofSender (k : MsgKind) (u : UID) (m : Message F) : Bool := m.kind == k && m.sender == u

/-- The subscription `(k, r)` on the live endpoint `i`. -/
def subscription (w : World F X) (i : Nat) (k : MsgKind) (r : UID) : Option (Subscr F) :=
  (w.port i).bind (fun p => p.ep.findSub k r)

/-- Messages stored for `(k, r)` on endpoint `i` and not yet unloaded. -/
def stored (w : World F X) (i : Nat) (k : MsgKind) (r : UID) : List (Message F) :=
  ((subscription w i k r).map (·.messages)).getD []

/-- The pipe to endpoint `i`: routed, not yet received. -/
def pipeIn (w : World F X) (i : Nat) : List X := ((w.port i).map (·.inn)).getD []

/-- The pipe from endpoint `e`: sent, not yet read by the bus. -/
def pipeOut (w : World F X) (e : Nat) : List X := ((w.ports[e]?).map (·.out)).getD []

/-- Sent through endpoint `e` and not yet routed, in the order of sending (the bus may be in the middle of a message of any
endpoint). -/
def inFlight (w : World F X) (e : Nat) : List X := w.frame.toList ++ pipeOut w e

/-- How many messages are in flight. -/
def flying (w : World F X) : Nat := w.frame.toList.length + (w.ports.map (fun p => p.out.length)).sum

/-- Messages sent through endpoint `e` during a history. -/
def sentVia (l : Limits) (c : Codec F X) (e : Nat) (w : World F X) : List (Call F) → List (Message F)
  | [] => []
  | call :: calls =>
    (match call.op with
      | .send e' m => if e' = e ∧ (w.port e).isSome then [m] else []
      | _ => []) ++
    (match w.exec l c call with
      | some (.ok w') => sentVia l c e w' calls
      | _ => [])

/-- Messages returned by `unload_messages<k>(r)` on endpoint `i` during a history. -/
def unloaded (l : Limits) (c : Codec F X) (i : Nat) (k : MsgKind) (r : UID) (w : World F X) : List (Call F) → List (Message F)
  | [] => []
  | call :: calls =>
    (match call.op with
      | .unload e k' r' => if e = i ∧ k' = k ∧ r' = r then stored w i k r else []
      | _ => []) ++
    (match w.exec l c call with
      | some (.ok w') => unloaded l c i k r w' calls
      | _ => [])

/-- Whenever the bus works, what waits for endpoint `i` and what is in flight fit into a pipe. -/
def Roomy (l : Limits) (c : Codec F X) (i : Nat) (w : World F X) : List (Call F) → Prop
  | [] => True
  | call :: calls =>
    (call.op = .route ∨ call.op = .busStep → (pipeIn w i).length + flying w ≤ l.sure) ∧
    (match w.exec l c call with
      | some (.ok w') => Roomy l c i w' calls
      | _ => True)

/-- Endpoint `i` is connected. -/
def Connected (w : World F X) (i : Nat) : Prop := ∃ p, w.port i = some p ∧ p.joined = true

end Knp.Zmq
