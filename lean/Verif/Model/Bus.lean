import Verif.Model.Messages

/-!
# Subscriptions, endpoints and the in-process message bus

Models `knp/core-library/include/knp/core/subscription.h`, `impl/message_endpoint.cpp`,
`impl/message_bus.cpp` and `impl/message_bus_cpu_impl/*`.

A set (`std::unordered_set<UID>`) is a list; insertion keeps it free of duplicates.
`F` is the type of impact values; it is arbitrary.
-/

namespace Knp
namespace Bus

variable {F : Type}

/-! ## Sets -/

/-- `unordered_set::insert(x)`. -/
def setInsert (s : List UID) (x : UID) : List UID := if s.contains x then s else s ++ [x]

/-- `insert(first, last)`, `std::copy(…, std::inserter(…))`: insert one after another. -/
def setInsertAll (s : List UID) (xs : List UID) : List UID := xs.foldl setInsert s

/-! ## Subscription -/

/-- `Subscription<MessageT>` (subscription.h:42-178) together with its message type and its key in
`MessageEndpoint::subscriptions_`.  `messages` only ever holds messages of kind `kind`
(`std::vector<MessageT>`); the theorems prove this. -/
structure Subscr (F : Type) where
  kind : MsgKind
  receiver : UID
  senders : List UID
  messages : List (Message F)
deriving Repr, DecidableEq

namespace Subscr
/-- `add_senders` (subscription.h:112-117) and its result. -/
def addSenders (s : Subscr F) (xs : List UID) : Subscr F × Nat :=
  let s' := { s with senders := setInsertAll s.senders xs }
  (s', s'.senders.length - s.senders.length)

/-- `add_sender` (subscription.h:103). -/
def addSender (s : Subscr F) (x : UID) : Subscr F × Nat :=
  ({ s with senders := setInsert s.senders x }, if s.senders.contains x then 0 else 1)

/-- `remove_sender` (subscription.h:92): `unordered_set::erase` returns the number of erased elements. -/
def removeSender (s : Subscr F) (x : UID) : Subscr F × Nat :=
  ({ s with senders := s.senders.filter (fun y => y != x) }, (s.senders.filter (fun y => y == x)).length)

/-- `has_sender` (subscription.h:126). -/
def hasSender (s : Subscr F) (x : UID) : Bool := s.senders.contains x

/-- `add_message` (subscription.h:136-144). -/
def addMessage (s : Subscr F) (m : Message F) : Subscr F := { s with messages := s.messages ++ [m] }

/-- Constructor (subscription.h:67). -/
def create (k : MsgKind) (r : UID) (xs : List UID) : Subscr F :=
  ((Subscr.mk k r [] []).addSenders xs).1

/-- The map key of the subscription is `(k, r)`. -/
def hasKey (s : Subscr F) (k : MsgKind) (r : UID) : Bool := s.kind == k && s.receiver == r
end Subscr

/-! ## Endpoint -/

/-- `MessageEndpoint` with the two vectors of its CPU implementation
(message_endpoint_cpu_impl.h:79-80).  `subs` is the map `subscriptions_`, as a list of its values;
`senders` is the shared set `*senders_` the bus filters by. -/
structure Endpoint (F : Type) where
  subs : List (Subscr F)
  senders : List UID
  toSend : List (Message F)
  recv : List (Message F)
deriving Repr, DecidableEq

namespace Endpoint

/-- `MessageBusCPUImpl::create_endpoint` (message_bus_cpu_impl.cpp:91-103). -/
def fresh : Endpoint F := { subs := [], senders := [], toSend := [], recv := [] }

/-- `subscriptions_.find({index, receiver})`. -/
def findSub (e : Endpoint F) (k : MsgKind) (r : UID) : Option (Subscr F) :=
  e.subs.find? (fun s => s.hasKey k r)

/-- Modify the subscription with key `(k, r)`. -/
def modifySub (e : Endpoint F) (k : MsgKind) (r : UID) (f : Subscr F → Subscr F) : Endpoint F :=
  { e with subs := e.subs.map (fun s => if s.hasKey k r then f s else s) }

/-- `subscribe<T>(receiver, senders)` (message_endpoint.cpp:77-109). -/
def subscribe (e : Endpoint F) (k : MsgKind) (r : UID) (xs : List UID) : Endpoint F :=
  let e := { e with senders := setInsertAll e.senders xs }
  match e.findSub k r with
  | some _ => e.modifySub k r (fun s => (s.addSenders xs).1)
  | none => { e with subs := e.subs ++ [Subscr.create k r xs] }

/-- `update_senders()` (message_endpoint.cpp:244-255): the freshly computed set is a local variable that
is dropped, so nothing changes. -/
def updateSenders (e : Endpoint F) : Endpoint F :=
  let _newSenders := e.subs.foldl (fun acc s => setInsertAll acc s.senders) []
  e

/-- `unsubscribe<T>(receiver)` (message_endpoint.cpp:112-125). -/
def unsubscribe (e : Endpoint F) (k : MsgKind) (r : UID) : Endpoint F × Bool :=
  match e.findSub k r with
  | some _ => ({ e with subs := e.subs.filter (fun s => !s.hasKey k r) }, true)
  | none => (e.updateSenders, false)

/-- `remove_receiver(receiver)` (message_endpoint.cpp:128-140): `erase(it)` invalidates `it`, the loop then
increments it, which is undefined behaviour; without a match only `update_senders()` runs. -/
def removeReceiver (e : Endpoint F) (r : UID) : Outcome (Endpoint F) :=
  if e.subs.any (fun s => s.receiver == r) then .ub else .ok e.updateSenders

/-- `send_message` (message_endpoint.cpp:143-148, message_endpoint_cpu_impl.h:54-60). -/
def send (e : Endpoint F) (m : Message F) : Endpoint F := { e with toSend := e.toSend ++ [m] }

/-- The loop over the subscriptions of `receive_message` (message_endpoint.cpp:168-202). -/
def deliver (e : Endpoint F) (m : Message F) : Endpoint F :=
  { e with subs := e.subs.map (fun s =>
      if s.kind == m.kind then (if s.hasSender m.sender then s.addMessage m else s) else s) }

/-- `receive_message` (message_endpoint.cpp:151-205, message_endpoint_cpu_impl.h:64-76): takes the *last*
element of the vector of received messages. -/
def receiveMessage (e : Endpoint F) : Endpoint F × Bool :=
  match e.recv.getLast? with
  | none => (e, false)
  | some m => (({ e with recv := e.recv.dropLast }).deliver m, true)

/-- The loop of `receive_all_messages`, at most `fuel` iterations. -/
def receiveLoop : Nat → Endpoint F → Nat → Endpoint F × Nat
  | 0, e, count => (e, count)
  | fuel + 1, e, count =>
    match e.receiveMessage with
    | (e', true) => receiveLoop fuel e' (count + 1)
    | (e', false) => (e', count)

/-- `receive_all_messages` (message_endpoint.cpp:208-222).  Every iteration removes one element of `recv`,
so `recv.length + 1` iterations are all the loop can do. -/
def receiveAll (e : Endpoint F) : Endpoint F × Nat := receiveLoop (e.recv.length + 1) e 0

/-- `unload_messages<T>(receiver)` (message_endpoint.cpp:225-241). -/
def unload (e : Endpoint F) (k : MsgKind) (r : UID) : Endpoint F × List (Message F) :=
  match e.findSub k r with
  | none => (e, [])
  | some s => (e.modifySub k r (fun s => { s with messages := [] }), s.messages)

end Endpoint

/-! ## Bus -/

/-- A bus with its endpoints in creation order.  A destroyed endpoint keeps its slot with
`alive = false`; the C++ bus erases it from its list at the next `update()`
(message_bus_cpu_impl.cpp:50-54) and skips it until then (line 80), which no operation can distinguish. -/
structure Slot (F : Type) where
  alive : Bool
  ep : Endpoint F
deriving Repr, DecidableEq

/-- `MessageBusCPUImpl`: endpoints and `messages_to_route_`. -/
structure World (F : Type) where
  slots : List (Slot F)
  queue : List (Message F)
deriving Repr, DecidableEq

namespace World

/-- A new bus (`construct_cpu_bus`, message_bus.cpp:48-51). -/
def init : World F := { slots := [], queue := [] }

/-- `update()` (message_bus_cpu_impl.cpp:41-63): collect the sent messages of all live endpoints. -/
def update (w : World F) : World F :=
  { queue := w.queue ++ (w.slots.filter (·.alive)).flatMap (·.ep.toSend),
    slots := w.slots.map (fun s => if s.alive then { s with ep := { s.ep with toSend := [] } } else s) }

/-- The loop body of `step()` for one endpoint (message_bus_cpu_impl.cpp:75-85). -/
def offer (m : Message F) (s : Slot F) : Slot F :=
  if s.alive && s.ep.senders.contains m.sender then
    { s with ep := { s.ep with recv := s.ep.recv ++ [m] } } else s

/-- `step()` (message_bus_cpu_impl.cpp:66-88): routes the *last* queued message. -/
def step (w : World F) : World F × Nat :=
  match w.queue.getLast? with
  | none => (w, 0)
  | some m => ({ queue := w.queue.dropLast, slots := w.slots.map (offer m) }, 1)

/-- The `while` loop of `route_messages` (message_bus.cpp:89-93), at most `fuel` iterations. -/
def routeLoop : Nat → World F → Nat → World F × Nat
  | 0, w, count => (w, count)
  | fuel + 1, w, count =>
    match w.step with
    | (w', 0) => (w', count)
    | (w', n + 1) => routeLoop fuel w' (count + (n + 1))

/-- `route_messages()` (message_bus.cpp:81-96).  Every iteration removes one queued message, so
`queue.length + 1` iterations are all the loop can do. -/
def route (w : World F) : World F × Nat :=
  let w := w.update
  routeLoop (w.queue.length + 1) w 0

/-- Apply `f` to endpoint `i` if it is alive (a destroyed endpoint cannot be used). -/
def onEndpoint (w : World F) (i : Nat) (f : Endpoint F → Endpoint F) : World F :=
  { w with slots := w.slots.modify i (fun s => if s.alive then { s with ep := f s.ep } else s) }

/-- The live endpoint `i`. -/
def endpoint (w : World F) (i : Nat) : Option (Endpoint F) :=
  match w.slots[i]? with
  | some s => if s.alive then some s.ep else none
  | none => none

end World

/-- Calls of the public API that a program makes on a bus and its endpoints. -/
inductive Op (F : Type) where
  | createEndpoint
  | destroyEndpoint (e : Nat)
  | subscribe (e : Nat) (k : MsgKind) (r : UID) (senders : List UID)
  | unsubscribe (e : Nat) (k : MsgKind) (r : UID)
  /-- `add_sender`/`remove_sender` through the `Subscription&` returned by `subscribe` -/
  | subAddSender (e : Nat) (k : MsgKind) (r : UID) (s : UID)
  | subRemoveSender (e : Nat) (k : MsgKind) (r : UID) (s : UID)
  | send (e : Nat) (m : Message F)
  | receiveMessage (e : Nat)
  | receiveAll (e : Nat)
  | unload (e : Nat) (k : MsgKind) (r : UID)
  | busStep
  | route
deriving Repr, DecidableEq

namespace World

/-- State change of a call.  (`remove_receiver` is not here: on every state it either does nothing or
is undefined, see C12.) -/
def exec (w : World F) : Op F → World F
  | .createEndpoint => { w with slots := w.slots ++ [{ alive := true, ep := .fresh }] }
  | .destroyEndpoint e => { w with slots := w.slots.modify e (fun s => { s with alive := false }) }
  | .subscribe e k r xs => w.onEndpoint e (fun ep => ep.subscribe k r xs)
  | .unsubscribe e k r => w.onEndpoint e (fun ep => (ep.unsubscribe k r).1)
  | .subAddSender e k r x => w.onEndpoint e (fun ep => ep.modifySub k r (fun s => (s.addSender x).1))
  | .subRemoveSender e k r x =>
    w.onEndpoint e (fun ep => ep.modifySub k r (fun s => (s.removeSender x).1))
  | .send e m => w.onEndpoint e (fun ep => ep.send m)
  | .receiveMessage e => w.onEndpoint e (fun ep => ep.receiveMessage.1)
  | .receiveAll e => w.onEndpoint e (fun ep => ep.receiveAll.1)
  | .unload e k r => w.onEndpoint e (fun ep => (ep.unload k r).1)
  | .busStep => w.step.1
  | .route => w.route.1

/-- A whole history. -/
def run (w : World F) (ops : List (Op F)) : World F := ops.foldl exec w

end World
end Bus
end Knp
