import Verif.Model.Bus

/-!
# The ZeroMQ message bus

Models `knp/core-library/impl/message_bus_zmq_impl/*` and `MessageBus::route_messages` over it.  Endpoints are the same class as on
the in-process bus (`Verif/Model/Bus.lean`): `subs` of `Endpoint` is used here, its two vectors are not.

What libzmq does is not in the repository; it is modelled as follows (trusted):

* A DEALER socket connected to the ROUTER over `inproc` is a first-in-first-out pipe.  The ROUTER reads, from any non-empty pipe, the
  five-byte identity of the sender and then the message.  Which pipe it reads is an input (`Pick.src`), so fairness is not assumed.
* A PUB socket puts a message into the pipe of every SUB socket that it has attached.  When it attaches a new one is an input
  (`Pick.joins`): connecting is asynchronous.
* A pipe takes at least `sure` and at most `hard` messages (high-water marks of both ends; the writer learns late how much was
  read); in between an input decides (`lag`).  A PUB socket drops what does not fit, a DEALER socket returns EAGAIN.
* Pipes of a closed DEALER are still read (linger), those of a closed SUB are not written.

Calls are made one after another: ZeroMQ sockets must not be shared between threads, and this bus takes no lock.
-/

namespace Knp.Zmq
open Knp Knp.Bus

variable {F X : Type}

/-- Conversion of messages to frames: `pack_to_envelope`, `extract_from_envelope` and the size in bytes
(message_endpoint_zmq_impl.h:42-59). -/
structure Codec (F X : Type) where
  pack : Message F → X
  unpack : X → Outcome (Message F)
  size : X → Nat

/-- The codec of the endpoint; `size` is the length of a FlatBuffers buffer. -/
def envelope (size : FbEnvelope F → Nat) : Codec F (FbEnvelope F) := ⟨packToEnvelope, extractFromEnvelope, size⟩

/-- Limits of a pipe. -/
structure Limits where
  sure : Nat
  hard : Nat
deriving Repr, DecidableEq

/-- A pipe of length `n` takes no more. -/
def full (l : Limits) (lag : Bool) (n : Nat) : Bool := decide (l.hard ≤ n) || (lag && decide (l.sure ≤ n))

/-- An endpoint (`MessageEndpointZMQImpl`): `out` is the pipe from its DEALER socket `pub_socket_` to the ROUTER, `inn` the pipe from
the PUB to its SUB socket `sub_socket_`; `joined`: the PUB has attached it. -/
structure Port (F X : Type) where
  alive : Bool
  joined : Bool
  ep : Endpoint F
  out : List X
  inn : List X
deriving Repr, DecidableEq

/-- `MessageBusZMQImpl`: `frame` is the message whose identity frame has been read from the ROUTER. -/
structure World (F X : Type) where
  ports : List (Port F X)
  frame : Option X
deriving Repr, DecidableEq

/-- What ZeroMQ decides in one step of the bus. -/
structure Pick where
  src : Nat
  joins : List Nat
  lag : List Nat
deriving Repr, DecidableEq

namespace World

/-- A new bus (`construct_zmq_bus`, message_bus.cpp:54-57; message_bus_zmq_impl.cpp:56-69). -/
def init : World F X := ⟨[], none⟩

/-- `publish_socket_.send` (message_bus_zmq_impl.cpp:131-134) for one subscriber. -/
def offer (l : Limits) (pk : Pick) (x : X) (i : Nat) (p : Port F X) : Port F X :=
  let p := { p with joined := p.joined || pk.joins.contains i }
  if p.alive && p.joined && !full l (pk.lag.contains i) p.inn.length then { p with inn := p.inn ++ [x] } else p

/-- `poll` (message_bus_zmq_impl.cpp:72-107) finds nothing. -/
def idle (w : World F X) : Bool := w.ports.all (fun p => p.out.isEmpty)

/-- `step()` (message_bus_zmq_impl.cpp:110-144): one frame is read.  A frame of five bytes is taken for an identity (line 123,
`isit_id`) and not sent on; any other is published.  `none`: the pick names an empty pipe although there is something to read. -/
def step (l : Limits) (c : Codec F X) (w : World F X) (pk : Pick) : Option (World F X × Nat) :=
  match w.frame with
  | some x =>
    if c.size x = 5 then some ({ w with frame := none }, 1)
    else some (⟨w.ports.mapIdx (offer l pk x), none⟩, if c.size x = 0 then 0 else 1)
  | none =>
    match (w.ports[pk.src]?).bind (fun p => p.out.head?) with
    | some x => some (⟨w.ports.modify pk.src (fun p => { p with out := p.out.tail }), some x⟩, 1)
    | none => if w.idle then some (w, 0) else none

/-- The loop of `route_messages` (message_bus.cpp:81-96; `update()` does nothing on this bus, message_bus_impl.h:53): steps until
one returns 0.  One pick per step; `none` if there are too many or too few. -/
def routeLoop (l : Limits) (c : Codec F X) : List Pick → World F X → Nat → Option (World F X × Nat)
  | [], _, _ => none
  | pk :: pks, w, count =>
    match step l c w pk with
    | none => none
    | some (w', 0) => if pks = [] then some (w', count) else none
    | some (w', n + 1) => routeLoop l c pks w' (count + (n + 1))

/-- The live endpoint `i`. -/
def port (w : World F X) (i : Nat) : Option (Port F X) :=
  match w.ports[i]? with
  | some p => if p.alive then some p else none
  | none => none

/-- Apply `f` to the live endpoint `i`. -/
def onPort (w : World F X) (i : Nat) (f : Port F X → Port F X) : World F X :=
  { w with ports := w.ports.modify i (fun p => if p.alive then f p else p) }

end World

/-- `receive_message` (message_endpoint.cpp:151-205 over message_endpoint_zmq_impl.h:42-52, message_endpoint_zmq_impl.cpp:83-128): the
first message of the pipe is unpacked and offered to the subscriptions. -/
def Port.receiveMessage (c : Codec F X) (p : Port F X) : Outcome (Port F X × Bool) :=
  match p.inn with
  | [] => .ok (p, false)
  | x :: xs =>
    match c.unpack x with
    | .ok m => .ok ({ p with inn := xs, ep := p.ep.deliver m }, true)
    | .throw e => .throw e
    | .ub => .ub

/-- The loop of `receive_all_messages`, at most `fuel` iterations. -/
def Port.receiveLoop (c : Codec F X) : Nat → Port F X → Outcome (Port F X)
  | 0, p => .ok p
  | fuel + 1, p =>
    match p.receiveMessage c with
    | .ok (p', true) => receiveLoop c fuel p'
    | .ok (p', false) => .ok p'
    | .throw e => .throw e
    | .ub => .ub

/-- `receive_all_messages` (message_endpoint.cpp:208-222): every iteration takes one message out of the pipe. -/
def Port.receiveAll (c : Codec F X) (p : Port F X) : Outcome (Port F X) := p.receiveLoop c (p.inn.length + 1)

/-- A call of the public API (`Bus.Op`) and what ZeroMQ decides during it: a pick for each step of the bus, and for a sending
DEALER whether it learns late. -/
structure Call (F : Type) where
  op : Op F
  picks : List Pick
  lag : Bool
deriving Repr, DecidableEq

/-- The result of a call on the live endpoint `i`. -/
def World.tryPort (w : World F X) (i : Nat) (f : Port F X → Outcome (Port F X)) : Outcome (World F X) :=
  match w.port i with
  | none => .ok w
  | some p =>
    match f p with
    | .ok p' => .ok (w.onPort i (fun _ => p'))
    | .throw e => .throw e
    | .ub => .ub

/-- A call.  `none`: it does not return (`send_zmq_message`, message_endpoint_zmq_impl.cpp:68-73, repeats until the pipe takes the
message; nobody else can empty the pipe) or the picks do not fit.  Subscriptions: as on the in-process bus. -/
def World.exec (l : Limits) (c : Codec F X) (w : World F X) (call : Call F) : Option (Outcome (World F X)) :=
  match call.op with
  | .createEndpoint => some (.ok { w with ports := w.ports ++ [⟨true, false, .fresh, [], []⟩] })
  | .destroyEndpoint e => some (.ok (w.onPort e (fun p => { p with alive := false, inn := [] })))
  | .subscribe e k r xs => some (.ok (w.onPort e (fun p => { p with ep := p.ep.subscribe k r xs })))
  | .unsubscribe e k r => some (.ok (w.onPort e (fun p => { p with ep := (p.ep.unsubscribe k r).1 })))
  | .subAddSender e k r x => some (.ok (w.onPort e (fun p => { p with ep := p.ep.modifySub k r (fun s => (s.addSender x).1) })))
  | .subRemoveSender e k r x => some (.ok (w.onPort e (fun p => { p with ep := p.ep.modifySub k r (fun s => (s.removeSender x).1) })))
  | .send e m =>
    match w.port e with
    | none => some (.ok w)
    | some p => if full l call.lag p.out.length then none else some (.ok (w.onPort e (fun p => { p with out := p.out ++ [c.pack m] })))
  | .receiveMessage e => some (w.tryPort e (fun p => (p.receiveMessage c).bind (fun r => .ok r.1)))
  | .receiveAll e => some (w.tryPort e (fun p => p.receiveAll c))
  | .unload e k r => some (.ok (w.onPort e (fun p => { p with ep := (p.ep.unload k r).1 })))
  | .busStep =>
    match call.picks with
    | [pk] => (w.step l c pk).map (fun r => .ok r.1)
    | _ => none
  | .route => (World.routeLoop l c call.picks w 0).map (fun r => .ok r.1)

/-- A history. -/
def World.run (l : Limits) (c : Codec F X) (w : World F X) : List (Call F) → Option (Outcome (World F X))
  | [] => some (.ok w)
  | call :: calls =>
    match w.exec l c call with
    | some (.ok w') => World.run l c w' calls
    | r => r

end Knp.Zmq
