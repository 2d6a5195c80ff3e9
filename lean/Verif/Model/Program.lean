import Verif.Model.LearnMulti
import Verif.Model.Io

/-!
# A whole program: executor, channels, handlers, observers, bus and backend

Models what happens when a program runs a loaded model with `ModelExecutor::start`
(`knp/base-framework/impl/model_executor.cpp`): the input channels (`io/input_channel.h`), the output channels
(`impl/output_channel.cpp`), the spike message handlers, the observers (`monitoring/observer.h`) and the backend of
`Verif/Model/Learn.lean` or `Verif/Model/LearnMulti.lean` exchange messages through the bus of `Verif/Model/Bus.lean`.

The program's own functions - generators of the input channels, handler functions, observer functions, the run predicate - may
share any state `σ`, read and change it.  Simplifications: they return (they do not throw); they do not use the bus themselves;
handlers and observers are added before the first `start`; handler endpoints come before observer endpoints (observers never
send, so their place in the order of endpoints has no effect).
-/

namespace Knp.Prog
open Knp Knp.Bus Knp.Sys Knp.Learn

/-- A handler added by `add_spike_message_handler(f, senders, receivers, uid)`. -/
structure Handler where
  uid : UID
  senders : List UID
  receivers : List UID
deriving Repr, DecidableEq

/-- An observer added by `add_observer<Message>(f, senders)`; its UID is random (model_executor.h:96-97). -/
structure Observer where
  uid : UID
  kind : MsgKind
  senders : List UID
deriving Repr, DecidableEq

/-- The endpoints of the program besides the backend's: input channels, output channels with the populations they
listen to, handlers, observers. -/
structure Layout where
  inputs : List UID
  outputs : List (UID × List UID)
  handlers : List Handler
  observers : List Observer
deriving Repr, DecidableEq

/-- The program's own functions, by the number of the channel, handler or observer. -/
structure Code (σ F : Type) where
  gen : Nat → σ → Nat → List Nat × σ
  handle : Nat → σ → List SpikeMessage → List Nat × σ
  observe : Nat → σ → List (Message F) → σ

/-- Backend with the bus, output channels, the program's own state. -/
structure State (σ P J F : Type) where
  core : Learn.State P J F
  outs : List Io.OutputChannel
  user : σ

/-- What can be seen of one iteration of the loop: its step number, what the generators returned, the backend's step, what every
handler got and returned, what every observer got. -/
structure Iter (F : Type) where
  time : Nat
  fed : List (List Nat)
  out : StepOut F
  handled : List (List SpikeMessage × List Nat)
  observed : List (List (Message F))
deriving Repr, DecidableEq

/-- What can be seen of a run: iterations; the last call of the pre-step function, after which the predicate ends the loop;
the program reading an output channel. -/
inductive Item (F : Type) where
  | iter (i : Iter F)
  | halt (time : Nat) (fed : List (List Nat))
  | read (chan start final : Nat) (got : List SpikeMessage)
deriving Repr, DecidableEq

variable {σ P J F : Type}

/-- Number of endpoints besides the backend's. -/
def Layout.chans (L : Layout) : Nat := L.inputs.length + L.outputs.length + L.handlers.length + L.observers.length

/-- Endpoint of the first output channel (the backend's is 0, input channel `i` has `i + 1`; model_loader.cpp:71, 103). -/
def Layout.outBase (L : Layout) : Nat := L.inputs.length + 1

/-- Endpoint of the first handler (model_executor.cpp:141). -/
def Layout.handlerBase (L : Layout) : Nat := L.inputs.length + L.outputs.length + 1

/-- Endpoint of the first observer (model_executor.h:97). -/
def Layout.observerBase (L : Layout) : Nat := L.inputs.length + L.outputs.length + L.handlers.length + 1

/-- `endpoint_.send_message` if there are spikes (input_channel.h:99-120; model_executor.cpp:66-71). -/
def post (w : World F) (e : Nat) (uid : UID) (time : Nat) (spikes : List Nat) : World F :=
  if spikes.isEmpty then w else w.exec (.send e (.spike ⟨⟨uid, time⟩, spikes⟩))

/-- `endpoint_.receive_all_messages(); endpoint_.unload_messages<T>(uid)` (output_channel.cpp:40-41, model_executor.cpp:64-65,
observer.h:99-100). -/
def collect (w : World F) (e : Nat) (k : MsgKind) (uid : UID) : World F × List (Message F) :=
  let w1 := w.exec (.receiveAll e)
  match w1.endpoint e with
  | none => (w1, [])
  | some ep => (w1.exec (.unload e k uid), (ep.unload k uid).2)

/-- The loop over the input channels (model_executor.cpp:100-103) from channel `i` on. -/
def feed (c : Code σ F) (t : Nat) : Nat → List UID → World F → σ → (World F × σ) × List (List Nat)
  | _, [], w, u => ((w, u), [])
  | i, uid :: ins, w, u =>
    let g := c.gen i u t
    let r := feed c t (i + 1) ins (post w (i + 1) uid t g.1) g.2
    (r.1, g.1 :: r.2)

/-- The loop over the output channels (model_executor.cpp:110-113); the first has endpoint `e`. -/
def updateOuts : Nat → List (UID × List UID) → List Io.OutputChannel → World F → World F × List Io.OutputChannel
  | e, o :: os, c :: cs, w =>
    let g := collect w e .spike o.1
    let r := updateOuts (e + 1) os cs g.1
    (r.1, (c.update (spikesIn g.2)).1 :: r.2)
  | _, _, _, w => (w, [])

/-- The loop over the handlers (model_executor.cpp:115-118, 62-72); handler `i` has endpoint `e`. -/
def runHandlers (c : Code σ F) (t : Nat) : Nat → Nat → List Handler → World F → σ →
    (World F × σ) × List (List SpikeMessage × List Nat)
  | _, _, [], w, u => ((w, u), [])
  | i, e, h :: hs, w, u =>
    let g := collect w e .spike h.uid
    let ans := c.handle i u (spikesIn g.2)
    let r := runHandlers c t (i + 1) (e + 1) hs (post g.1 e h.uid t ans.1) ans.2
    (r.1, (spikesIn g.2, ans.1) :: r.2)

/-- The loop over the observers (model_executor.cpp:120-123, observer.h:97-102). -/
def runObservers (c : Code σ F) : Nat → Nat → List Observer → World F → σ → (World F × σ) × List (List (Message F))
  | _, _, [], w, u => ((w, u), [])
  | i, e, b :: bs, w, u =>
    let g := collect w e b.kind b.uid
    let r := runObservers c (i + 1) (e + 1) bs g.1 (c.observe i u g.2)
    (r.1, g.2 :: r.2)

/-- The pre-step function without the predicate (model_executor.cpp:97-103). -/
def preStep (L : Layout) (c : Code σ F) (s : State σ P J F) : State σ P J F × List (List Nat) :=
  let r := feed c s.core.step 0 L.inputs s.core.world s.user
  ({ s with core := { s.core with world := r.1.1 }, user := r.1.2 }, r.2)

/-- The post-step function (model_executor.cpp:107-126); the handlers are given the backend's step counter, which `_step` has
already increased. -/
def postStep (L : Layout) (c : Code σ F) (s : State σ P J F) :
    State σ P J F × List (List SpikeMessage × List Nat) × List (List (Message F)) :=
  let o := updateOuts L.outBase L.outputs s.outs s.core.world
  let h := runHandlers c s.core.step 0 L.handlerBase L.handlers o.1 s.user
  let b := runObservers c 0 L.observerBase L.observers h.1.1 h.1.2
  (⟨{ s.core with world := b.1.1 }, o.2, b.1.2⟩, h.2, b.2)

/-- What the program does: one iteration (`p` is what the predicate, which returned `true`, did to the program's state); a
pre-step function whose predicate returned `false`; reading an output channel between runs (the vector's `max_size()` is
`maxSize`). -/
inductive Act (σ : Type) where
  | iterate (p : σ → σ)
  | halt (p : σ → σ)
  | read (chan start final maxSize : Nat)

/-- A backend as the loop of `Backend::start` uses it: its virtual `_step`. -/
abbrev Stepper (P J F : Type) := Learn.State P J F → Outcome (Learn.State P J F × StepOut F)

/-- One iteration of the loop of `Backend::start(pre_step, post_step)` (core-library/impl/backend.cpp:122-133) with the
executor's functions, when the predicate returns `true`. -/
def iterate (step : Stepper P J F) (L : Layout) (c : Code σ F) (p : σ → σ) (s : State σ P J F) :
    Outcome (State σ P J F × Iter F) :=
  let a := preStep L c s
  match step a.1.core with
  | .throw w => .throw w
  | .ub => .ub
  | .ok (core, o) =>
    let b := postStep L c { a.1 with core := core, user := p a.1.user }
    .ok (b.1, ⟨s.core.step, a.2, o, b.2.1, b.2.2⟩)

/-- One action.  A channel number that does not exist is not a call the program can make (`get_output_channel` throws). -/
def act (step : Stepper P J F) (L : Layout) (c : Code σ F) (s : State σ P J F) : Act σ → Outcome (State σ P J F × Item F)
  | .iterate p =>
    match iterate step L c p s with
    | .ok (s1, i) => .ok (s1, .iter i)
    | .throw w => .throw w
    | .ub => .ub
  | .halt p =>
    let a := preStep L c s
    .ok ({ a.1 with user := p a.1.user }, .halt s.core.step a.2)
  | .read n start final maxSize =>
    match s.outs[n]? with
    | none => .throw "Wrong output channel UID."
    | some ch =>
      match ch.readSome maxSize start final with
      | .ok (ch1, got) => .ok ({ s with outs := s.outs.set n ch1 }, .read n start final got)
      | .throw w => .throw w
      | .ub => .ub

/-- Consecutive actions. -/
def run (step : Stepper P J F) (L : Layout) (c : Code σ F) : State σ P J F → List (Act σ) →
    Outcome (State σ P J F × List (Item F))
  | s, [] => .ok (s, [])
  | s, a :: as =>
    match act step L c s a with
    | .throw w => .throw w
    | .ub => .ub
    | .ok (s1, i) =>
      match run step L c s1 as with
      | .ok (s2, is) => .ok (s2, i :: is)
      | .throw w => .throw w
      | .ub => .ub

/-- `ModelExecutor::start(run_predicate)` (model_executor.cpp:92-128); `none` if it has not returned after `fuel` iterations. -/
def start (step : Stepper P J F) (L : Layout) (c : Code σ F) (pred : σ → Nat → Bool × σ) : Nat → State σ P J F →
    Option (Outcome (State σ P J F × List (Item F)))
  | 0, _ => none
  | fuel + 1, s =>
    let a := preStep L c s
    let r := pred a.1.user s.core.step
    if r.1 then
      match step a.1.core with
      | .throw w => some (.throw w)
      | .ub => some .ub
      | .ok (core, o) =>
        let b := postStep L c { a.1 with core := core, user := r.2 }
        match start step L c pred fuel b.1 with
        | none => none
        | some (.ok (s2, is)) => some (.ok (s2, .iter ⟨s.core.step, a.2, o, b.2.1, b.2.2⟩ :: is))
        | some (.throw w) => some (.throw w)
        | some .ub => some .ub
    else some (.ok ({ a.1 with user := r.2 }, [.halt s.core.step a.2]))

/-- The subscriptions of output channels, handlers and observers on their own endpoints (model_loader.cpp:104,
model_executor.cpp:47, 144, model_executor.h:99), from endpoint `e` on. -/
def subscribeAll : Nat → List (MsgKind × UID × List UID) → List (Op F)
  | _, [] => []
  | e, d :: ds => .subscribe e d.1 d.2.1 d.2.2 :: subscribeAll (e + 1) ds

/-- What every listening endpoint subscribes to, in the order of the endpoints. -/
def Layout.listeners (L : Layout) : List (MsgKind × UID × List UID) :=
  L.outputs.map (fun o => (.spike, o.1, o.2)) ++ L.handlers.map (fun h => (.spike, h.uid, h.senders)) ++
    L.observers.map (fun b => (b.kind, b.uid, b.senders))

/-- The receivers a handler is connected to by `backend.subscribe<SpikeMessage>(receiver, {uid})` (model_executor.cpp:145-148). -/
def Layout.handlerInputs (L : Layout) : List (UID × UID) := L.handlers.flatMap (fun h => h.receivers.map (fun r => (r, h.uid)))

/-- The program before its first iteration: backend loaded and initialised, channels created and connected (`inputs`: pairs
projection, channel), handlers and observers added.  `_init` (core-library/impl/backend.cpp:57-73, called by `start`) runs after all
this; the subscriptions on different endpoints do not influence each other. -/
def boot (m : Machine P J F) (L : Layout) (pops : List P) (projs : List J) (inputs : List (UID × UID)) (u : σ) : State σ P J F :=
  let core := Learn.boot m pops projs (inputs ++ L.handlerInputs) L.chans
  ⟨{ core with world := core.world.run (subscribeAll L.outBase L.listeners) }, L.outputs.map (fun _ => ⟨[]⟩), u⟩

/-! ## The backends -/

/-- The backend a program is started with (`backend_loader`, examples' `main.cpp`): the single-threaded one, or the multi-threaded one
with its constants and what its scheduler does in every step. -/
inductive Backend (F : Type) where
  | single
  | multi (config : Config F) (sched : Nat → Learn.Sched)

/-- `_step` of the multi-threaded backend when its scheduler does `sched t` in step `t`.  A list of orders that no scheduler can
produce for the tasks of the step (`stepMulti = none`) is made an error here; the theorems are about runs without errors. -/
def stepThreads (m : Machine P J F) (th : Threads P J F) (sched : Nat → Learn.Sched) : Stepper P J F := fun s =>
  match stepMulti m th s (sched s.step) with
  | none => .throw "not a schedule"
  | some r => r

variable {N B : Type} [Field F] [LinearOrder F]

/-- `_step` of the backend. -/
def Backend.step (o : Stdp.Ops F) : Backend F → Stepper (Pop N B F) (Proj F) F
  | .single => stepSingle (machine o)
  | .multi config sched => stepThreads (machine o) (threads o config) sched

end Knp.Prog
