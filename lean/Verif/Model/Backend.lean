import Verif.Model.Basic
import Verif.Model.Messages

/-!
# `knp::core::Backend`: life cycle, run loop, device selection

Models `knp/core-library/impl/backend.cpp` and `knp/core-library/include/knp/core/backend.h`.

Everything a callback (`RunPredicate`) or the virtual `_step`/`_init` may do is an arbitrary function of
the trace of events so far – so stateful, even adversarial, callbacks are covered.  The flag `stop` in a
result says that `stop()` was called while the callback/step ran (from inside it or by another
thread).  A loop that never ends is the result `none` for every amount of fuel.
Not modelled: two threads inside `start()` at the same time; overflow of the 64-bit step counter.
-/

namespace Knp.Run

/-- Observable events: initialisation, a computed step (with its number), and anything a callback
does. -/
inductive Ev (E : Type) where
  | init
  | step (n : Nat)
  | cb (e : E)
deriving Repr, DecidableEq

/-- Result of a predicate callback: its own events, the value returned, whether `stop()` was called. -/
inductive CbRes (E : Type) where
  | ret (evs : List E) (result : Bool) (stop : Bool)
  | throw (evs : List E)
deriving Repr

/-- Result of the virtual `_step` / `_init`. -/
inductive StepRes where
  | ok (stop : Bool)
  | throw
deriving Repr, DecidableEq

/-- A `RunPredicate`: depends on everything that happened and on the step number. -/
abbrev Cb (E : Type) := List (Ev E) → Nat → CbRes E

/-- The virtual functions of the concrete backend. -/
structure Impl (E : Type) where
  init : List (Ev E) → StepRes
  step : List (Ev E) → Nat → StepRes

/-- `initialized_`, `started_`, `step_` (backend.h:451-456) and the trace of events. -/
structure Backend (E : Type) where
  initialized : Bool
  started : Bool
  step : Nat
  trace : List (Ev E)
deriving Repr, DecidableEq

/-- A newly constructed backend (backend.h:451-456). -/
def new {E : Type} : Backend E := ⟨false, false, 0, []⟩

/-- How a call ended. -/
inductive Ended (E : Type) where
  | returned (b : Backend E)
  | threw (b : Backend E)
deriving Repr, DecidableEq

variable {E : Type}

/-- The state left behind. -/
def Ended.state : Ended E → Backend E
  | .returned b => b
  | .threw b => b

/-- `stop()` (backend.cpp:144-153). -/
def stop (b : Backend E) : Backend E := if !b.started then b else { b with started := false }

/-- Effect of a concurrent or nested `stop()`. -/
def stopIf (s : Bool) (b : Backend E) : Backend E := if s then stop b else b

/-- `_uninit()` (backend.cpp:156-164). -/
def uninit (b : Backend E) : Backend E :=
  if !b.initialized then b else { stop b with initialized := false }

/-- `pre_start()` (backend.cpp:57-73). -/
def preStart (I : Impl E) (b : Backend E) : Ended E :=
  if b.started then .returned b
  else if !b.initialized then
    match I.init b.trace with
    | .ok _ => .returned { b with initialized := true, trace := b.trace ++ [.init], started := true }
    | .throw => .threw b
  else .returned { b with started := true }

/-- `_step()` of a backend: compute, then `gad_step()` (backend.h:444, CPU backends' `_step`). -/
def doStep (I : Impl E) (b : Backend E) : Ended E :=
  match I.step b.trace b.step with
  | .ok s => .returned (stopIf s { b with step := b.step + 1, trace := b.trace ++ [.step b.step] })
  | .throw => .threw b

/-- The `catch (...)` of all variants: `started_ = false; throw;`. -/
def fail (b : Backend E) : Ended E := .threw { b with started := false }

/-- Loop of `start()` (backend.cpp:82-85). -/
def loop0 (I : Impl E) : Nat → Backend E → Option (Ended E)
  | 0, _ => none
  | fuel + 1, b =>
    if b.started then
      match doStep I b with
      | .returned b' => loop0 I fuel b'
      | .threw b' => some (fail b')
    else some (.returned b)

/-- Calling a callback with the current step. -/
def callCb (c : Cb E) (b : Backend E) : Ended E × Bool :=
  match c b.trace b.step with
  | .ret evs r s => (.returned (stopIf s { b with trace := b.trace ++ evs.map .cb }), r)
  | .throw evs => (.threw { b with trace := b.trace ++ evs.map .cb }, false)

/-- Loop of `start(run_predicate)` (backend.cpp:102-105). -/
def loop1 (I : Impl E) (p : Cb E) : Nat → Backend E → Option (Ended E)
  | 0, _ => none
  | fuel + 1, b =>
    if b.started then
      match callCb p b with
      | (.returned b', r) =>
        if r then
          match doStep I b' with
          | .returned b'' => loop1 I p fuel b''
          | .threw b'' => some (fail b'')
        else some (.returned b')
      | (.threw b', _) => some (fail b')
    else some (.returned b)

/-- Loop of `start(pre_step, post_step)` (backend.cpp:122-133); both callbacks given. -/
def loop2 (I : Impl E) (pre post : Cb E) : Nat → Backend E → Option (Ended E)
  | 0, _ => none
  | fuel + 1, b =>
    if b.started then
      match callCb pre b with
      | (.returned b', r) =>
        if r then
          match doStep I b' with
          | .returned b'' =>
            match callCb post b'' with
            | (.returned b''', r') => if r' then loop2 I pre post fuel b''' else some (.returned b''')
            | (.threw b''', _) => some (fail b''')
          | .threw b'' => some (fail b'')
        else some (.returned b')
      | (.threw b', _) => some (fail b')
    else some (.returned b)

/-- `start()` (backend.cpp:76-93). -/
def start0 (I : Impl E) (fuel : Nat) (b : Backend E) : Option (Ended E) :=
  match preStart I b with
  | .returned b' => loop0 I fuel b'
  | .threw b' => some (.threw b')

/-- `start(run_predicate)` (backend.cpp:96-113). -/
def start1 (I : Impl E) (p : Cb E) (fuel : Nat) (b : Backend E) : Option (Ended E) :=
  match preStart I b with
  | .returned b' => loop1 I p fuel b'
  | .threw b' => some (.threw b')

/-- `start(pre_step, post_step)` (backend.cpp:116-141). -/
def start2 (I : Impl E) (pre post : Cb E) (fuel : Nat) (b : Backend E) : Option (Ended E) :=
  match preStart I b with
  | .returned b' => loop2 I pre post fuel b'
  | .threw b' => some (.threw b')

/-- Calls a user can make. -/
inductive Op (E : Type) where
  | start (fuel : Nat)
  | startPred (p : Cb E) (fuel : Nat)
  | startPrePost (pre post : Cb E) (fuel : Nat)
  | stop
  | uninit
  /-- a direct call of the public `_step()` -/
  | rawStep

/-- The state after a call; `none` if a `start` did not end within its fuel. -/
def exec (I : Impl E) (b : Backend E) : Op E → Option (Backend E)
  | .start fuel => (start0 I fuel b).map Ended.state
  | .startPred p fuel => (start1 I p fuel b).map Ended.state
  | .startPrePost p q fuel => (start2 I p q fuel b).map Ended.state
  | .stop => some (stop b)
  | .uninit => some (uninit b)
  | .rawStep => some (doStep I b).state

/-- A history of calls on a new backend, each of which ended. -/
def run (I : Impl E) : Backend E → List (Op E) → Option (Backend E)
  | b, [] => some b
  | b, op :: ops =>
    match exec I b op with
    | some b' => run I b' ops
    | none => none

/-! ## Devices -/

/-- `select_devices(uids)` (backend.cpp:167-185): `available` is `get_devices()`, the result is the new
`devices_` or an exception (with `devices_` unchanged).  `uids` is a `std::set`: its size is
`uids.length` for a duplicate-free list. -/
def selectDevices (available : List UID) (devices : List UID) (uids : List UID) :
    Outcome (List UID) :=
  match available.find? (fun d => uids.contains d) with
  | some d => .ok (devices ++ [d])
  | none => if uids.length ≠ devices.length then .throw "Not all devices were selected." else .ok devices

/-- `select_device(device)` (backend.cpp:187-192). -/
def selectDevice (_devices : List UID) (d : UID) : List UID := [d]

end Knp.Run
