import Verif.Model.Backend

/-!
# `knp::framework::ModelExecutor`

Models `knp/base-framework/impl/model_executor.cpp:86-128`: the two callbacks it passes to
`Backend::start(pre_step, post_step)`.  What `send`, `update` do to messages is in `Verif.Model.Io`,
`Verif.Model.Handlers`; here every call is an event.
-/

namespace Knp.Exec
open Knp.Run

/-- Calls made by the executor. -/
inductive E where
  /-- `input_channel[i].send(step)` -/
  | input (i : Nat) (step : Nat)
  /-- the user's predicate is called -/
  | pred (step : Nat)
  /-- `output_channel[i].update()` -/
  | output (i : Nat)
  /-- `message_handler[i].update(step)` -/
  | handler (i : Nat) (step : Nat)
  /-- `observer[i].update()` -/
  | observer (i : Nat)
deriving Repr, DecidableEq

/-- Numbers of input channels, output channels, handlers and observers. -/
structure Shape where
  inputs : Nat
  outputs : Nat
  handlers : Nat
  observers : Nat
deriving Repr, DecidableEq

/-- Pre-step callback (model_executor.cpp:97-106).  The user's predicate may look at everything that
happened, throw (`none`) and call `stop()` (second flag). -/
def preStep (sh : Shape) (p : List (Ev E) → Nat → Option (Bool × Bool)) : Cb E := fun tr step =>
  let ins := (List.range sh.inputs).map (fun i => E.input i step)
  match p (tr ++ ins.map .cb) step with
  | some (r, s) => .ret (ins ++ [E.pred step]) r s
  | none => .throw (ins ++ [E.pred step])

/-- Post-step callback (model_executor.cpp:107-126); `get_backend()->get_step()` is the argument, since
`Backend::start` passes `step_`. -/
def postStep (sh : Shape) : Cb E := fun _ step =>
  .ret ((List.range sh.outputs).map E.output ++
      (List.range sh.handlers).map (fun i => E.handler i step) ++
      (List.range sh.observers).map E.observer) true false

/-- `ModelExecutor::start(run_predicate)` (model_executor.cpp:92-128). -/
def start (I : Impl E) (sh : Shape) (p : List (Ev E) → Nat → Option (Bool × Bool)) (fuel : Nat)
    (b : Backend E) : Option (Ended E) :=
  start2 I (preStep sh p) (postStep sh) fuel b

end Knp.Exec
