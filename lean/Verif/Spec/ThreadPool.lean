import Verif.Model.ThreadPool

/-! # Specification vocabulary for the thread pool -/

namespace Knp.Spec.Pool
open Knp.Pool

/-- The tasks posted in a history, in order of posting. -/
def posted : List Event → List Task
  | [] => []
  | .post t _ :: es => t :: posted es
  | _ :: es => posted es

/-- The tasks of one executor. -/
def ofExec (e : Nat) (l : List Task) : List Task := l.filter (fun t => t.exec = e)

/-- The tasks being executed right now. -/
def running : List Thr → List Task
  | [] => []
  | ⟨_, .running t⟩ :: l => t :: running l
  | _ :: l => running l

/-- `stop` (which only the destructor of the context calls) comes when every executor has been joined: this is the
documented lifetime rule, "Context lifetime should exceed lifetimes of its executors". -/
def StopsOk : State → List Event → Prop
  | _, [] => True
  | s, ev :: es => (ev = .stop → ∀ e, s.count e = 0) ∧ ∀ s', step s ev = some s' → StopsOk s' es

/-- Proper use: one executor (the `ThreadPool` class), or any number and the lifetime rule. -/
def Proper (n : Nat) (es : List Event) : Prop := (∀ t ∈ posted es, t.exec = 0) ∨ StopsOk (init n) es

/-- Events that are the pool's own progress: a woken thread takes the lock, a task ends. -/
def Own : Event → Prop
  | .enter _ => True
  | .finish _ _ => True
  | _ => False

/-- Nobody can do anything any more without outside help. -/
def Quiescent (s : State) : Prop := ∀ ev, Own ev → step s ev = none

end Knp.Spec.Pool
