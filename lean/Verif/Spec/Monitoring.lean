import Verif.Model.Monitoring

/-! Specification vocabulary for the loggers. -/

namespace Knp.Spec
open Knp Knp.Mon

variable {N : Type} [DecidableEq N]

/-- Spikes a call brings from senders with name `n`. -/
def callSpikes (names : List (UID × N)) (n : N) (c : Call) : Nat :=
  ((c.msgs.filter (fun m => names.lookup m.header.senderUid == some n)).map (fun m => m.neuronIndexes.length)).sum

/-- No line is written by the calls strictly between call `j` and call `i`. -/
def noRowBetween (period : Nat) (calls : List Call) (j i : Nat) : Bool :=
  (List.range i).all (fun k => decide (k ≤ j) || match calls[k]? with | some c => decide (c.step % period ≠ 0) | none => true)

/-- The calls whose spikes belong to the line written by call `i`: all earlier ones since the previous line. -/
def windowCalls (period : Nat) (calls : List Call) (i : Nat) : List Call :=
  (List.range i).filterMap (fun j => if noRowBetween period calls j i then calls[j]? else none)

/-- Spikes of `n` in the window of call `i`. -/
def windowSpikes (names : List (UID × N)) (period : Nat) (calls : List Call) (i : Nat) (n : N) : Nat :=
  ((windowCalls period calls i).map (callSpikes names n)).sum

/-- The lines an aggregated log with columns `cols` must have. -/
def expectedRows (names : List (UID × N)) (period : Nat) (calls : List Call) (cols : List N) : List Row :=
  (List.range calls.length).filterMap (fun i => match calls[i]? with
    | some c => if c.step % period = 0 then some ⟨c.step, cols.map (windowSpikes names period calls i)⟩ else none
    | none => none)

/-- Spikes of `n` in the whole history. -/
def totalSpikes (names : List (UID × N)) (calls : List Call) (n : N) : Nat := (calls.map (callSpikes names n)).sum

end Knp.Spec
