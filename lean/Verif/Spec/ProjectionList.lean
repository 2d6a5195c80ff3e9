import Verif.Model.Projection

/-!
# A projection is a list of synapses and a lock

What a user of a projection thinks of: the synapses in order, and whether the weights are locked.  Nothing of the index.
-/

namespace Knp.Spec.ProjList
open Knp Knp.Projection

variable {P : Type}

/-- The synapses and the lock. -/
abbrev St (P : Type) := List (Synapse P) × Bool

/-- One call: the new state and the number returned, if the call returns a number; `none` if the call is not allowed. -/
def call (st : St P) : Op P → Option (St P × Option Nat)
  | .find _ _ => some (st, none)
  | .add gen k => some ((st.1 ++ (List.range k).filterMap gen, st.2), some ((List.range k).filterMap gen).length)
  | .clear => some (([], st.2), none)
  | .removeSynapse i => if i < st.1.length then some ((st.1.take i ++ st.1.drop (i + 1), st.2), none) else none
  | .removeIf f => some ((st.1.filter (fun s => !f s), st.2), some (st.1.countP f))
  | .removePre n => some ((st.1.filter (fun s => s.src ≠ n), st.2), some (st.1.countP (fun s => s.src = n)))
  | .removePost n => some ((st.1.filter (fun s => s.dst ≠ n), st.2), some (st.1.countP (fun s => s.dst = n)))
  | .setSynapse i s => if i < st.1.length then some ((st.1.take i ++ s :: st.1.drop (i + 1), st.2), none) else none
  | .setParams i q => (st.1[i]?).map (fun s => ((st.1.take i ++ { s with params := q } :: st.1.drop (i + 1), st.2), none))
  | .lock => some ((st.1, true), none)
  | .unlock => some ((st.1, false), none)

/-- A history of calls. -/
def calls (st : St P) : List (Op P) → Option (St P × List (Option Nat))
  | [] => some (st, [])
  | o :: os => (call st o).bind (fun r => (calls r.1 os).map (fun q => (q.1, r.2 :: q.2)))

/-- The number a call returned. -/
def number : Out → Option Nat
  | .count n => some n
  | _ => none

/-- The last word on the lock in a history. -/
def lastLock (old : Bool) (ops : List (Op P)) : Bool :=
  ops.foldl (fun b o => match o with | .lock => true | .unlock => false | _ => b) old

end Knp.Spec.ProjList
