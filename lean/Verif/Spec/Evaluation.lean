import Verif.Model.Evaluation

/-! Specification vocabulary for the evaluation of classification runs. -/

namespace Knp.Spec
open Knp Knp.Eval

/-- Votes for class `c` during frame `f`: all spikes sent in its steps by neurons assigned to the class. -/
def frameVotes (classes spf : Nat) (msgs : List SpikeMessage) (f c : Nat) : Nat :=
  ((msgs.filter (fun m => decide (m.header.sendTime / spf = f))).flatMap (fun m => m.neuronIndexes)).countP
    (fun i => i % classes == c)

/-- `p` is the first class with the most votes (class 0 with 0 votes if nobody voted). -/
def IsWinner (classes : Nat) (v : Nat → Nat) (p : Prediction) : Prop :=
  (∀ c, c < classes → v c ≤ p.votes) ∧
  ((p.votes = 0 ∧ p.cls = 0) ∨ (0 < p.votes ∧ p.cls < classes ∧ v p.cls = p.votes ∧ ∀ c, c < p.cls → v c < p.votes))

/-- A frame with its prediction and true label. -/
abbrev Judged := Prediction × Nat

/-- The frame was recognised as class `c`. -/
def recognised (c : Nat) (x : Judged) : Bool := decide (0 < x.1.votes ∧ x.1.cls = c)

end Knp.Spec
