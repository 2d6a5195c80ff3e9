import Verif.Model.Messages

/-! Specification vocabulary for spike data files. -/

namespace Knp.Spec
open Knp

/-- All spikes of a step, in message order. -/
def spikesAt (msgs : List SpikeMessage) (s : Nat) : List Nat :=
  (msgs.filter (fun m => decide (m.header.sendTime = s))).flatMap (fun m => m.neuronIndexes)

/-- What loading must return: one message per step that has spikes, steps ascending, the given sender, at each step the given
spikes in order. -/
structure Loaded (uid : UID) (spikes : Nat → List Nat) (r : List SpikeMessage) : Prop where
  ascending : r.Pairwise (fun a b => a.header.sendTime < b.header.sendTime)
  sender : ∀ m ∈ r, m.header.senderUid = uid ∧ m.neuronIndexes ≠ []
  spikes : ∀ s, spikesAt r s = spikes s

end Knp.Spec
