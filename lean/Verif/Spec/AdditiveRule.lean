import Verif.Model.Stdp

/-!
# The additive STDP rule of one synapse

What the steps of an additive-STDP projection do to one of its synapses, without the projection: which spikes it records, how many, when its weight changes and by
how much.
-/

namespace Knp.Spec.Additive
open Knp Knp.Stdp

/-- The send times of the spikes of neuron `n` of the populations registered in one of the modes `modes`, in the order of the messages. -/
def heard (reg : List (UID × Processing)) (modes : List Processing) (n : Nat) (ms : List SpikeMessage) : List Nat :=
  ms.flatMap (fun m => match reg.lookup m.header.senderUid with
    | some mode => if mode ∈ modes then List.replicate (m.neuronIndexes.count n) m.header.sendTime else []
    | none => [])

/-- A history with room for `cap` times: what does not fit is lost. -/
def recorded (cap : Nat) (old new : List Nat) : List Nat := old ++ new.take (cap - old.length)

variable {F : Type} [Field F] [LinearOrder F]

/-- What a pair of spikes is worth. -/
def pair (o : Ops F) (tauPlus tauMinus : F) (pre post : Nat) : F :=
  if subU64 post pre = 0 then o.exp (divF o 0 tauMinus) else o.exp (divF o (-((subU64 post pre : Nat) : F)) tauPlus)

/-- One step of a synapse: the spikes are recorded; if then both histories are full, the weight grows by the worth of all pairs and both are emptied.
`cap` is the number of times a history has room for. -/
def step (o : Ops F) (reg : List (UID × Processing)) (cap : Nat) (s : ASyn F) (ms : List SpikeMessage) : ASyn F :=
  let pre := recorded cap s.preTimes (heard reg [.stdpAndSpike] s.target ms)
  let post := recorded cap s.postTimes (heard reg [.stdpAndSpike, .stdpOnly] s.target ms)
  if cap ≤ pre.length ∧ cap ≤ post.length then
    { s with
      weight := s.weight + (pre.map (fun a => (post.map (fun b => pair o s.tauPlus s.tauMinus a b)).sum)).sum
      preTimes := []
      postTimes := [] }
  else { s with preTimes := pre, postTimes := post }

/-- `cap` is the first number that is not below `tau_plus + tau_minus`. -/
def Room (s : ASyn F) (cap : Nat) : Prop := ∀ c : Nat, (c : F) < s.tauPlus + s.tauMinus ↔ c < cap

end Knp.Spec.Additive
