import Verif.Model.Stdp

/-!
# Specification vocabulary for training

What the English properties C56-C59 and C84-C89 talk about, stated without the model's functions
(only its data types).
-/

namespace Knp.Spec
open Knp Knp.Neurons Knp.Stdp

variable {B F : Type}

/-- `find_synapses(n, by_postsynaptic)` answers correctly: exactly the synapses that end in `n`, each once
(this is what property C01 establishes for the projection itself). -/
def FindOk (p : RProj F) : Prop :=
  ∀ n, (p.find n).Nodup ∧ ∀ k, k ∈ p.find n ↔ ∃ s, p.syns[k]? = some s ∧ s.target = n

/-- Does the projection take part in the training of population `uid`: it ends there and is not locked. -/
def Trains (uid : UID) (p : RProj F) : Prop := p.post = uid ∧ p.locked = false

instance (uid : UID) (p : RProj F) : Decidable (Trains uid p) := by unfold Trains; infer_instance

variable [Field F]

/-- Resource held by the synapses of one projection that end in neuron `i`. -/
def heldBy (p : RProj F) (i : Nat) : F := (p.syns.map (fun s => if s.target = i then s.rule.resource else 0)).sum

/-- Resource held by all trainable synapses that end in neuron `i` of population `uid`. -/
def held (uid : UID) (ps : List (RProj F)) (i : Nat) : F :=
  (ps.map (fun p => if Trains uid p then heldBy p i else 0)).sum

/-- Free resource of neuron `i`. -/
def freeOf (ns : List (Res B F)) (i : Nat) : F :=
  match ns[i]? with
  | some n => n.rule.free
  | none => 0

/-- All resource of neuron `i`: the free pool and its synapses. -/
def total (uid : UID) (st : Stdp.State B F) (i : Nat) : F := freeOf st.neurons i + held uid st.projs i

/-- Number of trainable synapses that end in neuron `i`. -/
def fanIn (uid : UID) (ps : List (RProj F)) (i : Nat) : Nat :=
  (ps.map (fun p => if Trains uid p then (p.syns.filter (fun s => s.target == i)).length else 0)).sum

/-- What training must never change in a synapse. -/
def SameWiring (s s' : RSyn F) : Prop :=
  s'.source = s.source ∧ s'.target = s.target ∧ s'.delay = s.delay ∧ s'.outType = s.outType ∧
  s'.rule.wMin = s.rule.wMin ∧ s'.rule.wMax = s.rule.wMax ∧ s'.rule.dU = s.rule.dU ∧
  s'.rule.period = s.rule.period ∧ s'.rule.lastSpikeStep = s.rule.lastSpikeStep

end Knp.Spec
