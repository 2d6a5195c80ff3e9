import Verif.Spec.Learn

/-!
# Networks that fit together

What a user has to check about a network so that running it cannot fail: every synapse ends in a neuron that exists and that
handles the output type of the synapse.
-/

namespace Knp.Spec
open Knp Knp.Neurons Knp.Learn

variable {N B F : Type}

/-- Neurons of this kind, in any state, take impacts of this type and value without error. -/
def Takes (k : Kind N F) (ty : OutputType) (v : F) : Prop :=
  ∀ (n : N) (i : SynapticImpact F) (forcing : Bool), i.synapseType = ty → i.impactValue = v → (k.impact n i forcing).isOk = true

/-- The same for the neurons of a population. -/
def PopTakes : Learn.Pop N B F → OutputType → F → Prop
  | .plain _ k _ => Takes k
  | .trained _ k _ _ => Takes k

/-- Number of neurons. -/
def popSize : Learn.Pop N B F → Nat
  | .plain _ _ ns => ns.length
  | .trained _ _ _ ns => ns.length

/-- The values an impact of a synapse may carry: what `out` says for its weight, or any value if the weight is trained. -/
def Carries (out : F → F → Prop) : Syns F → F → F → Prop
  | .delta _ => out
  | .resource _ _ _ _ => fun _ _ => True
  | .additive _ _ _ _ => fun _ _ => True

/-- A new network whose parts fit together.  Neuron numbers in impacts have 32 bits. -/
structure ValidNet (out : F → F → Prop) (pops : List (Learn.Pop N B F)) (projs : List (Learn.Proj F)) : Prop where
  popUids : (pops.map Learn.Pop.uid).Nodup
  projUids : (projs.map (fun j => j.ident.uid)).Nodup
  queues : ∀ j ∈ projs, j.queue = []
  sizes : ∀ p ∈ pops, popSize p ≤ 2 ^ 32
  targets : ∀ j ∈ projs, ∀ p ∈ pops, p.uid = j.ident.post → ∀ s ∈ (wired j.syns).synapses, s.target < popSize p
  types : ∀ j ∈ projs, ∀ p ∈ pops, p.uid = j.ident.post → ∀ s ∈ (wired j.syns).synapses, ∀ v,
    Carries out j.syns s.weight v → PopTakes p s.outType v

/-- Calls of the rest of the program that send no impacts of their own. -/
def OnlySpikes (env : List (Bus.Op F)) : Prop := ∀ (e : Nat) (m : SynapticImpactMessage F), Bus.Op.send e (.impact m) ∉ env

end Knp.Spec
