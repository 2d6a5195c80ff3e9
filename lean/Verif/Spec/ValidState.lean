import Verif.Spec.Valid

/-!
# Networks that fit together as long as their neurons stay in safe states

Like `Spec/Valid.lean`, but a neuron need not take an impact in every state: only in the states `I` (plain populations) or
`J` (base part of trained populations), which steps and impacts must not leave.
-/

namespace Knp.Spec
open Knp Knp.Neurons Knp.Learn

variable {A N B F : Type}

/-- In every state of `I` neurons of this kind take impacts of this type and value and stay in `I`. -/
def TakesIn (I : A → Prop) (k : Kind A F) (ty : OutputType) (v : F) : Prop :=
  ∀ (n : A) (i : SynapticImpact F) (forcing : Bool), I n → i.synapseType = ty → i.impactValue = v →
    ∃ n', k.impact n i forcing = .ok n' ∧ I n'

/-- The rest of a step does not leave `I`. -/
def Steady (I : A → Prop) (k : Kind A F) : Prop := (∀ n, I n → I (k.pre n)) ∧ (∀ n, I n → I (k.post n).1)

/-- The neurons of the population are in safe states, and steps and training keep them there. -/
def PopSteady (I : N → Prop) (J : B → Prop) : Learn.Pop N B F → Prop
  | .plain _ k ns => Steady I k ∧ ∀ n ∈ ns, I n
  | .trained _ k b ns => Steady (fun n => J n.base) k ∧ (∀ x a, J x → J (b.setAdditional x a)) ∧ ∀ n ∈ ns, J n.base

/-- The neurons of the population take the impact in all safe states. -/
def PopTakesIn (I : N → Prop) (J : B → Prop) : Learn.Pop N B F → OutputType → F → Prop
  | .plain _ k _ => TakesIn I k
  | .trained _ k _ _ => TakesIn (fun n => J n.base) k

/-- A new network whose parts fit together in safe states. -/
structure ValidNetIn (I : N → Prop) (J : B → Prop) (out : F → F → Prop) (pops : List (Learn.Pop N B F))
    (projs : List (Learn.Proj F)) : Prop where
  popUids : (pops.map Learn.Pop.uid).Nodup
  projUids : (projs.map (fun j => j.ident.uid)).Nodup
  queues : ∀ j ∈ projs, j.queue = []
  sizes : ∀ p ∈ pops, popSize p ≤ 2 ^ 32
  steady : ∀ p ∈ pops, PopSteady I J p
  targets : ∀ j ∈ projs, ∀ p ∈ pops, p.uid = j.ident.post → ∀ s ∈ (wired j.syns).synapses, s.target < popSize p
  types : ∀ j ∈ projs, ∀ p ∈ pops, p.uid = j.ident.post → ∀ s ∈ (wired j.syns).synapses, ∀ v,
    Carries out j.syns s.weight v → PopTakesIn I J p s.outType v

end Knp.Spec
