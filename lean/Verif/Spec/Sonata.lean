import Verif.Model.Sonata
import Mathlib.Data.List.Forall2

/-!
# Specification of C75: what survives saving and loading
-/

namespace Knp.Spec
open Knp.Sonata

/-- The members of a neuron's parameters that saving and loading loses. -/
def lostFields : NType → List String
  | .lif => ["potential_reset_value_"]
  | .altai => ["pre_impact_potential_", "dopamine_value_", "additional_threshold_", "activity_time_"]
  | .blifat => ["additional_threshold_", "stochastic_stimulation_", "random_number_generator_state_"]
  | .resBlifat => ["synapse_sum_threshold_coefficient_", "stochastic_stimulation_", "random_number_generator_state_"]
  | .resAltai => ["potential_", "pre_impact_potential_", "activity_time_", "synapse_sum_threshold_coefficient_"]

/-- The loaded neuron `y` has every declared member of `x`, except that lost members have the default value. -/
def SameNeuron {V : Type} (t : NType) (dflt x y : Params V) : Prop :=
  ∀ f ∈ t.fields, (f ∉ lostFields t → y f = x f) ∧ (f ∈ lostFields t → y f = dflt f)

/-- The loaded population `q` is `p` up to lost members. -/
structure SamePop {V : Type} (dn : NType → Params V) (p q : Pop V) : Prop where
  uid : q.uid = p.uid
  type : q.type = p.type
  neurons : List.Forall₂ (SameNeuron p.type (dn p.type)) p.neurons q.neurons

/-- The loaded synapse has the same ends and every declared member. -/
structure SameSyn {V : Type} (t : SType) (s r : Syn V) : Prop where
  source : r.source = s.source
  target : r.target = s.target
  data : ∀ f ∈ t.fields, r.data f = s.data f

/-- The loaded projection `q` is `p`. -/
structure SameProj {V : Type} (p q : Proj V) : Prop where
  uid : q.uid = p.uid
  pre : q.pre = p.pre
  post : q.post = p.post
  type : q.type = p.type
  locked : q.locked = p.locked
  synapses : List.Forall₂ (SameSyn p.type) p.synapses q.synapses

/-- The networks for which saving and loading both succeed. -/
structure Savable {V : Type} (n : Net V) : Prop where
  hasPopulation : n.populations ≠ []
  hasProjection : n.projections ≠ []
  neurons : ∀ p ∈ n.populations, p.neurons ≠ []
  synapses : ∀ p ∈ n.projections, p.synapses ≠ []
  supported : ∀ p ∈ n.projections, p.type ≠ .additive
  popUids : (n.populations.map (fun p => p.uid)).Nodup
  projUids : (n.projections.map (fun p => p.uid)).Nodup

end Knp.Spec
