import Verif.Model.Projection

/-! Specification vocabulary for connection generators. -/

namespace Knp.Spec

variable {P : Type}

/-- The (source, target) pairs of a list of synapses, with repetitions. -/
def ends (l : List (Synapse P)) : List (Nat × Nat) := l.map (fun s => (s.src, s.dst))

/-- The list connects each pair in `S` by exactly one synapse and no other pair. -/
def ConnectsExactly (l : List (Synapse P)) (S : Nat → Nat → Prop) : Prop :=
  ∀ i j : Nat, (S i j → (ends l).count (i, j) = 1) ∧ (¬ S i j → (ends l).count (i, j) = 0)

/-- All synapses start in a population of `n` neurons and end in one of `m` neurons. -/
def Valid (n m : Nat) (l : List (Synapse P)) : Prop := ∀ s ∈ l, s.src < n ∧ s.dst < m

end Knp.Spec
