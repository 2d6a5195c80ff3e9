import Verif.Model.Basic

/-!
# `knp::core::Population`

Models `knp/core-library/include/knp/core/population.h` (container operations only; the neuron
arithmetic is in `Verif.Model.Neurons`).
-/

namespace Knp

/-- `Population::neurons_` (population.h:284) for neurons with parameters `N`. -/
structure Population (N : Type) where
  neurons : List N
deriving Repr, DecidableEq

namespace Population
variable {N : Type}

/-- The loop of `add_neurons` (population.h:190-201). -/
def addLoop (gen : Nat → Option N) : Nat → Nat → List N → List N
  | 0, _, acc => acc
  | n + 1, i, acc =>
    match gen i with
    | some x => addLoop gen n (i + 1) (acc ++ [x])
    | none => addLoop gen n (i + 1) acc

/-- `add_neurons` (population.h:187-202). -/
def addNeurons (p : Population N) (gen : Nat → Option N) (count : Nat) : Population N :=
  { neurons := addLoop gen count 0 p.neurons }

/-- Constructors (population.cpp:30-48). -/
def mk' (gen : Nat → Option N) (count : Nat) : Population N :=
  addNeurons { neurons := [] } gen count

/-- `remove_neuron` (population.h:223-228); erasing outside the vector is UB. -/
def removeNeuron (p : Population N) (i : Nat) : Outcome (Population N) :=
  if i < p.neurons.length then .ok { neurons := p.neurons.eraseIdx i } else .ub

/-- The loop of `remove_neurons` (population.h:209-216): the `k`-th listed index is shifted down by
`k`.  A difference that would wrap below zero gives a position near 2^64, hence UB. -/
def removeLoop : List Nat → Nat → Population N → Outcome (Population N)
  | [], _, p => .ok p
  | i :: is, shift, p =>
    if shift ≤ i then
      match p.removeNeuron (i - shift) with
      | .ok p' => removeLoop is (shift + 1) p'
      | .throw w => .throw w
      | .ub => .ub
    else .ub

/-- `remove_neurons` (population.h:209-216). -/
def removeNeurons (p : Population N) (ids : List Nat) : Outcome (Population N) := removeLoop ids 0 p

/-- `get_neuron_parameters` (population.h:139). -/
def get (p : Population N) (i : Nat) : Outcome N :=
  match p.neurons[i]? with
  | some x => .ok x
  | none => .ub

/-- `set_neuron_parameters` (population.h:147). -/
def set (p : Population N) (i : Nat) (x : N) : Outcome (Population N) :=
  if i < p.neurons.length then .ok { neurons := p.neurons.set i x } else .ub

end Population
end Knp
