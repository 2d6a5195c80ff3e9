import Verif.Model.Network
import Mathlib.Algebra.Order.Field.Basic

/-!
# `knp::framework::normalization`

Models `knp/base-framework/include/knp/framework/normalization/*.h`.
Values are elements of a field; rounding of `float`/`double` is ignored.  (For integer `ValueType` the division in the
constructor truncates; integers are not covered.)
-/

namespace Knp.Norm
open Knp

/-- `Rescaler` (normalizers.h:47-87): the five members. -/
structure Rescaler (K : Type) where
  inStart : K
  inEnd : K
  outStart : K
  outEnd : K
  ratio : K

/-- Constructor (normalizers.h:58-67). -/
def Rescaler.make {K : Type} [Field K] (inStart inEnd outStart outEnd : K) : Rescaler K :=
  ⟨inStart, inEnd, outStart, outEnd, (outEnd - outStart) / (inEnd - inStart)⟩

/-- `operator()` (normalizers.h:76-79). -/
def Rescaler.apply {K : Type} [Field K] (r : Rescaler K) (v : K) : K := r.outStart + (v - r.inStart) * r.ratio

/-- A getter/setter pair (`PotentialAccessor`, neuron_accessors.h:41-71; `WeightAccessor`, synapse_accessors.h:41-68): both
are one member of the parameters structure. -/
structure Accessor (A V : Type) where
  get : A → V
  set : A → V → A

/-- `normalize_neurons` on one population (neuron_normalizer.h:52-64): loop over neurons. -/
def normalizeNeurons {A V : Type} (acc : Accessor A V) (f : V → V) (neurons : List A) : List A :=
  neurons.map (fun n => acc.set n (f (acc.get n)))

/-- A synapse: parameters, source, target. -/
structure Syn (A : Type) where
  data : A
  source : Nat
  target : Nat
deriving Repr, DecidableEq

/-- `normalize_synapses` on one projection (synapse_normalizer.h:54-67). -/
def normalizeSynapses {A V : Type} (acc : Accessor A V) (f : V → V) (syns : List (Syn A)) : List (Syn A) :=
  syns.map (fun s => { s with data := acc.set s.data (f (acc.get s.data)) })

/-- `normalize_neurons` on a network, in place or on a copy (neuron_normalizer.h:77-119): loop over populations. -/
def networkNeurons {A B V : Type} (acc : Accessor A V) (f : V → V) (n : Network (List A) (List (Syn B))) :
    Network (List A) (List (Syn B)) :=
  { n with populations := n.populations.map (fun p => { p with body := normalizeNeurons acc f p.body }) }

/-- `normalize_synapses` on a network (synapse_normalizer.h:80-122): loop over projections. -/
def networkSynapses {A B V : Type} (acc : Accessor B V) (f : V → V) (n : Network (List A) (List (Syn B))) :
    Network (List A) (List (Syn B)) :=
  { n with projections := n.projections.map (fun p => { p with body := normalizeSynapses acc f p.body }) }

end Knp.Norm
