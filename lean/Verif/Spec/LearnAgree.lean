import Verif.Spec.LearnMulti
import Verif.Props.SystemMulti

/-!
# Notions for comparing runs of learning networks

Messages that differ only in their order inside are compared as in C107 (`SameStep`).
-/

namespace Knp.Spec
open Knp Knp.Sys Knp.Learn Knp.Props

variable {N B F : Type}

/-- A population whose neurons do not care about the order of impacts (C107_kinds_commute), of a size the loops over its parts can
count (C46). -/
def OrderFree : Learn.Pop N B F → Prop
  | .plain _ k ns => Commutes k ∧ ns.length ≤ 2 ^ 63
  | .trained _ k _ ns => Commutes k ∧ ns.length ≤ 2 ^ 63

/-- Everything a projection is, but the impacts that wait in its queue: name, ends, lock and synapses with their weights and
resources. -/
def learned (j : Learn.Proj F) : Delta.Ident × Bool × Syns F := (j.ident, j.locked, j.syns)

/-- No impact given to a population in this step blocks a neuron. -/
def NoBlocking (o : StepOut F) : Prop := ∀ g ∈ o.given, ∀ m ∈ g.2, ∀ i ∈ m.impacts, i.synapseType ≠ .blocking

end Knp.Spec
