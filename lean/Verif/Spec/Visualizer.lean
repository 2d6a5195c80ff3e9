import Verif.Model.Visualizer

/-! # What the visualizer should show -/

namespace Knp.Spec
open Knp Knp.Vis

variable {P J : Type}

/-- Population `i` of the network has this UID. -/
def PopAt (n : Network P J) (i : Nat) (u : UID) : Prop := ∃ p, n.populations[i]? = some p ∧ p.uid = u

/-- A projection leads from population `i` to population `j`. -/
def Leads (n : Network P J) (i j : Nat) : Prop := ∃ p ∈ n.projections, PopAt n i p.pre ∧ PopAt n j p.post

/-- Populations joined by projections, in any direction. -/
inductive Connected (n : Network P J) (i : Nat) : Nat → Prop where
  | refl : Connected n i i
  | fwd {j k : Nat} : Connected n i j → Leads n j k → Connected n i k
  | bwd {j k : Nat} : Connected n i j → Leads n k j → Connected n i k

/-- `ss` are the connected parts of the network: sorted, non-empty, every population is in exactly one of them, and two populations are in the
same one exactly if they are connected. -/
def AreParts (n : Network P J) (ss : List (List Nat)) : Prop :=
  ss.flatten.Perm (List.range n.populations.length) ∧
    ∀ s ∈ ss, s ≠ [] ∧ s.Pairwise (· < ·) ∧ ∀ i ∈ s, ∀ j, j ∈ s ↔ Connected n i j

/-- The UID of the population point `i` of a picture of `nodes` stands for. -/
def uidAt (n : Network P J) (nodes : List Nat) (i : Nat) : Option UID := (nodes[i]?.bind (fun a => n.populations[a]?)).map (·.uid)

/-- The projections from the population of point `i` to that of point `j`. -/
def linksAt (n : Network P J) (nodes : List Nat) (i j : Nat) : List (ProjEntity J) :=
  n.projections.filter (fun p => uidAt n nodes i == some p.pre && uidAt n nodes j == some p.post)

/-- The projections from outside of the network to the population of point `j`. -/
def inputsAt (n : Network P J) (nodes : List Nat) (j : Nat) : List (ProjEntity J) :=
  n.projections.filter (fun p => !(n.populations.map (·.uid)).contains p.pre && uidAt n nodes j == some p.post)

/-- How a projection from point `i` to point `j` is drawn. -/
def link (i j : Nat) : Drawn := if i = j then .loop i else .arrow i j

/-- The lines of a picture are right: one for each projection between the nodes and for each input of them. -/
def LinesRight (n : Network P J) (nodes : List Nat) (d : List Drawn) : Prop :=
  (∀ i j, d.count (link i j) = (linksAt n nodes i j).length) ∧ (∀ j, d.count (.input j) = (inputsAt n nodes j).length)

/-- There is one dot for each node. -/
def DotsRight (nodes : List Nat) (d : List Drawn) : Prop := ∀ i, d.count (.dot i) = if i < nodes.length then 1 else 0

/-- Each dot is labelled with the name of the population it stands for. -/
def LabelsRight (name : P → String) (n : Network P J) (nodes : List Nat) (d : List Drawn) : Prop :=
  ∀ i t, Drawn.text i t ∈ d ↔ (nodes[i]?.bind (fun a => n.populations[a]?)).map (fun p => name p.body) = some t

/-- Points are joined by springs exactly if there is a projection between their populations. -/
def SpringsRight (n : Network P J) (nodes : List Nat) (mat : List (List Bool)) : Prop :=
  ∀ (i j a b : Nat), nodes[i]? = some a → nodes[j]? = some b → ((mat[i]?.bind (·[j]?)) = some true ↔ Leads n a b)

end Knp.Spec
