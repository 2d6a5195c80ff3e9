import Verif.Model.Basic
import Verif.Model.Messages

/-!
# `knp::framework::Network` and `knp::framework::Model`

Models `knp/base-framework/impl/network.cpp`, `knp/base-framework/include/knp/framework/network.h`
and `knp/base-framework/impl/model.cpp`.

A population / projection is kept abstract: its UID, the index of its type in the variant
(`AllPopulationsVariant` / `AllProjectionsVariant`), the two population UIDs for a projection, and an
uninterpreted content (`P`, `J`).  Logging and tags are not modelled.
-/

namespace Knp

/-- One alternative of `AllPopulationsVariant`: `kind` is the index of the neuron type. -/
structure PopEntity (P : Type) where
  uid : UID
  kind : Nat
  body : P
deriving Repr, DecidableEq

/-- One alternative of `AllProjectionsVariant`: `kind` is the index of the synapse type. -/
structure ProjEntity (J : Type) where
  uid : UID
  pre : UID
  post : UID
  kind : Nat
  body : J
deriving Repr, DecidableEq

/-- `Network::populations_`, `Network::projections_` (network.h:504-505). -/
structure Network (P J : Type) where
  populations : List (PopEntity P)
  projections : List (ProjEntity J)
deriving Repr, DecidableEq

/-- `find_variant` / `find_cvariant` (network.cpp:82-101): the first element with this UID. -/
def findVariant {α : Type} (uidOf : α → UID) (u : UID) (l : List α) : Option α :=
  l.find? (fun x => uidOf x == u)

/-- `vector::erase` at the iterator found by `find_variant` (network.cpp:190-197, 304-311). -/
def eraseVariant {α : Type} (uidOf : α → UID) (u : UID) : List α → Option (List α)
  | [] => none
  | x :: l => if uidOf x == u then some l else (eraseVariant uidOf u l).map (x :: ·)

namespace Network
variable {P J : Type}

/-- `is_population_exists` (network.cpp:135-139). -/
def isPopulationExists (n : Network P J) (u : UID) : Bool :=
  (findVariant PopEntity.uid u n.populations).isSome

/-- `is_projection_exists` (network.cpp:245-249). -/
def isProjectionExists (n : Network P J) (u : UID) : Bool :=
  (findVariant ProjEntity.uid u n.projections).isSome

/-- `add_population(AllPopulationsVariant &&)` (network.cpp:104-111): the constraint check is
commented out in the source.  This is also the overload chosen by `add_population(pop)` for a typed
population without explicit template arguments (network.h: the parameter of the template overloads is
a non-deduced context). -/
def addPopulationVariant (n : Network P J) (p : PopEntity P) : Outcome (Network P J) :=
  .ok { n with populations := n.populations ++ [p] }

/-- `add_population<PopulationType>` (network.cpp:114-132) with `check_population_constraints`
(network.cpp:315-325). -/
def addPopulationTyped (n : Network P J) (p : PopEntity P) : Outcome (Network P J) :=
  if n.isPopulationExists p.uid then .throw "already exists" else n.addPopulationVariant p

/-- `get_population` returning the variant (network.cpp:172-184). -/
def getPopulation (n : Network P J) (u : UID) : Outcome (PopEntity P) :=
  match findVariant PopEntity.uid u n.populations with
  | some p => .ok p
  | none => .throw "Cannot find population"

/-- `get_population<NeuronType>` (network.cpp:142-169): `std::get` throws on a type mismatch. -/
def getPopulationTyped (n : Network P J) (kind : Nat) (u : UID) : Outcome (PopEntity P) :=
  match findVariant PopEntity.uid u n.populations with
  | some p => if p.kind = kind then .ok p else .throw "bad_variant_access"
  | none => .throw "Cannot find population"

/-- `remove_population` (network.cpp:187-198). -/
def removePopulation (n : Network P J) (u : UID) : Outcome (Network P J) :=
  match eraseVariant PopEntity.uid u n.populations with
  | some l => .ok { n with populations := l }
  | none => .throw "Cannot remove non-existent population"

/-- `add_projection(AllProjectionsVariant &&)` (network.cpp:201-207), no check. -/
def addProjectionVariant (n : Network P J) (j : ProjEntity J) : Outcome (Network P J) :=
  .ok { n with projections := n.projections ++ [j] }

/-- `add_projection<ProjectionType>` and the generator overload (network.cpp:210-242), with
`check_projection_constraints` (network.cpp:328-348; its two population tests only log). -/
def addProjectionTyped (n : Network P J) (j : ProjEntity J) : Outcome (Network P J) :=
  if n.isProjectionExists j.uid then .throw "already exists" else n.addProjectionVariant j

/-- `get_projection` returning the variant (network.cpp:286-298). -/
def getProjection (n : Network P J) (u : UID) : Outcome (ProjEntity J) :=
  match findVariant ProjEntity.uid u n.projections with
  | some p => .ok p
  | none => .throw "Cannot find projection"

/-- `get_projection<SynapseType>` (network.cpp:252-283). -/
def getProjectionTyped (n : Network P J) (kind : Nat) (u : UID) : Outcome (ProjEntity J) :=
  match findVariant ProjEntity.uid u n.projections with
  | some p => if p.kind = kind then .ok p else .throw "bad_variant_access"
  | none => .throw "Cannot find projection"

/-- `remove_projection` (network.cpp:301-312). -/
def removeProjection (n : Network P J) (u : UID) : Outcome (Network P J) :=
  match eraseVariant ProjEntity.uid u n.projections with
  | some l => .ok { n with projections := l }
  | none => .throw "Cannot remove non-existent projection"

/-- `get_populations_uid` (network.h:478-495). -/
def getPopulationsUid (n : Network P J) (src dst : PopEntity P) : Outcome (UID × UID) :=
  if !n.isPopulationExists src.uid then .throw "Source population doesn't exist"
  else if !n.isPopulationExists dst.uid then .throw "Source population doesn't exist"
  else .ok (src.uid, dst.uid)

/-- `projection::connect_populations` (projection/connectors.h:53-92): a new projection
with a freshly generated UID `fresh`, from `src` to `dst`.  The synapses it contains are the subject of
`Verif.Model.Projection` and `Verif.Model.Generators`; here they are an arbitrary `body`. -/
def makeProjection (fresh : UID) (kind : Nat) (body : J) (src dst : PopEntity P) : ProjEntity J :=
  { uid := fresh, pre := src.uid, post := dst.uid, kind := kind, body := body }

/-- `Network::connect_populations` (network.h:337-380): check both ends, build the projection,
`add_projection(std::move(new_proj))` – the variant overload –, return the new UID. -/
def connectPopulations (n : Network P J) (fresh : UID) (kind : Nat) (body : J)
    (src dst : PopEntity P) : Outcome (Network P J × UID) :=
  match n.getPopulationsUid src dst with
  | .ok _ =>
    match n.addProjectionVariant (makeProjection fresh kind body src dst) with
    | .ok n' => .ok (n', fresh)
    | .throw w => .throw w
    | .ub => .ub
  | .throw w => .throw w
  | .ub => .ub

/-- The mutating public operations of a network. -/
inductive Op (P J : Type) where
  | addPopulationVariant (p : PopEntity P)
  | addPopulationTyped (p : PopEntity P)
  | removePopulation (u : UID)
  | addProjectionVariant (j : ProjEntity J)
  | addProjectionTyped (j : ProjEntity J)
  | removeProjection (u : UID)
  | connect (fresh : UID) (kind : Nat) (body : J) (src dst : PopEntity P)

/-- One call as the caller sees it: the outcome. -/
def call (n : Network P J) : Op P J → Outcome (Network P J)
  | .addPopulationVariant p => n.addPopulationVariant p
  | .addPopulationTyped p => n.addPopulationTyped p
  | .removePopulation u => n.removePopulation u
  | .addProjectionVariant j => n.addProjectionVariant j
  | .addProjectionTyped j => n.addProjectionTyped j
  | .removeProjection u => n.removeProjection u
  | .connect f k b s d => (n.connectPopulations f k b s d) >>= fun r => .ok r.1

/-- The state after the call; all these calls modify the network only as their last action, so a
throwing call leaves it as it was. -/
def exec (n : Network P J) (op : Op P J) : Network P J :=
  match n.call op with
  | .ok n' => n'
  | _ => n

/-- A history of calls on a new network. -/
def run (ops : List (Op P J)) : Network P J := ops.foldl exec { populations := [], projections := [] }

end Network

/-! ## `knp::framework::Model` -/

/-- `Model` (model.h): the network and the two channel multimaps.  An `unordered_multimap` is a list of
pairs; no theorem depends on its order. -/
structure FModel (P J : Type) where
  network : Network P J
  inChannels : List (UID × UID)
  outChannels : List (UID × UID)
deriving Repr, DecidableEq

namespace FModel
variable {P J : Type}

/-- `Model::add_input_channel` (model.cpp:30-37). -/
def addInputChannel (m : FModel P J) (channel projection : UID) : Outcome (FModel P J) :=
  if !m.network.isProjectionExists projection then .throw "Projection doesn't exist"
  else .ok { m with inChannels := (channel, projection) :: m.inChannels }

/-- `Model::add_output_channel` (model.cpp:40-48). -/
def addOutputChannel (m : FModel P J) (channel population : UID) : Outcome (FModel P J) :=
  if !m.network.isPopulationExists population then .throw "Population doesn't exist"
  else .ok { m with outChannels := (channel, population) :: m.outChannels }

/-- Operations of a model: channel registration and, through `get_network()` (model.h:81), any
operation on its network. -/
inductive Op (P J : Type) where
  | addInput (channel projection : UID)
  | addOutput (channel population : UID)
  | net (op : Network.Op P J)

/-- One call. -/
def call (m : FModel P J) : Op P J → Outcome (FModel P J)
  | .addInput c p => m.addInputChannel c p
  | .addOutput c p => m.addOutputChannel c p
  | .net op => (m.network.call op) >>= fun n => .ok { m with network := n }

/-- The state after one call. -/
def exec (m : FModel P J) (op : Op P J) : FModel P J :=
  match m.call op with
  | .ok m' => m'
  | _ => m

/-- A history of calls starting from a model of an arbitrary network (model.h:57). -/
def run (n : Network P J) (ops : List (Op P J)) : FModel P J :=
  ops.foldl exec { network := n, inChannels := [], outChannels := [] }

end FModel
end Knp
