import Verif.Model.Messages
import Verif.Model.Projection
import Verif.Model.Population

/-!
# Synapse and neuron generators

`knp/base-framework/include/knp/framework/projection/{synapse_generators,creators,connectors}.h` and
`knp/base-framework/include/knp/framework/population/{creators,neuron_parameters_generators}.h`.

A generator is called by the constructor of `Projection` with 0, 1, 2, ... in this order, once each. Generators with
state (random numbers, a map iterator) are functions of the number of the call: `draw k` is the random number of call
`k`, the map is the list of its entries in iteration order. Division by zero is undefined behaviour.
-/

namespace Knp.Gen

/-- A generator: what the call with the given index does. -/
abbrev SynGen (P : Type) := Nat → Outcome (Option (Synapse P))

/-- What the creators return: ends and synapses of the projection. -/
structure Created (P : Type) where
  pre : UID
  post : UID
  synapses : List (Synapse P)
deriving DecidableEq, Repr

variable {P R : Type}

/-- The loop of the generating constructor (projection.cpp:136-142), for generators that can fail. -/
def loop (gen : SynGen P) : Nat → Nat → List (Synapse P) → Outcome (List (Synapse P))
  | 0, _, acc => .ok acc
  | n + 1, i, acc =>
    match gen i with
    | .ok (some s) => loop gen n (i + 1) (acc ++ [s])
    | .ok none => loop gen n (i + 1) acc
    | .throw w => .throw w
    | .ub => .ub

/-- `Projection(presynaptic_uid, postsynaptic_uid, generator, num_iterations)` (projection.cpp:127-145). -/
def construct (pre post : UID) (gen : SynGen P) (n : Nat) : Outcome (Created P) :=
  match loop gen n 0 [] with
  | .ok l => .ok ⟨pre, post, l⟩
  | .throw w => .throw w
  | .ub => .ub

/-- `a * b` in `size_t`. -/
def mulU64 (a b : Nat) : Nat := a * b % two64

/-- `synapse_generators::all_to_all` (synapse_generators.h:59-72). -/
def allToAllGen (n : Nat) (par : Nat → Nat → P) : SynGen P := fun i =>
  if n = 0 then .ub else .ok (some ⟨par (i % n) (i / n), i % n, i / n⟩)

/-- `creators::all_to_all` (creators.h:62-72). -/
def allToAll (pre post : UID) (n m : Nat) (par : Nat → Nat → P) : Outcome (Created P) :=
  construct pre post (allToAllGen n par) (mulU64 n m)

/-- `connect_populations` without generator (connectors.h:54-60). -/
def connectPopulations (src dst : UID) (srcSize dstSize : Nat) (par : Nat → Nat → P) : Outcome (Created P) :=
  allToAll src dst srcSize dstSize par

/-- `synapse_generators::aligned` (synapse_generators.h:94-120). -/
def alignedGen (n m : Nat) (par : Nat → Nat → P) : SynGen P := fun i =>
  if n ≥ m then
    if m = 0 then .ub
    else if n / m = 0 then .ub
    else .ok (some ⟨par i (i / (n / m)), i, i / (n / m)⟩)
  else
    if n = 0 then .ub
    else if m / n = 0 then .ub
    else .ok (some ⟨par (i / (m / n)) i, i / (m / n), i⟩)

/-- `creators::aligned` (creators.h:96-106). -/
def aligned (pre post : UID) (n m : Nat) (par : Nat → Nat → P) : Outcome (Created P) :=
  construct pre post (alignedGen n m par) (max n m)

/-- The target of `exclusive` (synapse_generators.h:149-151). -/
def exclTarget (n i : Nat) : Nat :=
  if i % subU64 n 1 ≥ i / subU64 n 1 then i % subU64 n 1 + 1 else i % subU64 n 1

/-- `synapse_generators::exclusive` (synapse_generators.h:140-154). -/
def exclusiveGen (n : Nat) (par : Nat → Nat → P) : SynGen P := fun i =>
  if subU64 n 1 = 0 then .ub
  else .ok (some ⟨par (i / subU64 n 1) (exclTarget n i), i / subU64 n 1, exclTarget n i⟩)

/-- `creators::exclusive` (creators.h:130-138). -/
def exclusive (pre post : UID) (n : Nat) (par : Nat → Nat → P) : Outcome (Created P) :=
  construct pre post (exclusiveGen n par) (mulU64 n (subU64 n 1))

/-- `synapse_generators::one_to_one` (synapse_generators.h:173-179). -/
def oneToOneGen (par : Nat → P) : SynGen P := fun i => .ok (some ⟨par i, i, i⟩)

/-- `creators::one_to_one` (creators.h:159-167). -/
def oneToOne (pre post : UID) (n : Nat) (par : Nat → P) : Outcome (Created P) :=
  construct pre post (oneToOneGen par) n

/-- `synapse_generators::from_container` (synapse_generators.h:197-202); reading past the end is undefined. -/
def fromContainerGen (c : List (Synapse P)) : SynGen P := fun i =>
  match c[i]? with
  | some s => .ok (some s)
  | none => .ub

/-- `creators::from_container` (creators.h:187-194). -/
def fromContainer (pre post : UID) (c : List (Synapse P)) : Outcome (Created P) :=
  construct pre post (fromContainerGen c) c.length

/-- `FromMap::operator()` (synapse_generators.h:238-244): entry of the iterator, which has been advanced once per earlier
call; dereferencing `end()` is undefined. -/
def fromMapGen (m : List ((Nat × Nat) × P)) : SynGen P := fun i =>
  match m[i]? with
  | some e => .ok (some ⟨e.2, e.1.1, e.1.2⟩)
  | none => .ub

/-- `creators::from_map` (creators.h:212-220). -/
def fromMap (pre post : UID) (m : List ((Nat × Nat) × P)) : Outcome (Created P) :=
  construct pre post (fromMapGen m) m.length

/-- `index_based` (synapse_generators.h:325-339). -/
def indexBasedGen (n : Nat) (par : Nat → Nat → Option P) : SynGen P := fun i =>
  if n = 0 then .ub
  else match par (i % n) (i / n) with
    | some p => .ok (some ⟨p, i % n, i / n⟩)
    | none => .ok none

/-- `creators::index_based` (creators.h:279-288). -/
def indexBased (pre post : UID) (n m : Nat) (par : Nat → Nat → Option P) : Outcome (Created P) :=
  construct pre post (indexBasedGen n par) (mulU64 n m)

/-- `FixedProbability::operator()` (synapse_generators.h:293-300); `draw i` is the random number in `[0, 1)` of call `i`;
`lt` is `<` on `double`. -/
def fixedProbabilityGen (n : Nat) (prob : R) (lt : R → R → Bool) (draw : Nat → R) (par : Nat → Nat → P) : SynGen P := fun i =>
  if n = 0 then .ub
  else if lt (draw i) prob then .ok (some ⟨par (i % n) (i / n), i % n, i / n⟩) else .ok none

/-- `creators::fixed_probability` (creators.h:245-256) with the check of the generator's constructor
(synapse_generators.h:282-283). -/
def fixedProbability (pre post : UID) (n m : Nat) (prob zero one : R) (lt : R → R → Bool) (draw : Nat → R)
    (par : Nat → Nat → P) : Outcome (Created P) :=
  if lt one prob || lt prob zero then .throw "Incorrect probability, set probability between 0 and 1."
  else construct pre post (fixedProbabilityGen n prob lt draw par) (mulU64 n m)

/-- `FixedNumberPost::operator()` (synapse_generators.h:382-388). -/
def fixedPostGen (n : Nat) (draw : Nat → Nat) (par : Nat → Nat → P) : SynGen P := fun i =>
  if n = 0 then .ub else .ok (some ⟨par (i % n) (draw i), i % n, draw i⟩)

/-- `creators::fixed_number_post` (creators.h:314-326). -/
def fixedNumberPost (pre post : UID) (n k : Nat) (draw : Nat → Nat) (par : Nat → Nat → P) : Outcome (Created P) :=
  construct pre post (fixedPostGen n draw par) (mulU64 n k)

/-- `FixedNumberPre::operator()` (synapse_generators.h:439-445). -/
def fixedPreGen (m : Nat) (draw : Nat → Nat) (par : Nat → Nat → P) : SynGen P := fun i =>
  if m = 0 then .ub else .ok (some ⟨par (draw i) (i % m), draw i, i % m⟩)

/-- `creators::fixed_number_pre` (creators.h:352-364). -/
def fixedNumberPre (pre post : UID) (m k : Nat) (draw : Nat → Nat) (par : Nat → Nat → P) : Outcome (Created P) :=
  construct pre post (fixedPreGen m draw par) (mulU64 m k)

/-- `std::uniform_int_distribution<size_t>(0, size - 1)` (synapse_generators.h:371, 428): what a draw can be. -/
def DrawOf (size : Nat) (draw : Nat → Nat) : Prop := ∀ i, draw i ≤ subU64 size 1

/-- `synapse_generators::clone_projection` (synapse_generators.h:473-486). -/
def cloneGen {P' : Type} (src : List (Synapse P')) (par : Nat → P) : SynGen P := fun i =>
  match src[i]? with
  | some s => .ok (some ⟨par i, s.src, s.dst⟩)
  | none => .ub

/-- `creators::clone_projection` (creators.h:390-402). -/
def cloneProjection {P' : Type} (src : Created P') (par : Nat → P) (pre post : Option UID) : Outcome (Created P) :=
  construct (pre.getD src.pre) (post.getD src.post) (cloneGen src.synapses par) src.synapses.length

/-! ## Neuron generators -/

variable {N : Type}

/-- `neurons_generators::from_container` (neuron_parameters_generators.h:52-57); only called inside the container. -/
def popFromContainer (c : List N) : Population N := Population.mk' (fun i => c[i]?) c.length

/-- `creators::make_default` (population/creators.h:91-94, neuron_parameters_generators.h:106-110). -/
def popDefault (dflt : N) (count : Nat) : Population N := Population.mk' (fun _ => some dflt) count

/-- `creators::make_clone` (population/creators.h:108-112, neuron_parameters_generators.h:123-128). -/
def popClone (count : Nat) (source : N) : Population N := Population.mk' (fun _ => some source) count

end Knp.Gen
