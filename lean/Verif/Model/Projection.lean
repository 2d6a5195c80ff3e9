import Verif.Model.Basic

/-!
# `knp::core::Projection`

Models `knp/core-library/impl/projection.cpp` and the inline members of
`knp/core-library/include/knp/core/projection.h`.
-/

namespace Knp

/-- `Projection::Synapse = std::tuple<SynapseParameters, size_t, size_t>`
(projection.h:95).  `P` is the parameter type, kept abstract. -/
structure Synapse (P : Type) where
  params : P
  src : Nat
  dst : Nat
deriving Repr, DecidableEq

/-- `Projection::Connection` (projection.h:439-448), one entry of the lookup index. -/
structure Conn where
  src : Nat
  dst : Nat
  idx : Nat
deriving Repr, DecidableEq

/-- The state of a projection (projection.h:417-467): `parameters_`, the lazily maintained
multi-index `index_`, the flag `is_index_updated_`, and `is_locked_`.
Simplification: the hashed multi-index container is a list of connections (its iteration order is
unspecified in C++; theorems only speak about lookups up to permutation). UIDs, tags and shared
parameters are not part of this model. -/
structure Projection (P : Type) where
  synapses : List (Synapse P)
  index : List Conn
  fresh : Bool
  locked : Bool

/-- `Projection::Search` (projection.h:309-319). -/
inductive Search where
  | byPresynaptic
  | byPostsynaptic
deriving Repr, DecidableEq

/-- `SynapseGenerator = std::function<std::optional<Synapse>(size_t)>` (projection.h:100);
a pure function of the index. -/
abbrev SynapseGenerator (P : Type) := Nat → Option (Synapse P)

namespace Projection
variable {P : Type}

/-- The generator loop of the constructors and of `add_synapses`
(projection.cpp:136-142, 156-163, 197-203): push what `generator(i)` returns, if anything. -/
def generateLoop (gen : SynapseGenerator P) : Nat → Nat → List (Synapse P) → List (Synapse P)
  | 0, _, acc => acc
  | n + 1, i, acc =>
    match gen i with
    | some s => generateLoop gen n (i + 1) (acc ++ [s])
    | none => generateLoop gen n (i + 1) acc

/-- The insertion loop of `reindex` (projection.cpp:270-277). -/
def indexFrom : Nat → List (Synapse P) → List Conn
  | _, [] => []
  | i, s :: ss => ⟨s.src, s.dst, i⟩ :: indexFrom (i + 1) ss

/-- `reindex` (projection.cpp:261-279). -/
def reindex (p : Projection P) : Projection P :=
  if p.fresh then p
  else { p with index := indexFrom 0 p.synapses, fresh := true }

/-- Constructor without generator (projection.cpp:107-124). -/
def mkEmpty : Projection P := { synapses := [], index := [], fresh := false, locked := true }

/-- Constructors with a generator (projection.cpp:127-165). -/
def mkGenerated (gen : SynapseGenerator P) (n : Nat) : Projection P :=
  reindex { synapses := generateLoop gen n 0 [], index := [], fresh := false, locked := true }

/-- `find_indexes_by_type` on the presynaptic or postsynaptic key (projection.cpp:42-49). -/
def lookup (ix : List Conn) (n : Nat) : Search → List Nat
  | .byPresynaptic => (ix.filter (fun c => c.src == n)).map Conn.idx
  | .byPostsynaptic => (ix.filter (fun c => c.dst == n)).map Conn.idx

/-- `find_synapses` (projection.cpp:168-188); `const`, but it rebuilds the mutable index. -/
def findSynapses (p : Projection P) (n : Nat) (c : Search) : Projection P × List Nat :=
  let p' := reindex p
  (p', lookup p'.index n c)

/-- `add_synapses` (projection.cpp:191-205). -/
def addSynapses (p : Projection P) (gen : SynapseGenerator P) (n : Nat) : Projection P × Nat :=
  let startingSize := p.synapses.length
  let syn := generateLoop gen n 0 p.synapses
  ({ p with synapses := syn, fresh := false }, syn.length - startingSize)

/-- `clear` (projection.cpp:208-213); the flag is left alone. -/
def clear (p : Projection P) : Projection P := { p with synapses := [], index := [] }

/-- `remove_synapse` (projection.cpp:216-221): erasing at or past `end()` is undefined. -/
def removeSynapse (p : Projection P) (i : Nat) : Outcome (Projection P) :=
  if i < p.synapses.length then
    .ok { p with fresh := false, synapses := p.synapses.eraseIdx i }
  else .ub

/-- `std::remove_if` + `resize` in `remove_synapse_if` (projection.cpp:224-231). -/
def removeSynapseIf (p : Projection P) (pred : Synapse P → Bool) : Projection P × Nat :=
  let startingSize := p.synapses.length
  let kept := p.synapses.filter (fun s => !pred s)
  ({ p with fresh := false, synapses := kept }, startingSize - kept.length)

/-- `remove_by_index` (projection.cpp:72-81): erase the listed positions one by one, each shifted
by the number already erased; a position outside the vector (or a wrapped difference) is UB. -/
def removeByIndex {α : Type} : List Nat → Nat → List α → Outcome (List α)
  | [], _, data => .ok data
  | r :: rs, counter, data =>
    if counter ≤ r ∧ r - counter < data.length then
      removeByIndex rs (counter + 1) (data.eraseIdx (r - counter))
    else .ub

/-- `index_.erase(synapse)` (projection.cpp:245).  The interface of the multi-index container is its
first index, keyed by the *source neuron* (projection.h:453-454), so this erases all connections
whose source neuron number equals the given number. -/
def eraseKey0 (ix : List Conn) (key : Nat) : List Conn := ix.filter (fun c => !(c.src == key))

/-- `remove_postsynaptic_neuron_synapses` (projection.cpp:234-249). -/
def removePostsynaptic (p : Projection P) (n : Nat) : Outcome (Projection P × Nat) :=
  let startingSize := p.synapses.length
  let was := p.fresh
  let (p1, found) := findSynapses { p with fresh := false } n .byPostsynaptic
  let toRemove := sortBy (fun a b => decide (a ≤ b)) found
  match removeByIndex toRemove 0 p1.synapses with
  | .ok syn =>
    let ix := if was then toRemove.foldl eraseKey0 p1.index else p1.index
    .ok ({ p1 with synapses := syn, index := ix, fresh := was }, startingSize - syn.length)
  | .throw w => .throw w
  | .ub => .ub

/-- `remove_presynaptic_neuron_synapses` (projection.cpp:252-258). -/
def removePresynaptic (p : Projection P) (n : Nat) : Projection P × Nat :=
  removeSynapseIf p (fun s => s.src == n)

/-- Assigning a whole synapse through the non-const `operator[]`/iterators
(projection.h:243, 268): contents change, index and flag do not.  Out of range is UB. -/
def setSynapse (p : Projection P) (i : Nat) (s : Synapse P) : Outcome (Projection P) :=
  if i < p.synapses.length then .ok { p with synapses := p.synapses.set i s } else .ub

/-- Assigning only the parameters of a synapse through the non-const access (as the training
code does). -/
def setParams (p : Projection P) (i : Nat) (q : P) : Outcome (Projection P) :=
  if h : i < p.synapses.length then
    .ok { p with synapses := p.synapses.set i { p.synapses[i] with params := q } }
  else .ub

/-- `lock_weights` / `unlock_weights` (projection.h:384-389). -/
def setLock (p : Projection P) (b : Bool) : Projection P := { p with locked := b }

/-- The public mutating/caching operations, for histories. -/
inductive Op (P : Type) where
  | find (n : Nat) (c : Search)
  | add (gen : SynapseGenerator P) (count : Nat)
  | clear
  | removeSynapse (i : Nat)
  | removeIf (pred : Synapse P → Bool)
  | removePre (n : Nat)
  | removePost (n : Nat)
  | setSynapse (i : Nat) (s : Synapse P)
  | setParams (i : Nat) (q : P)
  | lock
  | unlock

/-- What the caller sees. -/
inductive Out where
  | unit
  | count (n : Nat)
  | indices (l : List Nat)
deriving Repr, DecidableEq

/-- One public call. -/
def step (p : Projection P) : Op P → Outcome (Projection P × Out)
  | .find n c => let (p', l) := p.findSynapses n c; .ok (p', .indices l)
  | .add g k => let (p', n) := p.addSynapses g k; .ok (p', .count n)
  | .clear => .ok (p.clear, .unit)
  | .removeSynapse i => match p.removeSynapse i with
      | .ok p' => .ok (p', .unit) | .throw w => .throw w | .ub => .ub
  | .removeIf f => let (p', n) := p.removeSynapseIf f; .ok (p', .count n)
  | .removePre n => let (p', k) := p.removePresynaptic n; .ok (p', .count k)
  | .removePost n => match p.removePostsynaptic n with
      | .ok (p', k) => .ok (p', .count k) | .throw w => .throw w | .ub => .ub
  | .setSynapse i s => match p.setSynapse i s with
      | .ok p' => .ok (p', .unit) | .throw w => .throw w | .ub => .ub
  | .setParams i q => match p.setParams i q with
      | .ok p' => .ok (p', .unit) | .throw w => .throw w | .ub => .ub
  | .lock => .ok (p.setLock true, .unit)
  | .unlock => .ok (p.setLock false, .unit)

/-- A history of public calls, with everything the caller saw. -/
def run (p : Projection P) : List (Op P) → Outcome (Projection P × List Out)
  | [] => .ok (p, [])
  | o :: os =>
    match p.step o with
    | .ok (p', out) =>
      match run p' os with
      | .ok (p'', outs) => .ok (p'', out :: outs)
      | .throw w => .throw w
      | .ub => .ub
    | .throw w => .throw w
    | .ub => .ub

end Projection
end Knp
