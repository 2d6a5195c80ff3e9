import Verif.Model.Network
import Verif.Model.Bus

/-!
# CPU backends: contents, type tables, wiring

`knp/backends/cpu/cpu-{single,multi}-threaded-backend/{impl,include}`, `knp/meta-library/include/knp/meta/{stringify,
variant_helpers}.h`, `knp/backends/cpu/cpu-library/include/knp/backends/cpu-library/init.h`,
`knp/base-framework/impl/synchronization.cpp`.

The type of an entity is its index in `AllNeurons` (BLIFATNeuron, SynapticResourceSTDPBLIFATNeuron, AltAILIF,
SynapticResourceSTDPAltAILIFNeuron, LIFNeuron) or `AllSynapses` (DeltaSynapse, AdditiveSTDPDeltaSynapse,
SynapticResourceSTDPDeltaSynapse).
-/

namespace Knp.Load

/-! ## Type tables -/

/-- neuron-traits/all_traits.h:42-43. -/
def allNeurons : List String :=
  ["BLIFATNeuron", "SynapticResourceSTDPBLIFATNeuron", "AltAILIF", "SynapticResourceSTDPAltAILIFNeuron", "LIFNeuron"]

/-- synapse-traits/all_traits.h:40. -/
def allSynapses : List String := ["DeltaSynapse", "AdditiveSTDPDeltaSynapse", "SynapticResourceSTDPDeltaSynapse"]

/-- cpu-single-threaded/backend.h:58-61. -/
def singleNeurons : List String :=
  ["BLIFATNeuron", "SynapticResourceSTDPBLIFATNeuron", "AltAILIF", "SynapticResourceSTDPAltAILIFNeuron", "LIFNeuron"]

/-- cpu-single-threaded/backend.h:66-68. -/
def singleSynapses : List String := ["DeltaSynapse", "AdditiveSTDPDeltaSynapse", "SynapticResourceSTDPDeltaSynapse"]

/-- cpu-multi-threaded/backend.h:80-82. -/
def multiNeurons : List String := ["BLIFATNeuron", "SynapticResourceSTDPBLIFATNeuron", "LIFNeuron"]

/-- cpu-multi-threaded/backend.h:87-88. -/
def multiSynapses : List String := ["DeltaSynapse", "SynapticResourceSTDPDeltaSynapse"]

/-- `mp_supported_indexes<SupportedTypes, AllTypes>` and `get_supported_type_indexes` (stringify.h:56-99): each type of
`AllTypes` is looked up in `SupportedTypes` (`mp_find` yields the size if absent), the misses are filtered out. Types are represented by
their names. -/
def supportedIndexes (all supported : List String) : List Nat :=
  (all.map (fun t => supported.idxOf t)).filter (fun i => i != supported.length)

/-- `get_supported_type_names` (stringify.h:112-122): these indexes are used to index the names of *all* types. -/
def supportedNames (all supported : List String) : List String :=
  (supportedIndexes all supported).map (fun i => all.getD i "")

/-! ## Contents -/

variable {P J Q α : Type}

/-- `load_from_container` (variant_helpers.h:49-72): clear, then push one after another, throw at the first unsupported
type. Returns the new content of the container and how the call ended. -/
def loadFrom (ok : α → Bool) : List α → List α × Outcome Unit
  | [] => ([], .ok ())
  | x :: xs => if ok x then ((x :: (loadFrom ok xs).1), (loadFrom ok xs).2) else ([], .throw "Type is not supported.")

/-- A backend: the types it supports, `populations_` and `projections_` with the message queue of each wrapper
(cpu-single-threaded/backend.h:107-112, 450-452). -/
structure Backend (P J Q : Type) where
  okPop : Nat → Bool
  okProj : Nat → Bool
  pops : List (PopEntity P)
  projs : List (ProjEntity J × List Q)

/-- `load_all_populations` (single: backend.cpp:181-186, multi: 363-368). -/
def loadPopulations (b : Backend P J Q) (l : List (PopEntity P)) : Backend P J Q × Outcome Unit :=
  ({ b with pops := (loadFrom (fun p => b.okPop p.kind) l).1 }, (loadFrom (fun p => b.okPop p.kind) l).2)

/-- `load_all_projections` (single: backend.cpp:173-178, multi: 355-360): a new wrapper has an empty queue. -/
def loadProjections (b : Backend P J Q) (l : List (ProjEntity J)) : Backend P J Q × Outcome Unit :=
  ({ b with projs := (loadFrom (fun p => b.okProj p.kind) l).1.map (fun p => (p, [])) },
    (loadFrom (fun p => b.okProj p.kind) l).2)

/-- `remove_projections`, `remove_populations` (cpu-single-threaded/backend.h:287, 294; the same in the
multi-threaded backend): empty bodies. -/
def removePopulations (b : Backend P J Q) (_ : List UID) : Backend P J Q := b
def removeProjections (b : Backend P J Q) (_ : List UID) : Backend P J Q := b

/-- `stop_learning` / `start_learning` (cpu-single-threaded/backend.h:315-332); `lock` is
`Projection::lock_weights` / `unlock_weights` (projection.h:384-389) on the content. -/
def onAllProjections (lock : J → J) (b : Backend P J Q) : Backend P J Q :=
  { b with projs := b.projs.map (fun w => ({ w.1 with body := lock w.1.body }, w.2)) }

/-- `get_network_data` (get_network.cpp:80-93) read through its value iterators (`variant_cast` copies the entity). -/
def networkData (b : Backend P J Q) : List (PopEntity P) × List (ProjEntity J) := (b.pops, b.projs.map (fun w => w.1))

/-- `synchronization::get_network_copy` (synchronization.cpp:26-41). -/
def networkCopy (b : Backend P J Q) : Outcome (Network P J) := do
  let n ← (networkData b).1.foldlM (fun n p => Network.addPopulationVariant n p) (⟨[], []⟩ : Network P J)
  (networkData b).2.foldlM (fun n p => Network.addProjectionVariant n p) n

/-! ## Wiring -/

variable {F : Type}

/-- What `init` sees of a projection: the keys of `stdp_populations_` (only STDP synapse types have them). UID 0 is the
nil UID. -/
structure Wire where
  uid : UID
  pre : UID
  post : UID
  isStdp : Bool
  stdpPops : List UID
deriving DecidableEq, Repr

/-- `subscribe_stdp_projection::subscribe` (init.h:46-82). -/
def subscribeStdp (e : Bus.Endpoint F) (w : Wire) : Bus.Endpoint F :=
  if w.isStdp then
    w.stdpPops.foldl (fun e u => if u ≠ 0 then e.subscribe .spike w.uid [u] else e) e
  else e

/-- One iteration of `init` (init.h:96-109). -/
def wireOne (e : Bus.Endpoint F) (w : Wire) : Bus.Endpoint F :=
  let e1 := subscribeStdp e w
  let e2 := if w.pre ≠ 0 then e1.subscribe .spike w.uid [w.pre] else e1
  if w.post ≠ 0 then e2.subscribe .impact w.post [w.uid] else e2

/-- `knp::backends::cpu::init` (init.h:93-110), called by `_init` of both backends. -/
def wireAll (ws : List Wire) (e : Bus.Endpoint F) : Bus.Endpoint F := ws.foldl wireOne e

end Knp.Load
