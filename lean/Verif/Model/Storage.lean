import Verif.Model.Messages
import Mathlib.Algebra.Order.Field.Rat

/-!
# Spike data files

Models `knp/base-framework/impl/storage/native/*.cpp`.  A file is what the JSON / HDF5 library returns for it: attributes and
the two arrays.  Texts of messages and log output are not modelled.
-/

namespace Knp.Store
open Knp

/-! ### Floating point

IEEE-754 round-to-nearest-even with `p` bits of precision (24 for `float`, 53 for `double`), for values in the normal range (no
overflow, no subnormal numbers). -/

/-- `2^e`. -/
def pow2 : Int → Rat
  | .ofNat n => ((2 ^ n : Nat) : Rat)
  | .negSucc n => 1 / ((2 ^ (n + 1) : Nat) : Rat)

/-- Nearest integer, ties to even. -/
def roundHalfEven (q : Rat) : Int :=
  let f := q.floor
  let r := q - f
  if r < 1 / 2 then f else if 1 / 2 < r then f + 1 else if f % 2 = 0 then f else f + 1

/-- `floor (log2 q)` of a positive number. -/
def log2Floor (q : Rat) : Int :=
  let e : Int := (Nat.log2 q.num.toNat : Int) - (Nat.log2 q.den : Int)
  if q < pow2 e then e - 1 else e

/-- Rounding of a positive number to `p` bits. -/
def rndPos (p : Nat) (q : Rat) : Rat :=
  let ulp := pow2 (log2Floor q - ((p : Int) - 1))
  (roundHalfEven (q / ulp) : Rat) * ulp

/-- Rounding to `p` bits. -/
def rnd (p : Nat) (q : Rat) : Rat := if q = 0 then 0 else if q < 0 then -rndPos p (-q) else rndPos p q

/-- Conversion to `float`. -/
def toFloat (q : Rat) : Rat := rnd 24 q

/-- Conversion to `double`. -/
def toDouble (q : Rat) : Rat := rnd 53 q

/-- `static_cast<Step>(x)`: truncation; undefined if the result does not fit `uint64_t`. -/
def castStep (x : Rat) : Outcome Nat :=
  if x ≤ -1 ∨ (two64 : Rat) ≤ x then .ub else .ok x.floor.toNat

/-! ### Arrays to messages (data_storage_common.cpp) -/

/-- The loop body with the map `message_map` as a list of messages (data_storage_common.cpp:44-51); the index is narrowed to
`uint32_t`. -/
def addSpike (uid : UID) (step idx : Nat) : List SpikeMessage → List SpikeMessage
  | [] => [⟨⟨uid, step⟩, [idx]⟩]
  | m :: ms => if m.header.sendTime = step then { m with neuronIndexes := m.neuronIndexes ++ [idx] } :: ms else m :: addSpike uid step idx ms

/-- Narrowing of `int64_t` to `SpikeIndex` (`uint32_t`). -/
def narrow32 (i : Int) : Nat := (i % 4294967296).toNat

/-- The loop of data_storage_common.cpp:40-52. -/
def groupLoop (uid : UID) (tps : Rat) : List Int → List Rat → List SpikeMessage → Outcome (List SpikeMessage)
  | i :: is, t :: ts, acc => match castStep (toFloat (t / tps)) with
    | .ok step => groupLoop uid tps is ts (addSpike uid step (narrow32 i) acc)
    | .throw e => .throw e
    | .ub => .ub
  | _, _, acc => .ok acc

/-- `convert_node_time_arrays_to_messages` (data_storage_common.cpp:33-66); division by zero is undefined (conversion of an
infinity or NaN).  The messages have different steps, so the result of the sort does not depend on the order in the map. -/
def convert (nodes : List Int) (times : List Rat) (uid : UID) (tps : Rat) : Outcome (List SpikeMessage) :=
  if nodes.length ≠ times.length then .throw "Different array sizes: nodes and timestamps."
  else if tps = 0 ∧ times ≠ [] then .ub
  else match groupLoop uid tps nodes times [] with
    | .ok ms => .ok (sortBy (fun a b => decide (a.header.sendTime ≤ b.header.sendTime)) ms)
    | .throw e => .throw e
    | .ub => .ub

/-! ### JSON (data_storage_json.cpp) -/

/-- An element of the "attributes" array. -/
structure JAttr where
  name : Option String
  /-- A number (magic) or an array (version). -/
  value : Option (Int ⊕ List Int)
deriving Repr, DecidableEq

/-- A parsed file: numbers as they are written. -/
structure JFile where
  attrs : Option (List JAttr)
  nodes : List Int
  times : List Rat
deriving Repr, DecidableEq

/-- `save_messages_to_json` (data_storage_json.cpp:274-311); `sorted` is the result of `partial_sort_copy`. -/
def saveJson (sorted : List SpikeMessage) : JFile :=
  ⟨some [⟨some "magic", some (.inl 2682)⟩, ⟨some "version", some (.inr [0, 1])⟩],
    sorted.flatMap (fun m => m.neuronIndexes.map (fun i : Nat => (i : Int))),
    sorted.flatMap (fun m => m.neuronIndexes.map (fun _ => (m.header.sendTime : Rat)))⟩

/-- `is_json_has_magic` (data_storage_json.cpp:133-152): the first attribute named "magic" decides; no value is accepted;
`GetInt` of an array is undefined. -/
def jsonMagic (f : JFile) : Outcome Bool :=
  match f.attrs with
  | none => .ok false
  | some as => match as.find? (fun a => a.name == some "magic") with
    | none => .ok false
    | some a => match a.value with
      | none => .ok true
      | some (.inl v) => .ok (v == 2682)
      | some (.inr _) => .ub

/-- `GetInt`: the value must fit `int`, otherwise the assertion fails / undefined. -/
def getInts : List Int → Outcome (List Int)
  | [] => .ok []
  | i :: is => if -2147483648 ≤ i ∧ i < 2147483648 then match getInts is with
      | .ok l => .ok (i :: l)
      | .throw e => .throw e
      | .ub => .ub
    else .ub

/-- `load_messages_from_json` (data_storage_json.cpp:238-262) for a file with a "spikes" group that has both arrays; the version
only causes a warning. -/
def loadJson (f : JFile) (uid : UID) (strict : Bool) : Outcome (List SpikeMessage) :=
  match jsonMagic f with
  | .ub => .ub
  | .throw e => .throw e
  | .ok magic =>
    if !magic && strict then .throw "Unable to find magic number: wrong file format or version."
    else match getInts f.nodes with
      | .ub => .ub
      | .throw e => .throw e
      | .ok nodes => convert nodes (f.times.map (fun t => toFloat (toDouble t))) uid 1

/-! ### HDF5 (data_storage_hdf5.cpp) -/

/-- A file: root attributes, and the datasets found in "spikes" (or "spikes/internal"). -/
structure HFile where
  magic : Option Int
  version : Option (List Int)
  nodes : List Int
  times : List Rat
deriving Repr, DecidableEq

/-- `save_messages_to_h5` (data_storage_hdf5.cpp:134-178): times are `float(send_time) * time_per_step` in `float`. -/
def saveH5 (sorted : List SpikeMessage) (tps : Rat) : HFile :=
  ⟨some 2682, some [0, 1],
    sorted.flatMap (fun m => m.neuronIndexes.map (fun i : Nat => (i : Int))),
    sorted.flatMap (fun m => m.neuronIndexes.map (fun _ => toFloat (toFloat m.header.sendTime * tps)))⟩

/-- `check_magic` (data_storage_hdf5.cpp:38-61). -/
def h5Magic (f : HFile) (isThrow : Bool) : Outcome Bool :=
  match f.magic with
  | none => if isThrow then .throw "No magic attribute" else .ok false
  | some m => if m = 2682 then .ok true else if isThrow then .throw "Wrong magic number" else .ok false

/-- `std::equal(version.begin(), version.end(), VERSION.begin())` (data_storage_hdf5.cpp:69): reads as many elements of
`VERSION` as the attribute has. -/
def equalPrefix : List Int → List Int → Outcome Bool
  | [], _ => .ok true
  | _ :: _, [] => .ub
  | a :: as, b :: bs => if a = b then equalPrefix as bs else .ok false

/-- `check_version` (data_storage_hdf5.cpp:64-70). -/
def h5Version (f : HFile) : Outcome Bool :=
  match f.version with
  | none => .ok false
  | some v => equalPrefix v [0, 1]

/-- `load_messages_from_h5` (data_storage_hdf5.cpp:83-131) for a file with the needed datasets. -/
def loadH5 (f : HFile) (uid : UID) (tps : Rat) (strict : Bool) : Outcome (List SpikeMessage) :=
  match h5Magic f strict with
  | .ub => .ub
  | .throw e => .throw e
  | .ok _ => match h5Version f with
    | .ub => .ub
    | .throw e => .throw e
    | .ok _ => if f.times.length ≠ f.nodes.length then .throw "Different number of elements in node and timestamp datasets."
      else convert f.nodes f.times uid tps

end Knp.Store
