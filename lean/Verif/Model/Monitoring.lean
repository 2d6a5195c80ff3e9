import Verif.Model.Messages
import Mathlib.Order.Defs.LinearOrder

/-!
# `knp::framework::monitoring::model`

Models `knp/base-framework/impl/monitoring/model.cpp`.  A log is the list of what was written; a name
(`std::string`) is a value of an arbitrary linearly ordered type `N` (only its order is used).
Simplified: counters do not overflow 64 bits.
-/

namespace Knp.Mon
open Knp

variable {N : Type} [LinearOrder N]

/-- `std::map<std::string, size_t>`: entries sorted by name. -/
abbrev Acc (N : Type) := List (N × Nat)

/-- `accumulator.insert({name, v})`: keeps an existing entry (used at model.cpp:138, 149). -/
def mapInsert (k : N) (v : Nat) : Acc N → Acc N
  | [] => [(k, v)]
  | (k', v') :: l => if k < k' then (k, v) :: (k', v') :: l else if k = k' then (k', v') :: l else (k', v') :: mapInsert k v l

/-- `accumulator[name] += d`: creates a zero entry if there is none (used at model.cpp:158). -/
def mapAdd (k : N) (d : Nat) : Acc N → Acc N
  | [] => [(k, d)]
  | (k', v') :: l => if k < k' then (k, d) :: (k', v') :: l else if k = k' then (k', v' + d) :: l else (k', v') :: mapAdd k d l

/-- `write_aggregated_spikes_logger_header` (model.cpp:108-117): the names after "Index". -/
def header (names : List (UID × N)) : List N := sortBy (fun a b => decide (a ≤ b)) (names.map (fun x => x.2))

/-- `accumulator.clear(); for (val : sender_names) accumulator.insert({val.second, 0})` (model.cpp:137-138, 148-149). -/
def initAcc (names : List (UID × N)) : Acc N := names.foldl (fun acc x => mapInsert x.2 0 acc) []

/-- A line of the aggregated log: index and counts (`save_aggregated_spikes_log`, model.cpp:120-129). -/
structure Row where
  index : Nat
  values : List Nat
deriving Repr, DecidableEq

/-- One call of the observer: the backend's step and the messages received. -/
structure Call where
  step : Nat
  msgs : List SpikeMessage
deriving Repr, DecidableEq

/-- State of the aggregated logger: the accumulator and the lines written. -/
structure St (N : Type) where
  acc : Acc N
  log : List Row

/-- Loop over messages (model.cpp:153-159); `sender_names.find` is a lookup in a list with distinct keys. -/
def addMessages (names : List (UID × N)) (msgs : List SpikeMessage) (acc : Acc N) : Acc N :=
  msgs.foldl (fun acc m => match names.lookup m.header.senderUid with
    | none => acc
    | some n => mapAdd n m.neuronIndexes.length acc) acc

/-- The observer function (model.cpp:139-160); `period` is not 0 (`step % 0` is undefined). -/
def observe (names : List (UID × N)) (period : Nat) (s : St N) (c : Call) : St N :=
  let s' : St N := if c.step % period = 0 then ⟨initAcc names, s.log ++ [⟨c.step, s.acc.map (fun x => x.2)⟩]⟩ else s
  ⟨addMessages names c.msgs s'.acc, s'.log⟩

/-- The aggregated logger after a history of calls (model.cpp:132-162). -/
def aggregated (names : List (UID × N)) (period : Nat) (calls : List Call) : St N :=
  calls.foldl (observe names period) ⟨initAcc names, []⟩

/-- A record of the spikes log. -/
structure SpikeRecord (N : Type) where
  step : Nat
  sender : N
  spikes : List Nat
deriving Repr, DecidableEq

/-- `make_spikes_observer_function` (model.cpp:165-182): `find(...)->second` of an unknown sender is undefined. -/
def spikesLog (names : List (UID × N)) : List SpikeMessage → Outcome (List (SpikeRecord N))
  | [] => .ok []
  | m :: ms => match names.lookup m.header.senderUid with
    | none => .ub
    | some n => match spikesLog names ms with
      | .ok l => .ok (⟨m.header.sendTime, n, m.neuronIndexes⟩ :: l)
      | .throw e => .throw e
      | .ub => .ub

/-- `add_status_logger` (model.cpp:224-240): the observer writes the number of messages whenever there are some;
`logging_period` is not used. -/
def statusLog (_period : Nat) (calls : List Call) : List Nat :=
  calls.filterMap (fun c => if c.msgs.isEmpty then none else some c.msgs.length)

/-! ### Weights log -/

/-- The fields of a resource-delta synapse the weights log looks at, plus the weight itself. -/
structure WSyn (F : Type) where
  source : Nat
  target : Nat
  weight : F
  resource : F
  lastSpike : Nat
deriving Repr, DecidableEq

/-- `WeightByReceiverSender` (model.cpp:40-47). -/
structure Entry (F : Type) where
  receiver : Nat
  sender : Nat
  weight : F
  updateStep : Nat
deriving Repr, DecidableEq

/-- The comparison of model.cpp:65-69, as "not after". -/
def entryLe {F : Type} (a b : Entry F) : Bool :=
  if a.receiver = b.receiver then decide (a.sender ≤ b.sender) else decide (a.receiver ≤ b.receiver)

/-- `process_projection_weights` (model.cpp:50-71). -/
def processWeights {F : Type} (syns : List (WSyn F)) : List (Entry F) :=
  sortBy entryLe (syns.map (fun s => ⟨s.target, s.source, s.resource, s.lastSpike⟩))

/-- What is written to the weights log. -/
inductive WTok (F : Type) where
  | step (s : Nat)
  | neuron (n : Nat)
  | entry (w : F) (s : Nat)
  | endl
deriving Repr, DecidableEq

/-- The loop of model.cpp:89-99; `neuron` is the variable of the same name. -/
def writeEntries {F : Type} (neuron : Nat) : List (Entry F) → List (WTok F)
  | [] => []
  | e :: es => if neuron = e.receiver then .entry e.weight e.updateStep :: writeEntries neuron es
    else .neuron e.receiver :: .entry e.weight e.updateStep :: writeEntries e.receiver es

/-- A projection of the backend as seen by the weights log: UID and, for resource-delta projections, synapses (`std::get` of
another type throws). -/
abbrev LogProj (F : Type) := UID × Option (List (WSyn F))

/-- `make_projection_weights_observer_function`, one call (model.cpp:76-103), with a good stream; what is written. -/
def weightsLog {F : Type} (period : Nat) (uid : UID) (step : Nat) (projs : List (LogProj F)) : Outcome (List (WTok F)) :=
  if step % period ≠ 0 then .ok [] else
  match projs.find? (fun p => p.1 == uid) with
  | none => .ok [.step step]
  | some (_, none) => .throw "bad_variant_access"
  | some (_, some syns) => .ok (.step step :: (writeEntries 18446744073709551615 (processWeights syns) ++ [.endl]))

end Knp.Mon
