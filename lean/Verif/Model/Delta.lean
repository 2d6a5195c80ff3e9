import Verif.Model.Basic
import Verif.Model.Messages

/-!
# Delta projections on the CPU backends

Models `knp/backends/cpu/cpu-library/include/knp/backends/cpu-library/impl/projections/delta/delta_impl.h`,
`.../projections.h`, `.../impl/projections/message_queue.h` and the projection part of
`knp/backends/cpu/cpu-multi-threaded-backend/impl/backend.cpp`.

`F` is the type of weights, with an arbitrary multiplication by a count where one is needed.
-/

namespace Knp.Delta
open Knp

/-- 2^32, the range of `uint32_t`. -/
def two32 : Nat := 4294967296

/-- The part of a delta-like synapse the calculation reads: `source_neuron_id`, `target_neuron_id` and the
parameters `weight_`, `delay_`, `output_type_` (knp/synapse-traits-library/include/knp/synapse-traits/delta.h:70-92). -/
structure Syn (F : Type) where
  source : Nat
  target : Nat
  weight : F
  delay : Nat
  outType : OutputType
deriving Repr, DecidableEq

/-- The projection as the calculation sees it in one step: its synapses and the answer of
`find_synapses(n, by_presynaptic)` (modelled in `Verif/Model/Projection.lean`; the order inside one answer is
that of a hashed index and left open). -/
structure Proj (F : Type) where
  synapses : List (Syn F)
  find : Nat → List Nat

/-- The unchanging data of a projection: UID, population UIDs and `is_forced`
(stdp_dispatcher.h:54-58, additive_stdp.h, synaptic_resource_stdp.h). -/
structure Ident where
  uid : UID
  pre : UID
  post : UID
  forced : Bool
deriving Repr, DecidableEq

/-- `MessageQueue`, an `unordered_map<uint64_t, SynapticImpactMessage>` (message_queue.h:34). -/
abbrev Queue (F : Type) := List (Nat × SynapticImpactMessage F)

/-- `future_messages.find(key)`. -/
def qFind {F : Type} (q : Queue F) (key : Nat) : Option (SynapticImpactMessage F) :=
  (q.find? (fun e => e.1 == key)).map (·.2)

/-- Find the key; append to its message, or insert the new message (delta_impl.h:85-106, 159-173). -/
def qPush {F : Type} (mk : SynapticImpact F → SynapticImpactMessage F) (key : Nat) (imp : SynapticImpact F) :
    Queue F → Queue F
  | [] => [(key, mk imp)]
  | (k, m) :: l =>
    if k = key then (k, { m with impacts := m.impacts ++ [imp] }) :: l else (k, m) :: qPush mk key imp l

/-- `future_messages.erase(iter)` (projections.h:82). -/
def qErase {F : Type} (q : Queue F) (key : Nat) : Queue F := q.filter (fun e => e.1 != key)

/-- `delay_ + step_n - 1` in `size_t` (delta_impl.h:79, 137). -/
def futureStep (delay step : Nat) : Nat := subU64 (addU64 delay step) 1

/-- The impact of a synapse (delta_impl.h:80-83): neuron numbers are cast to 32 bits. -/
def impactOf {F : Type} (k : Nat) (s : Syn F) : SynapticImpact F :=
  ⟨k, s.weight, s.outType, s.source % two32, s.target % two32⟩

/-- The new message of the single-threaded calculation (delta_impl.h:98-103). -/
def mkSingle {F : Type} (d : Ident) (step : Nat) (imp : SynapticImpact F) : SynapticImpactMessage F :=
  ⟨⟨d.uid, step⟩, d.pre, d.post, d.forced, [imp]⟩

/-- The inner loop over the synapses of one spike (delta_impl.h:70-107).  An index that is out of range would be
undefined behaviour; `find_synapses` gives none (C01) where its cache is valid. -/
def pushSpike {F : Type} (d : Ident) (p : Proj F) (step : Nat) (q : Queue F) (neuron : Nat) : Queue F :=
  (p.find neuron).foldl (fun q k =>
    match p.synapses[k]? with
    | some s => qPush (mkSingle d step) (futureStep s.delay step) (impactOf k s) q
    | none => q) q

/-- The loops over messages and spikes (delta_impl.h:65-109). `init_projection`, `init_synapse` and
`modify_weights` (l.63, 75, 111) do nothing for plain delta synapses.  For the trained types they change only
weights (every step has its own `Proj`) and, in `init_projection` of additive STDP (additive_stdp.h:118-170),
empty the messages used for training only: `msgs` are the messages after that. -/
def calcSingle {F : Type} (d : Ident) (p : Proj F) (step : Nat) (q : Queue F) (msgs : List SpikeMessage) : Queue F :=
  msgs.foldl (fun q m => m.neuronIndexes.foldl (pushSpike d p step) q) q

/-- `calculate_projection` (projections.h:58-84): the sent message, if any, and the remaining queue. -/
def stepSingle {F : Type} (d : Ident) (p : Proj F) (step : Nat) (q : Queue F) (msgs : List SpikeMessage) :
    Option (SynapticImpactMessage F) × Queue F :=
  let q1 := calcSingle d p step q msgs
  match qFind q1 step with
  | some m => (some m, qErase q1 step)
  | none => (none, q1)

/-- What one projection is given in one step: its current synapses and the spike messages it received. -/
structure StepIn (F : Type) where
  proj : Proj F
  msgs : List SpikeMessage

/-- Consecutive steps of one projection from step `t` on; what is sent in each step, and the final queue. -/
def runSingle {F : Type} (d : Ident) : Nat → Queue F → List (StepIn F) →
    List (Option (SynapticImpactMessage F)) × Queue F
  | _, q, [] => ([], q)
  | t, q, h :: hs =>
    let (out, q') := stepSingle d h.proj t q h.msgs
    let (outs, qf) := runSingle d (t + 1) q' hs
    (out :: outs, qf)

/-! ## Multi-threaded calculation -/

/-- One spike of `convert_spikes` (backend.cpp:240-244 of the multi-threaded backend). -/
def convertStep (acc : List (Nat × Nat)) (n : Nat) : List (Nat × Nat) :=
  match acc.find? (fun e => e.1 == n) with
  | none => acc ++ [(n, 1)]
  | some _ => acc.map (fun e => if e.1 = n then (e.1, e.2 + 1) else e)

/-- `convert_spikes` (backend.cpp:235-247 of the multi-threaded backend): number of occurrences of each
neuron in the message. -/
def convertSpikes (spikes : List Nat) : List (Nat × Nat) := spikes.foldl convertStep []

/-- `message_in_data.find(source)` (delta_impl.h:129). -/
def countOf (data : List (Nat × Nat)) (n : Nat) : Option Nat := (data.find? (fun e => e.1 == n)).map (·.2)

/-- The starts of the parts: `for (i = 0; i < size; i += part)` in `size_t` (backend.cpp:82, 132, 269), with a
bound on the number of iterations; `none` if the loop has not ended by then. -/
def partStarts (size part : Nat) : Nat → Nat → Option (List Nat)
  | 0, _ => none
  | fuel + 1, i =>
    if i < size then (partStarts size part fuel (addU64 i part)).map (i :: ·) else some []

/-- The end of a part: `std::min(start + part, size)` (backend.cpp:88, 146; delta_impl.h:123). -/
def partEnd (size part start : Nat) : Nat := min (addU64 start part) size

/-- The container filled by one task (delta_impl.h:124-150); `scale w c` is `weight_ * count`. -/
def partContainer {F : Type} (scale : F → Nat → F) (p : Proj F) (data : List (Nat × Nat)) (step : Nat)
    (lo hi : Nat) : List (Nat × SynapticImpact F) :=
  (List.range' lo (hi - lo)).filterMap (fun k =>
    match p.synapses[k]? with
    | none => none
    | some s =>
      match countOf data s.source with
      | none => none
      | some c => some (futureStep s.delay step,
          { impactOf k s with impactValue := scale s.weight c }))

/-- The new message of the multi-threaded calculation (delta_impl.h:166-171): post- and presynaptic UID in
this order. -/
def mkMulti {F : Type} (d : Ident) (step : Nat) (imp : SynapticImpact F) : SynapticImpactMessage F :=
  ⟨⟨d.uid, step⟩, d.post, d.pre, d.forced, [imp]⟩

/-- The critical section of one task (delta_impl.h:152-174). -/
def mergeContainer {F : Type} (d : Ident) (step : Nat) (q : Queue F) (c : List (Nat × SynapticImpact F)) : Queue F :=
  c.foldl (fun q e => qPush (mkMulti d step) e.1 e.2 q) q

/-- The tasks posted for one projection (backend.cpp:256-282): only the first message is used; nothing is posted
without messages. `part` must not be 0 (the loop would not end). -/
def tasks {F : Type} (scale : F → Nat → F) (p : Proj F) (step part : Nat) (msgs : List SpikeMessage) :
    List (List (Nat × SynapticImpact F)) :=
  match msgs with
  | [] => []
  | m :: _ =>
    match partStarts p.synapses.length part (p.synapses.length + 1) 0 with
    | none => []
    | some starts => starts.map (fun lo =>
        partContainer scale p (convertSpikes m.neuronIndexes) step lo (partEnd p.synapses.length part lo))

/-- One step of one projection on the multi-threaded backend (backend.cpp:250-295): the critical sections of the
tasks run in some order `order` (a rearrangement of the tasks), then the message of this step is sent. -/
def stepMulti {F : Type} (d : Ident) (step : Nat) (q : Queue F) (order : List (List (Nat × SynapticImpact F))) :
    Option (SynapticImpactMessage F) × Queue F :=
  let q1 := order.foldl (mergeContainer d step) q
  match qFind q1 step with
  | some m => (some m, qErase q1 step)
  | none => (none, q1)

/-- Consecutive steps, each with the order in which the critical sections ran. -/
def runMulti {F : Type} (d : Ident) : Nat → Queue F → List (List (List (Nat × SynapticImpact F))) →
    List (Option (SynapticImpactMessage F)) × Queue F
  | _, q, [] => ([], q)
  | t, q, o :: os =>
    let (out, q') := stepMulti d t q o
    let (outs, qf) := runMulti d (t + 1) q' os
    (out :: outs, qf)

end Knp.Delta
