import Verif.Model.Basic
import Verif.Model.Messages

/-!
# Spike message handlers (winner-take-all, union)

Models `knp/base-framework/impl/message_handlers.cpp` and
`knp/base-framework/include/knp/framework/message_handlers.h`.

A random engine is an arbitrary function from the number of the draw to the value drawn; theorems hold
for every such function.  The result of `std::sort` among equal elements and of `std::shuffle` is
arbitrary too (parameters `sortFn`, `shuffle`).
-/

namespace Knp.Handlers
open Knp

/-- `std::swap(v[i], v[j])`; positions are always in range where it is used. -/
def swapAt {α : Type} (l : List α) (i j : Nat) : List α :=
  match l[i]?, l[j]? with
  | some a, some b => (l.set i b).set j a
  | _, _ => l

/-- The loop of `select_random_n` (message_handlers.cpp:40-45) with `n` rounds to go in round `i`; returns
the rearranged input and the result. -/
def selectLoop (draw : Nat → Nat) : Nat → Nat → List Nat → List Nat → List Nat × List Nat
  | 0, _, input, result => (input, result)
  | n + 1, i, input, result =>
    let index := draw i % (input.length - i)
    match input[index]? with
    | some a => selectLoop draw n (i + 1) (swapAt input index (input.length - 1 - i)) (result ++ [a])
    | none => (input, result)

/-- `select_random_n` (message_handlers.cpp:34-47). -/
def selectRandomN (draw : Nat → Nat) (input : List Nat) (n : Nat) : List Nat :=
  if input.length ≤ n then input else (selectLoop draw n 0 input []).2

/-- `KWtaRandomHandler::operator()` (message_handlers.cpp:50-66). -/
def kWta (draw : Nat → Nat) (numWinners : Nat) (messages : List SpikeMessage) : List Nat :=
  match messages with
  | [] => []
  | msg :: _ =>
    if msg.neuronIndexes.length < numWinners then msg.neuronIndexes
    else selectRandomN draw msg.neuronIndexes numWinners

/-- Constructors of the group handlers sort the borders (message_handlers.h:109, 154). -/
def sortBorders (borders : List Nat) : List Nat := sortBy (fun a b => decide (a ≤ b)) borders

/-- `std::upper_bound(borders, spike) - begin` on sorted borders (message_handlers.cpp:93-94, 137-138). -/
def groupIndex (sorted : List Nat) (spike : Nat) : Nat :=
  (sorted.takeWhile (fun b => !decide (spike < b))).length

/-- `spikes_per_group[group_index].push_back(spike)` for all spikes (message_handlers.cpp:88-96, 134-140). -/
def fillGroups (sorted : List Nat) : List Nat → List (List Nat) → List (List Nat)
  | [], gs => gs
  | s :: ss, gs => fillGroups sorted ss (gs.modify (groupIndex sorted s) (· ++ [s]))

/-- The filled groups. -/
def groups (sorted : List Nat) (spikes : List Nat) : List (List Nat) :=
  fillGroups sorted spikes (List.replicate (sorted.length + 1) [])

/-- `GroupWtaRandomHandler::operator()` (message_handlers.cpp:69-123) on already sorted borders.
`spikes_per_group[num_winners_ - 1]` with zero winners is out of range: undefined. -/
def groupWta (sortFn : List (List Nat) → List (List Nat)) (shuffle : List (List Nat) → List (List Nat))
    (sorted : List Nat) (numWinners : Nat) (messages : List SpikeMessage) : Outcome (List Nat) :=
  match messages with
  | [] => .ok []
  | msg :: _ =>
    if sorted.length < numWinners then .ok msg.neuronIndexes
    else if msg.neuronIndexes.isEmpty then .ok []
    else
      let gs := sortFn (groups sorted msg.neuronIndexes)
      if numWinners = 0 then .ub
      else
        match gs[numWinners - 1]? with
        | none => .ub
        | some last =>
          -- std::equal_range by size, descending
          let before := gs.takeWhile (fun g => decide (last.length < g.length))
          let rest := gs.dropWhile (fun g => decide (last.length < g.length))
          let block := rest.takeWhile (fun g => !decide (g.length < last.length))
          let after := rest.dropWhile (fun g => !decide (g.length < last.length))
          .ok (((before ++ shuffle block ++ after).take numWinners).flatten)

/-- The loop of `KWtaPerGroup::operator()` over the groups (message_handlers.cpp:144-148); `draw g` are the
draws made for the `g`-th group. -/
def perGroupLoop (draw : Nat → Nat → Nat) (k : Nat) : Nat → List (List Nat) → List Nat → List Nat
  | _, [], result => result
  | g, grp :: gs, result => perGroupLoop draw k (g + 1) gs (result ++ selectRandomN (draw g) grp k)

/-- `KWtaPerGroup::operator()` (message_handlers.cpp:126-150) on sorted borders; `maxSize` is
`vector::max_size()`, a larger `reserve` throws. -/
def kWtaPerGroup (draw : Nat → Nat → Nat) (maxSize : Nat) (sorted : List Nat) (k : Nat)
    (messages : List SpikeMessage) : Outcome (List Nat) :=
  match messages with
  | [] => .ok []
  | msg :: _ =>
    if msg.neuronIndexes.isEmpty then .ok []
    else if maxSize < (sorted.length * k) % two64 then .throw "length_error"
    else .ok (perGroupLoop draw k 0 (groups sorted msg.neuronIndexes) [])

/-- `unordered_set::insert` of one element; iteration order is irrelevant to the theorems. -/
def insertNew (s : List Nat) (x : Nat) : List Nat := if x ∈ s then s else s ++ [x]

/-- `SpikeUnionHandler::operator()` (message_handlers.cpp:153-165). -/
def spikeUnion (messages : List SpikeMessage) : List Nat :=
  messages.foldl (fun s m => m.neuronIndexes.foldl insertNew s) []

end Knp.Handlers
