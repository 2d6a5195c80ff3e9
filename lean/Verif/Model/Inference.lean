import Verif.Model.Network
import Mathlib.Algebra.Order.Floor.Ring
import Mathlib.Algebra.Order.Field.Basic

/-!
# Building a network, and preparing it for inference

Models `/repo/examples/mnist-learn/models/{network_constructor.h, resource_from_weight.h, blifat/prepare_network_for_inference.cpp,
altai/prepare_network_for_inference.cpp}`.  UIDs are numbers; 0 is the empty one, `fresh`, `fresh + 1`, … have not been given to anything.
Numbers (`float`, `double`) are elements of an ordered field: their rounding is not modelled.
-/

namespace Knp.Infer
open Knp

/-! ## Building -/

/-- `PopulationInfo` (network_constructor.h:66-88); the role, the number of neurons and the name are not used by the code modelled here. -/
structure Info where
  keep : Bool
  uid : UID
deriving Repr, DecidableEq

/-- `NetworkConstructor` and the part of `AnnotatedNetwork` it writes (network_constructor.h:103-202, annotated_network.h:36-93). -/
structure Builder (P J : Type) where
  network : Network P J
  keepPops : List UID
  keepProjs : List UID
  outputs : List UID
  infos : List Info
  fresh : Nat

/-- A new network (altai/construct_network.cpp:203-204). -/
def Builder.new {P J : Type} (fresh : Nat) : Builder P J := ⟨⟨[], []⟩, [], [], [], [], fresh⟩

/-- What a program does with a constructor.  Populations are named by the order in which they were added. -/
inductive Op (P J : Type) where
  | population (output keep : Bool) (kind : Nat) (body : P)
  | channeled (keep : Bool)
  | projection (pre post : Nat) (kind : Nat) (body : J) (wta : Bool)

/-- `add_population` (network_constructor.h:133-145), `add_channeled_population` (l. 159-163), `add_projection` (l. 184-197). -/
def Builder.step {P J : Type} (b : Builder P J) : Op P J → Builder P J
  | .population output keep kind body =>
    { b with
      network := { b.network with populations := b.network.populations ++ [⟨b.fresh, kind, body⟩] }
      keepPops := if keep then b.keepPops ++ [b.fresh] else b.keepPops
      outputs := if output then b.outputs ++ [b.fresh] else b.outputs
      infos := b.infos ++ [⟨keep, b.fresh⟩]
      fresh := b.fresh + 1 }
  | .channeled keep => { b with infos := b.infos ++ [⟨keep, 0⟩] }
  | .projection pre post kind body wta =>
    match b.infos[pre]?, b.infos[post]? with
    | some x, some y =>
      { b with
        network := { b.network with projections := b.network.projections ++ [⟨b.fresh, if wta then 0 else x.uid, y.uid, kind, body⟩] }
        keepProjs := if x.keep && y.keep then b.keepProjs ++ [b.fresh] else b.keepProjs
        fresh := b.fresh + 1 }
    | _, _ => b

/-- A history of calls. -/
def Builder.run {P J : Type} (b : Builder P J) (ops : List (Op P J)) : Builder P J := ops.foldl Builder.step b

/-- `prepare_network_for_inference` for BLIFAT (blifat/prepare_network_for_inference.cpp:31-60) and the first part of that for AltAI
(altai/prepare_network_for_inference.cpp:110-135): `trained` is what the backend holds. -/
def restore {P J : Type} (keepPops keepProjs : List UID) (trained : Network P J) : Network P J :=
  ⟨trained.populations.filter (fun p => keepPops.contains p.uid), trained.projections.filter (fun j => keepProjs.contains j.uid)⟩

/-! ## Winner takes all -/

/-- One replacement (altai/prepare_network_for_inference.cpp:38-50): the copy has a new UID and the sender as its source. -/
def replaceOne {P J : Type} (st : Network P J × Nat) (sr : UID × UID) : Outcome (Network P J × Nat) :=
  (st.1.getProjection sr.2).bind fun j =>
  (st.1.removeProjection sr.2).bind fun n =>
  (n.addProjectionVariant { j with uid := st.2, pre := sr.1 }).bind fun n => .ok (n, st.2 + 1)

/-- The loop over receivers (l. 36-51). -/
def replaceReceivers {P J : Type} (sender : UID) : List UID → Network P J × Nat → Outcome (Network P J × Nat)
  | [], st => .ok st
  | r :: rs, st => (replaceOne st (sender, r)).bind (replaceReceivers sender rs)

/-- The loop over senders (l. 34-52). -/
def replaceSenders {P J : Type} (receivers : List UID) : List UID → Network P J × Nat → Outcome (Network P J × Nat)
  | [], st => .ok st
  | s :: ss, st => (replaceReceivers s receivers st).bind (replaceSenders receivers ss)

/-- `replace_wta_with_projections` (altai/prepare_network_for_inference.cpp:30-55). -/
def replaceWta {P J : Type} : List (List UID × List UID) → Network P J × Nat → Outcome (Network P J × Nat)
  | [], st => .ok st
  | w :: ws, st => (replaceSenders w.2 w.1 st).bind (replaceWta ws)

/-! ## Quantisation -/

/-- A neuron of an AltAI population (altai_lif.h:264-351); `rest` is everything quantisation does not touch. -/
structure Neuron (F R : Type) where
  activation : Nat
  additional : F
  rest : R
deriving Repr, DecidableEq

/-- A synapse; `rest` is everything but its weight. -/
structure Syn (F S : Type) where
  weight : F
  rest : S
deriving Repr, DecidableEq

variable {F R S : Type} [Field F] [LinearOrder F] [FloorRing F]

/-- Conversion of a floating-point value to `uint16_t`: truncation, undefined if the result is outside the type. -/
def toU16 (x : F) : Outcome Nat := if -1 < x ∧ x < 65536 then .ok (⌊x⌋.toNat) else .ub

/-- `std::round`: the nearest integer, halves away from zero. -/
def round (x : F) : F := if 0 ≤ x then (⌊x + 1 / 2⌋ : F) else (-⌊-x + 1 / 2⌋ : F)

/-- `max_weight` (altai/prepare_network_for_inference.cpp:66-70). -/
def maxWeight (l : List (Syn F S)) : F := l.foldl (fun m s => if m < s.weight then s.weight else m) 0

/-- `min_weight` (l. 66-71). -/
def minWeight (l : List (Syn F S)) : F := l.foldl (fun m s => if m > s.weight then s.weight else m) 0

/-- `max_threshold` (l. 78-81). -/
def maxThreshold (l : List (Neuron F R)) : Outcome Nat :=
  l.foldlM (fun m n => (toU16 ((n.activation : F) + n.additional)).bind fun t => .ok (max m t)) 0

/-- `total_max` (l. 83-84). -/
def totalMax (syns : List (Syn F S)) (threshold : Nat) : F := max (max |maxWeight syns| |minWeight syns|) (threshold : F)

/-- The loop over synapses (l. 87-92). -/
def scaleSyns (scale : F) (l : List (Syn F S)) : List (Syn F S) := l.map (fun s => { s with weight := round (s.weight * scale) })

/-- The loop over neurons (l. 94-98): `activation_threshold_` is a `uint16_t`. -/
def scaleNeurons (scale : F) : List (Neuron F R) → Outcome (List (Neuron F R))
  | [] => .ok []
  | n :: l => (toU16 ((n.activation : F) * scale)).bind fun a => (scaleNeurons scale l).bind fun l' => .ok (⟨a, n.additional * scale, n.rest⟩ :: l')

/-- Replaces the first population with the given UID: what `get_population` refers to (network.cpp:82-101, 172-184). -/
def setNeurons {P : Type} (u : UID) (body : P) : List (PopEntity P) → List (PopEntity P)
  | [] => []
  | p :: l => if p.uid == u then { p with body := body } :: l else p :: setNeurons u body l

/-- One projection (l. 64-99); `altai` is the type the population must have.  255/0 is infinite: a weight, which is 0 then, becomes a NaN, written
`nan` here, and so does a threshold, whose conversion is undefined. -/
def quantizeOne (nan : F) (altai : Nat) (pops : List (PopEntity (List (Neuron F R)))) (j : ProjEntity (List (Syn F S))) :
    Outcome (List (PopEntity (List (Neuron F R))) × ProjEntity (List (Syn F S))) :=
  (Network.getPopulationTyped (J := List (Syn F S)) ⟨pops, []⟩ altai j.post).bind fun p =>
  (maxThreshold p.body).bind fun t =>
  if totalMax j.body t = 0 then
    match p.body with
    | [] => .ok (pops, { j with body := j.body.map (fun s => { s with weight := nan }) })
    | _ :: _ => .ub
  else
    (scaleNeurons (255 / totalMax j.body t) p.body).bind fun ns =>
    .ok (setNeurons j.post ns pops, { j with body := scaleSyns (255 / totalMax j.body t) j.body })

/-- `quantize_network` (l. 59-102): the loop over projections. -/
def quantizeLoop (nan : F) (altai : Nat) : List (ProjEntity (List (Syn F S))) → List (PopEntity (List (Neuron F R))) →
    Outcome (List (PopEntity (List (Neuron F R))) × List (ProjEntity (List (Syn F S))))
  | [], pops => .ok (pops, [])
  | j :: js, pops => (quantizeOne nan altai pops j).bind fun r => (quantizeLoop nan altai js r.1).bind fun q => .ok (q.1, r.2 :: q.2)

/-- `quantize_network` on the network. -/
def quantize (nan : F) (altai : Nat) (n : Network (List (Neuron F R)) (List (Syn F S))) : Outcome (Network (List (Neuron F R)) (List (Syn F S))) :=
  (quantizeLoop nan altai n.projections n.populations).bind fun q => .ok ⟨q.1, q.2⟩

/-! ## The resource of a synapse -/

omit [FloorRing F] in
/-- `resource_from_weight` (resource_from_weight.h:50-62); `eps` is 10⁻⁶. -/
def resourceFromWeight (eps w lo hi : F) : Outcome F :=
  let (lo, hi) := if hi < lo then (hi, lo) else (lo, hi)
  if w < lo ∨ hi - eps ≤ w then .throw "Weight should not be less than the minimum, more than the maximum or too close to it"
  else .ok ((w - lo) * (hi - lo) / ((hi - lo) - (w - lo)))

end Knp.Infer
