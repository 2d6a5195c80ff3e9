import Mathlib.Data.List.Dedup
import Mathlib.Data.List.Forall2
import Verif.Model.Cuda
import Verif.Spec.System

/-!
# What a run of the CUDA backend may do

No subscriptions, endpoints, routing, device memory or thread order: which messages each entity is given (as a multiset, the order is
not determined), what is computed from them, and what is sent to the host.  Projections are those of the single-threaded backend
(`Delta.stepSingle`, C42–C44); only the computation of a population is that of the CUDA model.
-/

namespace Knp.Spec
open Knp Knp.Cuda Knp.Neurons

variable {F : Type}

/-- A projection of the CPU backend that finds synapses in ascending order. -/
def ascending (synapses : List (Delta.Syn F)) : Delta.Proj F :=
  ⟨synapses, fun n => (synapses.zipIdx.filter (fun s => s.1.source == n)).map (·.2)⟩

/-- A message as it leaves the device in step `t`: the CPU backend leaves the step in which the message was begun in the header,
the device writes the step in which it is sent. -/
def stamp (t : Nat) (m : SynapticImpactMessage F) : SynapticImpactMessage F := { m with header := { m.header with sendTime := t } }

/-- The projection on the CPU that the loaded projection is compared to. -/
def cpuProj (j : Delta.Ident × List (Delta.Syn F)) : Sys.ProjSt F := ⟨{ j.1 with forced := true }, ascending j.2, []⟩

/-- How many different entities are connected to channel `c`. -/
def fanout (inputs : List (UID × UID)) (c : UID) : Nat := ((inputs.filter (fun i => i.2 == c)).map (·.1)).dedup.length

/-- The messages of the channels as they arrive on the device: each one as often as there are entities connected to its channel. -/
def deviceArrivals (inputs : List (UID × UID)) (ext : List (Message F)) : List SpikeMessage :=
  (Sys.spikesIn ext).flatMap (fun m => List.replicate (fanout inputs m.header.senderUid) m)

/-- Every population makes its step with what it is given. -/
def computePops [Arith F] (t : Nat) : List (Pop F) → List (List (SynapticImpactMessage F)) →
    Outcome (List (Pop F) × List (Option SpikeMessage))
  | [], _ => .ok ([], [])
  | p :: ps, gs =>
    match calcPop t p (gs.headD []) with
    | .ok r =>
      match computePops t ps gs.tail with
      | .ok q => .ok (r.1 :: q.1, r.2 :: q.2)
      | .throw w => .throw w
      | .ub => .ub
    | .throw w => .throw w
    | .ub => .ub

/-- An empty message of nobody. -/
def nobody : Message F := .spike ⟨⟨0, 0⟩, []⟩

/-- What the populations send to the host: their spike messages; in steps 0 and 1 also an empty message of nobody for each
population that did not spike. -/
def popsToHost (t : Nat) (spikes : List (Option SpikeMessage)) : List (Message F) :=
  spikes.filterMap (fun s => match s with
    | some m => some (.spike m)
    | none => if t ≤ 1 then some nobody else none)

/-- One step: `pending` are the impact messages of the step before, `ext` is what the rest of the program sent since. -/
structure DevStep [Arith F] (H : Hearing) (inputs : List (UID × UID)) (t : Nat) (pops pops' : List (Pop F)) (projs : List (Sys.ProjSt F))
    (pending : List (SynapticImpactMessage F)) (ext : List (Message F)) (o : Out F) : Prop where
  given : List.Forall₂ (fun p g => g.Perm (pending.filter (fun m => H.impact p.uid m.header.senderUid))) pops o.given
  computed : computePops t pops o.given = .ok (pops', o.spikes)
  heard : List.Forall₂ (fun j h => h.Perm ((deviceArrivals inputs ext ++ o.spikes.filterMap id).filter
    (fun m => H.spike j.ident.uid m.header.senderUid))) projs o.heard
  before : o.before = pending.map .impact
  after : o.after = pending.map .impact ++ popsToHost t o.spikes

/-- The projections after the step. -/
def projsAfter (t : Nat) (projs : List (Sys.ProjSt F)) (heard : List (List SpikeMessage)) : List (Sys.ProjSt F) :=
  List.zipWith (fun j h => (flowProj t j h).2) projs heard

/-- The impact messages of the step. -/
def sentImpacts (t : Nat) (projs : List (Sys.ProjSt F)) (heard : List (List SpikeMessage)) : List (SynapticImpactMessage F) :=
  (List.zipWith (fun j h => ((flowProj t j h).1.map (stamp t)).toList) projs heard).flatten

/-- The steps `os` are possible, from step `t` on, and end with populations and projections `fin`. -/
def DevRun [Arith F] (H : Hearing) (inputs : List (UID × UID)) : Nat → List (Pop F) → List (Sys.ProjSt F) →
    List (SynapticImpactMessage F) → List (List (Message F)) → List (Out F) → List (Pop F) × List (Sys.ProjSt F) → Prop
  | _, pops, projs, _, [], os, fin => os = [] ∧ fin = (pops, projs)
  | t, pops, projs, pending, ext :: exts, os, fin => ∃ o rest pops', os = o :: rest ∧
      DevStep H inputs t pops pops' projs pending ext o ∧
      DevRun H inputs (t + 1) pops' (projsAfter t projs o.heard) (sentImpacts t projs o.heard) exts rest fin

/-- No input channel is called like an entity of the network, or nil. -/
def Apart (pops : List (Pop F)) (projs : List (Delta.Ident × List (Delta.Syn F))) (inputs : List (UID × UID)) : Prop :=
  ∀ i ∈ inputs, i.2 ≠ 0 ∧ i.2 ∉ pops.map (·.uid) ∧ i.2 ∉ projs.map (·.1.uid)

/-- Neuron numbers fit into 32 bits. -/
def Fits (synapses : List (Delta.Syn F)) : Prop := ∀ s ∈ synapses, s.source < Delta.two32 ∧ s.target < Delta.two32

/-- The hearing of a network on the device. -/
def hearing (projs : List (Delta.Ident × List (Delta.Syn F))) (inputs : List (UID × UID)) : Hearing :=
  hearingOf (projs.map (fun j => (j.1, ascending j.2))) inputs

end Knp.Spec
