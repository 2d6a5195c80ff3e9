import Verif.Spec.Stdp

/-!
# The learning rule of one neuron

What training does to one neuron and the synapses that end in it, as one formula per stage, without projections, references and loops.
-/

namespace Knp.Spec.OneNeuron
open Knp Knp.Neurons Knp.Stdp Knp.Spec

variable {B F : Type}

/-- The trained synapses that end in neuron `i` of population `uid`: those of the unlocked projections that end in the population, in the order of the
projections and, in one projection, in the order of its lookup. -/
def incoming (uid : UID) (ps : List (RProj F)) (i : Nat) : List (RSyn F) :=
  ps.flatMap (fun p => if Trains uid p then (p.find i).filterMap (fun k => p.syns[k]?) else [])

/-- A neuron and the trained synapses that end in it. -/
abbrev Cell (B F : Type) := Res B F × List (RSyn F)

/-- The two members of the base neuron behave as members. -/
structure Lawful (bo : BaseOps B F) : Prop where
  getSet : ∀ b x, bo.additional (bo.setAdditional b x) = x
  setSet : ∀ b x y, bo.setAdditional (bo.setAdditional b x) y = bo.setAdditional b y
  dopamine : ∀ b x, bo.dopamine (bo.setAdditional b x) = bo.dopamine b

variable [Field F] [LinearOrder F]

/-- The synapse with another amount of resource, and the weight that belongs to it (C57). -/
def withResource (o : Ops F) (s : RSyn F) (x : F) : RSyn F :=
  { s with rule := { s.rule with resource := x }, weight := weightOf o { s.rule with resource := x } }

/-- The neuron's rule after the head of a spike: its place in the train (C59), and less stability if the train starts. -/
def headRule (dopamine : F) (step : Nat) (r : Rule F) : Rule F :=
  let h := updateIsi dopamine { r with lastSpikeStep := step } step
  if h.isi = .periodStarted then { h with stability := h.stability - h.stabilityAtIsi } else h

/-- Has the synapse contributed to the train, after a spike?  A recent spike of its source counts (C90); an earlier contribution counts only if the
train goes on. -/
def contributes (h : Rule F) (step : Nat) (s : RSyn F) : Bool :=
  hadSpike step s || (decide (h.isi = .periodContinued) && s.rule.hasContributed)

/-- Did the synapse have its Hebbian update in this train already? -/
def updated (h : Rule F) (s : RSyn F) : Bool := decide (h.isi = .periodContinued) && s.rule.hadHebbian

/-- The Hebbian gain of a synapse at a spike that is not forced. -/
def gain (o : Ops F) (h : Rule F) (step : Nat) (s : RSyn F) : F :=
  if contributes h step s = true ∧ updated h s = false then h.dH * min (o.pow2neg h.stability) 1 else 0

/-- A synapse after a spike of its target neuron: after a forced spike only the marks change; otherwise it loses `d_u` and gets the gain. -/
def spikedSyn (o : Ops F) (h : Rule F) (step : Nat) (s : RSyn F) : RSyn F :=
  let x := if h.isi = .isForced then s.rule.resource else s.rule.resource - s.rule.dU + gain o h step s
  { withResource o s x with
    rule := { s.rule with
      resource := x
      hasContributed := contributes h step s
      hadHebbian := if h.isi = .isForced then false else updated h s || contributes h step s } }

/-- The neuron: its additional threshold is a multiple of the sum of its positive weights before the spike; what the synapses gained is taken from
its free resource. -/
def spiked (o : Ops F) (bo : BaseOps B F) (step : Nat) (c : Cell B F) : Cell B F :=
  let h := headRule (bo.dopamine c.1.base) step c.1.rule
  ({ base := bo.setAdditional c.1.base ((c.2.map (fun s => max s.weight 0)).sum * c.1.rule.sumCoefficient)
     rule := { h with free := if h.isi = .isForced then h.free else h.free + (c.2.map (fun s => s.rule.dU - gain o h step s)).sum } },
   c.2.map (spikedSyn o h step))

/-- Does dopamine reach the synapse: the neuron spiked not long ago and the synapse contributed. -/
def eligible (step : Nat) (r : Rule F) (s : RSyn F) : Prop :=
  subU64 step r.lastSpikeStep ≤ r.plasticityTime ∧ s.rule.hasContributed = true

instance (step : Nat) (r : Rule F) (s : RSyn F) : Decidable (eligible step r s) := by unfold eligible; infer_instance

/-- Dopamine: every synapse it reaches gets the damped dopamine value, from the free resource; the stability changes (C84, C108).  Punishment of a
neuron in a forced train does nothing. -/
def rewarded (o : Ops F) (bo : BaseOps B F) (step : Nat) (c : Cell B F) : Cell B F :=
  let d := bo.dopamine c.1.base
  let r := c.1.rule
  let x := fun s => if eligible step r s then d * min (o.pow2neg r.stability) 1 else 0
  if d > 0 ∨ (d < 0 ∧ r.isi ≠ .isForced) then
    ({ c.1 with rule := { r with
        free := r.free - (c.2.map x).sum
        stability := if r.forced ∨ d < 0 then max (r.stability - d * r.stabilityChange) 0
          else r.stability + r.stabilityChange * d * rewardFactor o step r.firstIsiSpike r.isiMax } },
     c.2.map (fun s => withResource o s (s.rule.resource + x s)))
  else c

/-- Renormalisation: free resource is shared equally between the synapses and the drain, unless the neuron is in a train or has too little of it. -/
def shared (o : Ops F) (step : Nat) (c : Cell B F) : Cell B F :=
  let r := c.1.rule
  if (subU64 step r.lastStep ≤ r.isiMax ∧ r.isi ≠ .isForced) ∨ |r.free| < r.resourceThreshold then c
  else
    ({ c.1 with rule := { r with free := 0 } },
     c.2.map (fun s => withResource o s (s.rule.resource + divF o r.free ((c.2.length + r.drain : Nat) : F))))

/-- One training step of a neuron. -/
def learned (o : Ops F) (bo : BaseOps B F) (step : Nat) (spikes : Bool) (c : Cell B F) : Cell B F :=
  shared o step (rewarded o bo step (if spikes then spiked o bo step c else c))

end Knp.Spec.OneNeuron
