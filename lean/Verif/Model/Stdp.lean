import Verif.Model.Neurons
import Verif.Model.Delta
import Mathlib.Algebra.Order.Field.Basic

/-!
# Synaptic-resource STDP and additive STDP

Models (paths under knp/backends/cpu/cpu-library/include/knp/backends/cpu-library/)
`impl/populations/training/stdp.h`, `impl/populations/blifat/blifat_stdp.h` (and `impl/populations/altai/altai_stdp.h`,
the same text for the other base neuron), `populations_old.h:57-83` and
`impl/projections/training/stdp/additive_stdp.h`.

Simplifications.  `float`/`double` are an ordered field `F`: rounding is not modelled.  Division by zero is kept
apart (`Ops.divZero` is an arbitrary function, the theorems hold for every choice of it) and `std::pow(2, -x)`,
`std::exp` are arbitrary functions.
-/

namespace Knp.Stdp
open Knp Knp.Neurons

/-- What the model leaves open: `std::pow(2, -x)`, `std::exp` and the value of a division by zero. -/
structure Ops (F : Type) where
  pow2neg : F → F
  exp : F → F
  divZero : F → F

/-- The base-neuron members training touches: `dopamine_value_`, `additional_threshold_` (blifat.h, altai_lif.h). -/
structure BaseOps (B F : Type) where
  dopamine : B → F
  additional : B → F
  setAdditional : B → F → B

/-- `STDPSynapticResourceRule` (knp/synapse-traits-library/include/knp/synapse-traits/
stdp_synaptic_resource_rule.h:43-88). -/
structure SynRule (F : Type) where
  resource : F
  wMin : F
  wMax : F
  dU : F
  period : Nat
  lastSpikeStep : Nat
  hadHebbian : Bool
  hasContributed : Bool
deriving Repr, DecidableEq

/-- A `SynapticResourceSTDPDeltaSynapse` with its end points (delta.h:70-92, stdp_common.h). -/
structure RSyn (F : Type) where
  source : Nat
  target : Nat
  weight : F
  delay : Nat
  outType : OutputType
  rule : SynRule F
deriving Repr, DecidableEq

/-- A resource-STDP projection as training sees it: UID, postsynaptic UID, lock, synapses, and the answer of
`find_synapses(n, by_postsynaptic)`. -/
structure RProj (F : Type) where
  uid : UID
  post : UID
  locked : Bool
  syns : List (RSyn F)
  find : Nat → List Nat

/-- A `reference_wrapper` to a synapse: number of the projection, index in it. -/
abbrev Ref := Nat × Nat

section
variable {F : Type}

/-- Dereference. -/
def getAt (ps : List (RProj F)) (r : Ref) : Option (RSyn F) := (ps[r.1]?).bind (fun p => p.syns[r.2]?)

/-- Write through a reference. -/
def setAt (ps : List (RProj F)) (r : Ref) (s : RSyn F) : List (RProj F) :=
  ps.modify r.1 (fun p => { p with syns := p.syns.set r.2 s })

/-- Is a projection in the working set of a population?  (populations_old.h:64-81 with `exclude_locked`;
cpu-multi-threaded-backend/impl/backend.cpp:176-185.)  Projections of other types are not in the list. -/
def isWorking (uid : UID) (p : RProj F) : Bool := !p.locked && p.post == uid

/-- The positions of the working projections, in order. -/
def working (uid : UID) (ps : List (RProj F)) : List Nat :=
  (List.range ps.length).filter (fun i => match ps[i]? with | some p => isWorking uid p | none => false)

/-- `get_all_connected_synapses` (stdp.h:64-78).  The lookup is a function of the end points only, which training
never writes, so the model evaluates it against the projections at the start of the call. -/
def connected (uid : UID) (ps : List (RProj F)) (n : Nat) : List Ref :=
  (working uid ps).flatMap (fun i => match ps[i]? with | some p => (p.find n).map (fun k => (i, k)) | none => [])

variable {N : Type}

/-- One iteration of `for (auto &synapse : synapse_params)`; the body may change the neuron and the synapse.
References come from `find_synapses` and are valid; an invalid one is skipped here. -/
def eachStep (f : N → RSyn F → N × RSyn F) (st : N × List (RProj F)) (r : Ref) : N × List (RProj F) :=
  match getAt st.2 r with
  | none => st
  | some s => ((f st.1 s).1, setAt st.2 r (f st.1 s).2)

/-- The loop. -/
def each (f : N → RSyn F → N × RSyn F) (refs : List Ref) (st : N × List (RProj F)) : N × List (RProj F) :=
  refs.foldl (eachStep f) st

variable [Field F] [LinearOrder F]

/-- Division with the zero case kept apart. -/
def divF (o : Ops F) (a b : F) : F := if b = 0 then o.divZero a else a / b

/-- stdp.h:48-51. -/
def weightOf (o : Ops F) (r : SynRule F) : F :=
  r.wMin + divF o ((r.wMax - r.wMin) * max r.resource 0) ((r.wMax - r.wMin) + max r.resource 0)

/-- The body of `recalculate_synapse_weights` (stdp.h:46-52). -/
def recalc (o : Ops F) (n : N) (s : RSyn F) : N × RSyn F := (n, { s with weight := weightOf o s.rule })

variable {B : Type}

/-- `update_isi` (stdp.h:89-126). The subtraction `last_step_ - step` is unsigned. -/
def updateIsi (dopamine : F) (r : Rule F) (step : Nat) : Rule F :=
  if r.forced then { r with isi := .isForced }
  else match r.isi with
    | .notInPeriod | .isForced => { r with isi := .periodStarted, firstIsiSpike := step, lastStep := step }
    | .periodStarted =>
      if subU64 r.lastStep step < r.isiMax then { r with isi := .periodContinued, lastStep := step }
      else { r with lastStep := step }
    | .periodContinued =>
      if subU64 r.lastStep step ≥ r.isiMax ∨ dopamine ≠ 0 then
        { r with isi := .periodStarted, firstIsiSpike := step, lastStep := step }
      else { r with lastStep := step }

/-- `is_point_in_interval` (stdp.h:136-140). -/
def inInterval (b e x : Nat) : Bool :=
  if b > e then decide (e ≤ x) && decide (x ≤ b) else decide (b ≤ x) && decide (x ≤ e)

/-- `had_spike` (blifat_stdp.h:58-60); all arithmetic unsigned 64 bit. -/
def hadSpike (step : Nat) (s : RSyn F) : Bool :=
  inInterval (subU64 step s.rule.period) step (subU64 (addU64 s.rule.lastSpikeStep s.delay) 1)

/-- `min(pow(2, -stability), 1)`. -/
def damping (o : Ops F) (stability : F) : F := min (o.pow2neg stability) 1

/-- First part of the body (blifat_stdp.h:48-53). -/
def spikeHead (bo : BaseOps B F) (step : Nat) (n : Res B F) : Res B F :=
  let r := updateIsi (bo.dopamine n.base) { n.rule with lastSpikeStep := step } step
  { base := bo.setAdditional n.base 0
    rule := if r.isi = .periodStarted then { r with stability := r.stability - r.stabilityAtIsi } else r }

/-- blifat_stdp.h:61-65, with `had_spike` computed. -/
def contribute (isi : Isi) (had : Bool) (s : RSyn F) : RSyn F :=
  if isi ≠ .periodContinued ∨ had = true then { s with rule := { s.rule with hasContributed := had } } else s

/-- blifat_stdp.h:57-65. -/
def markSyn (bo : BaseOps B F) (step : Nat) (n : Res B F) (s : RSyn F) : Res B F × RSyn F :=
  ({ n with base := bo.setAdditional n.base (bo.additional n.base + (if s.weight > 0 then s.weight else 0)) },
   contribute n.rule.isi (hadSpike step s) s)

/-- blifat_stdp.h:67. -/
def scaleAdditional (bo : BaseOps B F) (n : Res B F) : Res B F :=
  { n with base := bo.setAdditional n.base (bo.additional n.base * n.rule.sumCoefficient) }

/-- blifat_stdp.h:70-76. -/
def resetHebb (n : Res B F) (s : RSyn F) : Res B F × RSyn F :=
  (n, if n.rule.isi ≠ .periodContinued then { s with rule := { s.rule with hadHebbian := false } } else s)

/-- Move `x` units of resource from the neuron's free pool to the synapse. -/
def move (x : F) (n : Res B F) (s : RSyn F) : Res B F × RSyn F :=
  ({ n with rule := { n.rule with free := n.rule.free - x } },
   { s with rule := { s.rule with resource := s.rule.resource + x } })

/-- blifat_stdp.h:85-86. -/
def decay (n : Res B F) (s : RSyn F) : Res B F × RSyn F :=
  ({ n with rule := { n.rule with free := n.rule.free + s.rule.dU } },
   { s with rule := { s.rule with resource := s.rule.resource - s.rule.dU } })

/-- blifat_stdp.h:89-97. -/
def hebb (o : Ops F) (n : Res B F) (s : RSyn F) : Res B F × RSyn F :=
  if s.rule.hasContributed ∧ s.rule.hadHebbian = false then
    let ns := move (n.rule.dH * damping o n.rule.stability) n s
    (ns.1, { ns.2 with rule := { ns.2.rule with hadHebbian := true } })
  else (n, s)

/-- blifat_stdp.h:79-99. -/
def plastic (o : Ops F) (n : Res B F) (s : RSyn F) : Res B F × RSyn F :=
  if n.rule.isi ≠ .isForced then
    let ns := decay n s
    hebb o ns.1 ns.2
  else (n, s)

/-- The body of the loop over spiked neurons (blifat_stdp.h:45-101). -/
def processNeuron (o : Ops F) (bo : BaseOps B F) (step : Nat) (refs : List Ref) (st : Res B F × List (RProj F)) :
    Res B F × List (RProj F) :=
  let st1 := each (markSyn bo step) refs (spikeHead bo step st.1, st.2)
  let st2 := each resetHebb refs (scaleAdditional bo st1.1, st1.2)
  let st3 := each (plastic o) refs st2
  each (recalc o) refs st3

/-- The state training works on: the neurons of one population and all resource projections of the backend. -/
structure State (B F : Type) where
  neurons : List (Res B F)
  projs : List (RProj F)

/-- Apply a function to neuron `i` and the projections. `population[i]` outside the population is undefined. -/
def onNeuron (g : Res B F × List (RProj F) → Res B F × List (RProj F)) (st : State B F) (i : Nat) :
    Outcome (State B F) :=
  match st.neurons[i]? with
  | none => .ub
  | some n =>
    let r := g (n, st.projs)
    .ok { neurons := st.neurons.set i r.1, projs := r.2 }

/-- `process_spiking_neurons_impl` (blifat_stdp.h:36-103). -/
def processSpikes (o : Ops F) (bo : BaseOps B F) (step : Nat) (conn : Nat → List Ref) (spikes : List Nat)
    (st : State B F) : Outcome (State B F) :=
  spikes.foldlM (fun s i => onNeuron (processNeuron o bo step (conn i)) s i) st

/-- blifat_stdp.h:123-136. -/
def dopSyn (o : Ops F) (bo : BaseOps B F) (step : Nat) (n : Res B F) (s : RSyn F) : Res B F × RSyn F :=
  if subU64 step n.rule.lastSpikeStep ≤ n.rule.plasticityTime ∧ s.rule.hasContributed = true then
    move (bo.dopamine n.base * damping o n.rule.stability) n s
  else (n, s)

/-- blifat_stdp.h:148-150: `step - first_isi_spike_ - isi_max_` is unsigned. -/
def rewardFactor (o : Ops F) (step first isiMax : Nat) : F :=
  max (2 - divF o ((subU64 (subU64 step first) isiMax : Nat) : F) (isiMax : F)) (-1)

/-- blifat_stdp.h:138-151. -/
def dopStability (o : Ops F) (bo : BaseOps B F) (step : Nat) (n : Res B F) : Res B F :=
  let d := bo.dopamine n.base
  if n.rule.forced ∨ d < 0 then
    { n with rule := { n.rule with stability := max (n.rule.stability - d * n.rule.stabilityChange) 0 } }
  else
    { n with rule := { n.rule with stability := n.rule.stability +
        n.rule.stabilityChange * d * rewardFactor o step n.rule.firstIsiSpike n.rule.isiMax } }

/-- The body of the loop of `do_dopamine_plasticity_impl` (blifat_stdp.h:115-153). -/
def dopNeuron (o : Ops F) (bo : BaseOps B F) (step : Nat) (refs : List Ref) (st : Res B F × List (RProj F)) :
    Res B F × List (RProj F) :=
  let d := bo.dopamine st.1.base
  if d > 0 ∨ (d < 0 ∧ st.1.rule.isi ≠ .isForced) then
    let st1 := each (dopSyn o bo step) refs st
    each (recalc o) refs (dopStability o bo step st1.1, st1.2)
  else st

/-- stdp.h:178-181 for one synapse. -/
def addResource (x : F) (n : Res B F) (s : RSyn F) : Res B F × RSyn F :=
  (n, { s with rule := { s.rule with resource := s.rule.resource + x } })

/-- Does `renormalize_resource` skip the neuron? (stdp.h:160-170) -/
def renormSkips (step : Nat) (r : Rule F) : Prop :=
  (subU64 step r.lastStep ≤ r.isiMax ∧ r.isi ≠ .isForced) ∨ |r.free| < r.resourceThreshold

instance (step : Nat) (r : Rule F) : Decidable (renormSkips step r) := by unfold renormSkips; infer_instance

/-- The body of the loop of `renormalize_resource` (stdp.h:159-184). -/
def renormNeuron (o : Ops F) (step : Nat) (refs : List Ref) (st : Res B F × List (RProj F)) :
    Res B F × List (RProj F) :=
  if renormSkips step st.1.rule then st
  else
    let x := divF o st.1.rule.free ((refs.length + st.1.rule.drain : Nat) : F)
    let st1 := each (addResource x) refs st
    each (recalc o) refs ({ st1.1 with rule := { st1.1.rule with free := 0 } }, st1.2)

/-- A loop over all neurons of the population (blifat_stdp.h:113, stdp.h:157). -/
def allNeurons (g : Nat → Res B F × List (RProj F) → Res B F × List (RProj F)) (st : State B F) :
    Outcome (State B F) :=
  (List.range st.neurons.length).foldlM (fun s i => onNeuron (g i) s i) st

/-- `train_population_impl` (blifat_stdp.h:158-172) together with the choice of the working projections
(populations_old.h:57-83, multi-threaded backend.cpp:169-190). -/
def train (o : Ops F) (bo : BaseOps B F) (uid : UID) (spikes : List Nat) (step : Nat) (st : State B F) :
    Outcome (State B F) := do
  let conn := connected uid st.projs
  let st1 ← processSpikes o bo step conn spikes st
  let st2 ← allNeurons (fun i => dopNeuron o bo step (conn i)) st1
  allNeurons (fun i => renormNeuron o step (conn i)) st2

/-- All trained populations of a backend (UID and neurons) and its resource projections. -/
structure Backend (B F : Type) where
  pops : List (UID × List (Res B F))
  projs : List (RProj F)

/-- The training task of population number `k` (multi-threaded backend.cpp:169-190; in the single-threaded backend
the call in `calculate_populations`). -/
def trainPop (o : Ops F) (bo : BaseOps B F) (step : Nat) (spikes : Nat → List Nat) (be : Backend B F) (k : Nat) :
    Outcome (Backend B F) :=
  match be.pops[k]? with
  | none => .ok be
  | some (uid, ns) => do
    let st ← train o bo uid (spikes k) step ⟨ns, be.projs⟩
    pure ⟨be.pops.set k (uid, st.neurons), st.projs⟩

/-- The training tasks in the order in which they run (multi-threaded backend.cpp:164-199). -/
def trainAll (o : Ops F) (bo : BaseOps B F) (step : Nat) (spikes : Nat → List Nat) (order : List Nat)
    (be : Backend B F) : Outcome (Backend B F) :=
  order.foldlM (trainPop o bo step spikes) be

/-- The base operations of a BLIFAT neuron. -/
def blifatOps : BaseOps (Blifat F) F :=
  ⟨fun b => b.dopamine, fun b => b.additional, fun b x => { b with additional := x }⟩

/-- The base operations of an AltAI neuron. -/
def altaiOps : BaseOps (AltAi F) F :=
  ⟨fun b => b.dopamine, fun b => b.additional, fun b x => { b with additional := x }⟩

/-! ## Additive STDP -/

/-- `ProcessingType` of the shared parameters (knp/synapse-traits-library). -/
inductive Processing where
  | stdpOnly | stdpAndSpike
deriving Repr, DecidableEq

/-- An `AdditiveSTDPDeltaSynapse` (stdp_add_rule.h:40-67). -/
structure ASyn (F : Type) where
  source : Nat
  target : Nat
  weight : F
  delay : Nat
  outType : OutputType
  tauPlus : F
  tauMinus : F
  preTimes : List Nat
  postTimes : List Nat
deriving Repr, DecidableEq

/-- A projection of such synapses, with the lookup by postsynaptic neuron. -/
structure AProj (F : Type) where
  locked : Bool
  stdpPops : List (UID × Processing)
  syns : List (ASyn F)
  findPost : Nat → List Nat

/-- `stdp_w` (additive_stdp.h:50-55). -/
def stdpW (o : Ops F) (tauPlus tauMinus aPlus aMinus d : F) : F :=
  if d > 0 then aPlus * o.exp (divF o (-d) tauPlus) else aMinus * o.exp (divF o d tauMinus)

/-- `stdp_delta_w` (additive_stdp.h:57-76); `t_n - t_f` is unsigned. -/
def stdpDelta (o : Ops F) (tauPlus tauMinus aPlus aMinus : F) (pre post : List Nat) : F :=
  (pre.map (fun tf => (post.map (fun tn => stdpW o tauPlus tauMinus aPlus aMinus ((subU64 tn tf : Nat) : F))).sum)).sum

/-- Which queue is appended to. -/
inductive Which where
  | pre | post
deriving Repr, DecidableEq

/-- additive_stdp.h:106-111 for one synapse. -/
def pushTime (w : Which) (t : Nat) (s : ASyn F) : ASyn F :=
  match w with
  | .pre => if ((s.preTimes.length : Nat) : F) < s.tauMinus + s.tauPlus then { s with preTimes := s.preTimes ++ [t] } else s
  | .post => if ((s.postTimes.length : Nat) : F) < s.tauMinus + s.tauPlus then { s with postTimes := s.postTimes ++ [t] } else s

/-- `append_spike_times` (additive_stdp.h:93-114). -/
def appendTimes (w : Which) (getter : Nat → List Nat) (m : SpikeMessage) (syns : List (ASyn F)) : List (ASyn F) :=
  m.neuronIndexes.foldl (fun ss n => (getter n).foldl (fun ss' k => ss'.modify k (pushTime w m.header.sendTime)) ss) syns

/-- `stdp_pops.find(sender)` (additive_stdp.h:136). -/
def processingOf (pops : List (UID × Processing)) (u : UID) : Option Processing :=
  (pops.find? (fun e => e.1 == u)).map (fun e => e.2)

/-- One message in the loop of `init_projection` (additive_stdp.h:134-169): the projection and the message after. -/
def initMessage (p : AProj F) (m : SpikeMessage) : AProj F × SpikeMessage :=
  match processingOf p.stdpPops m.header.senderUid with
  | none => (p, m)
  | some .stdpOnly => ({ p with syns := appendTimes .post p.findPost m p.syns }, { m with neuronIndexes := [] })
  | some .stdpAndSpike =>
    ({ p with syns := appendTimes .pre p.findPost m (appendTimes .post p.findPost m p.syns) }, m)

/-- `init_projection` (additive_stdp.h:117-170). -/
def initProjection (p : AProj F) : List SpikeMessage → AProj F × List SpikeMessage
  | [] => (p, [])
  | m :: ms =>
    let r := initMessage p m
    let rs := initProjection r.1 ms
    (rs.1, r.2 :: rs.2)

/-- The body of `modify_weights` (additive_stdp.h:181-194). -/
def modifyWeight (o : Ops F) (s : ASyn F) : ASyn F :=
  if ((s.preTimes.length : Nat) : F) ≥ s.tauPlus + s.tauMinus ∧ ((s.postTimes.length : Nat) : F) ≥ s.tauPlus + s.tauMinus then
    { s with weight := s.weight + stdpDelta o s.tauPlus s.tauMinus 1 1 s.preTimes s.postTimes
             preTimes := []
             postTimes := [] }
  else s

/-- The training part of one step of an additive-STDP projection: `init_projection`, (spike processing, which does not
touch weights), `modify_weights` (delta_impl.h; additive_stdp.h:173-196). -/
def additiveStep (o : Ops F) (p : AProj F) (msgs : List SpikeMessage) : AProj F :=
  let q := (initProjection p msgs).1
  { q with syns := q.syns.map (modifyWeight o) }

end
end Knp.Stdp
