import Verif.Model.Messages
import Verif.Model.Delta

/-!
# Neurons and population steps

Models `knp/backends/cpu/cpu-library/include/knp/backends/cpu-library/`
`impl/populations/{lif/lif_impl.h, blifat/blifat_impl.h, altai/altai_impl.h}`, `populations.h`,
`populations_old.h` and the population half of the multi-threaded backend.

Arithmetic is uninterpreted: `Arith F` names the operations the code uses, without laws, so the theorems
hold for IEEE arithmetic with its rounding, infinities and NaN.  Simplification: `float` and `double` are one
carrier (a conversion `float → double` is exact, and where the code narrows – the AltAI potential – the narrowing
belongs to the uninterpreted operation).
-/

namespace Knp.Neurons
open Knp

/-- The arithmetic the neuron code uses.  `toI64` is `static_cast<int64_t>`: `none` where the value does not fit
(undefined behaviour).  `signbit`, `abs`, `round` are those of `<cmath>`. -/
class Arith (F : Type) extends Add F, Sub F, Mul F, Neg F, Zero F, One F where
  lt : F → F → Bool
  le : F → F → Bool
  ofInt : Int → F
  toI64 : F → Option Int
  signbit : F → Bool
  abs : F → F
  round : F → F

/-- Exact integer arithmetic as one instance (used in examples only). -/
instance : Arith Int where
  lt a b := decide (a < b)
  le a b := decide (a ≤ b)
  ofInt a := a
  toI64 a := if -(2 ^ 63) ≤ a ∧ a < 2 ^ 63 then some a else none
  signbit a := decide (a < 0)
  abs a := a.natAbs
  round a := a

/-- `std::numeric_limits<int64_t>::max()`. -/
def i64max : Int := 9223372036854775807

/-- The three functions a neuron type provides (population_dispatcher.h:43-86). -/
structure Kind (N F : Type) where
  pre : N → N
  impact : N → SynapticImpact F → Bool → Outcome N
  post : N → N × Bool

/-! ## LIF -/

/-- knp/neuron-traits-library/include/knp/neuron-traits/lif.h:91-117. -/
structure Lif (F : Type) where
  potential : F
  resetValue : F
  threshold : F
  leak : F
  counter : Nat
  period : Nat
deriving Repr, DecidableEq

section
variable {F : Type} [Arith F]

/-- lif_impl.h:33-40. -/
def lifPre (n : Lif F) : Lif F :=
  if n.counter = 0 then { n with potential := n.potential * n.leak } else n

/-- lif_impl.h:43-66. -/
def lifImpact (n : Lif F) (i : SynapticImpact F) (_forcing : Bool) : Outcome (Lif F) :=
  match i.synapseType with
  | .excitatory => .ok (if n.counter = 0 then { n with potential := n.potential + i.impactValue } else n)
  | .inhibitoryCurrent => .ok (if n.counter = 0 then { n with potential := n.potential - i.impactValue } else n)
  | _ => .throw "Unhandled synapse type."

/-- lif_impl.h:69-86; `--refract_counter_` is only reached with a non-zero counter. -/
def lifPost (n : Lif F) : Lif F × Bool :=
  if n.counter = 0 then
    if Arith.lt n.threshold n.potential then
      ({ n with potential := n.resetValue, counter := n.period }, true)
    else (n, false)
  else ({ n with counter := n.counter - 1 }, false)

/-- lif_dispatcher.h:37-67. -/
def lif : Kind (Lif F) F := ⟨lifPre, lifImpact, lifPost⟩

/-! ## BLIFAT -/

/-- knp/neuron-traits-library/include/knp/neuron-traits/blifat.h:213-342 (without the unused
`stochastic_stimulation_` and `random_number_generator_state_`). -/
structure Blifat (F : Type) where
  sinceFiring : Nat
  activation : F
  additional : F
  dynamic : F
  thresholdDecay : F
  thresholdIncrement : F
  trace : F
  traceDecay : F
  traceIncrement : F
  conductance : F
  conductanceDecay : F
  potential : F
  preImpact : F
  potentialDecay : F
  burstingPhase : Nat
  burstingPeriod : Nat
  reflexive : F
  reversal : F
  refractory : Nat
  resetValue : F
  minPotential : F
  blocking : Int
  dopamine : F
deriving Repr, DecidableEq

/-- The part shared by both variants: counter and decays (blifat_impl.h:34-39 and 53-61). -/
def blifatDecay (n : Blifat F) : Blifat F :=
  { n with
    sinceFiring := addU64 n.sinceFiring 1
    dynamic := n.dynamic * n.thresholdDecay
    trace := n.trace * n.traceDecay
    conductance := n.conductance * n.conductanceDecay
    potential := n.potential * n.potentialDecay }

/-- The last line of both variants (blifat_impl.h:46 and 64). -/
def blifatSave (n : Blifat F) : Blifat F := { n with preImpact := n.potential }

/-- blifat_impl.h:40-44. -/
def blifatBurst (n : Blifat F) : Blifat F :=
  if n.burstingPhase = 1 then
    { n with burstingPhase := n.burstingPhase - 1, potential := n.potential + n.reflexive }
  else n

/-- blifat_impl.h:31-47. -/
def blifatPre (n : Blifat F) : Blifat F := blifatSave (blifatBurst (blifatDecay n))

/-- blifat_impl.h:68-93. -/
def blifatImpact (n : Blifat F) (i : SynapticImpact F) (_forcing : Bool) : Outcome (Blifat F) :=
  match i.synapseType with
  | .excitatory => .ok { n with potential := n.potential + i.impactValue }
  | .inhibitoryCurrent => .ok { n with potential := n.potential - i.impactValue }
  | .inhibitoryConductance => .ok { n with conductance := n.conductance + i.impactValue }
  | .dopamine => .ok { n with dopamine := n.dopamine + i.impactValue }
  | .blocking =>
    match Arith.toI64 i.impactValue with
    | some v => .ok { n with blocking := v }
    | none => .ub

/-- `check_spike_threshold` (blifat_impl.h:110-116). -/
def blifatSpikes (n : Blifat F) : Bool :=
  decide (n.sinceFiring > n.refractory) && Arith.le (n.activation + n.dynamic + n.additional) n.potential

/-- blifat_impl.h:123-127. -/
def blifatRestore (n : Blifat F) : Blifat F :=
  if n.blocking ≤ 0 then { n with potential := n.preImpact } else n

/-- blifat_impl.h:129-140. -/
def blifatTick (n : Blifat F) : Blifat F :=
  if n.blocking < 0 then { n with blocking := if n.blocking + 1 = 0 then i64max else n.blocking + 1 }
  else if 0 < n.blocking then { n with blocking := n.blocking - 1 } else n

/-- blifat_impl.h:142-150. -/
def blifatInhibit (n : Blifat F) : Blifat F :=
  if Arith.lt n.conductance 1 then
    { n with potential := n.potential - (n.potential - n.reversal) * n.conductance }
  else { n with potential := n.reversal }

/-- blifat_impl.h:152-160. -/
def blifatFire (n : Blifat F) : Blifat F × Bool :=
  if blifatSpikes n then
    ({ n with
        dynamic := n.dynamic + n.thresholdIncrement
        trace := n.trace + n.traceIncrement
        potential := n.resetValue
        burstingPhase := n.burstingPeriod
        sinceFiring := 0 }, true)
  else (n, false)

/-- blifat_impl.h:162-165. -/
def blifatClamp (n : Blifat F) : Blifat F :=
  if Arith.lt n.potential n.minPotential then { n with potential := n.minPotential } else n

/-- blifat_impl.h:119-168. -/
def blifatPost (n : Blifat F) : Blifat F × Bool :=
  let r := blifatFire (blifatInhibit (blifatTick (blifatRestore n)))
  (blifatClamp r.1, r.2)

/-- blifat_dispatcher.h:35-40, 59-64, 86-90. -/
def blifat : Kind (Blifat F) F := ⟨blifatPre, blifatImpact, blifatPost⟩

/-! ## AltAI-LIF -/

/-- knp/neuron-traits-library/include/knp/neuron-traits/altai_lif.h:188-351. -/
structure AltAi (F : Type) where
  isDiff : Bool
  isReset : Bool
  leakRev : Bool
  saturate : Bool
  doNotSave : Bool
  potential : F
  preImpact : F
  activation : Nat
  negative : Nat
  leak : Int
  resetValue : Nat
  dopamine : F
  additional : F
  activity : Int
deriving Repr, DecidableEq

/-- altai_impl.h:33-40. -/
def altaiPre (n : AltAi F) : AltAi F :=
  let p := if n.doNotSave then Arith.ofInt n.resetValue else Arith.round n.potential
  { n with potential := p, preImpact := p }

/-- altai_impl.h:56-83; `std::abs` of the least 64-bit integer is undefined. -/
def altaiImpact (n : AltAi F) (i : SynapticImpact F) (_forcing : Bool) : Outcome (AltAi F) :=
  match i.synapseType with
  | .excitatory => .ok { n with potential := n.potential + i.impactValue }
  | .inhibitoryCurrent => .ok { n with potential := n.potential - i.impactValue }
  | .dopamine => .ok { n with dopamine := n.dopamine + i.impactValue }
  | .blocking =>
    let assign : Outcome (AltAi F) :=
      match Arith.toI64 i.impactValue with
      | some v => .ok { n with activity := v }
      | none => .ub
    if decide (n.activity < 0) != Arith.signbit i.impactValue then assign
    else if n.activity = -(i64max + 1) then .ub
    else if Arith.le (Arith.ofInt n.activity.natAbs) (Arith.abs i.impactValue) then assign
    else .ok n
  | _ => .throw "Unhandled synapse type."

/-- altai_impl.h:102-104. -/
def altaiLeak (n : AltAi F) : AltAi F :=
  let sign : Int := if n.leakRev && Arith.lt n.potential 0 then -1 else 1
  { n with potential := n.potential + Arith.ofInt (n.leak * sign) }

/-- altai_impl.h:107-120. -/
def altaiTick (n : AltAi F) : AltAi F :=
  let a := if 0 < n.activity then n.activity - 1 else if n.activity < 0 then n.activity + 1 else n.activity
  { n with activity := if a = 0 then i64max else a }

/-- `activation_threshold_ + additional_threshold_` (altai_impl.h:123, 126). -/
def altaiThreshold (n : AltAi F) : F := Arith.ofInt n.activation + n.additional

/-- `-static_cast<float>(negative_activation_threshold_)` (altai_impl.h:133, 139). -/
def altaiFloor (n : AltAi F) : F := -(Arith.ofInt n.negative : F)

/-- altai_impl.h:122-132: new neuron, spiked, was_reset. -/
def altaiFire (n : AltAi F) : AltAi F × Bool × Bool :=
  if Arith.le (altaiThreshold n) n.potential then
    let n1 := if n.isDiff then { n with potential := n.potential - altaiThreshold n } else n
    let n2 := if n.isReset then { n1 with potential := Arith.ofInt n.resetValue } else n1
    (n2, decide (0 < n.activity), n.isReset)
  else (n, false, false)

/-- altai_impl.h:133-148. -/
def altaiNegative (n : AltAi F) (wasReset : Bool) : AltAi F :=
  if Arith.le n.potential (altaiFloor n) && !wasReset then
    if n.saturate then { n with potential := altaiFloor n }
    else if n.isReset then { n with potential := Arith.ofInt (-(n.resetValue : Int)) }
    else if n.isDiff then { n with potential := n.potential + Arith.ofInt n.negative }
    else n
  else n

/-- altai_impl.h:99-151. -/
def altaiPost (n : AltAi F) : AltAi F × Bool :=
  let r := altaiFire (altaiTick (altaiLeak n))
  (altaiNegative r.1 r.2.2, r.2.1)

/-- altai_dispatcher.h:37-42, 61-66, 88-92. -/
def altai : Kind (AltAi F) F := ⟨altaiPre, altaiImpact, altaiPost⟩

/-! ## Synaptic-resource variants -/

/-- `ISIPeriodType` (stdp_synaptic_resource_rule.h). -/
inductive Isi where
  | isForced | periodStarted | periodContinued | notInPeriod
deriving Repr, DecidableEq

/-- The extra fields of `SynapticResourceSTDPNeuron` (stdp_synaptic_resource_rule.h). -/
structure Rule (F : Type) where
  sumCoefficient : F
  plasticityTime : Nat
  free : F
  resourceThreshold : F
  drain : Nat
  stability : F
  stabilityChange : F
  stabilityAtIsi : F
  isiMax : Nat
  dH : F
  isi : Isi
  lastStep : Nat
  lastSpikeStep : Nat
  firstIsiSpike : Nat
  forced : Bool
deriving Repr, DecidableEq

/-- `neuron_parameters<SynapticResourceSTDPNeuron<B>> : neuron_parameters<B>`. -/
structure Res (B F : Type) where
  base : B
  rule : Rule F
deriving Repr, DecidableEq

/-- The reflexive weight without counting down (blifat_impl.h:62). -/
def resBlifatBurst (n : Blifat F) : Blifat F :=
  if n.burstingPhase = 1 then { n with potential := n.potential + n.reflexive } else n

/-- blifat_impl.h:50-65. -/
def resBlifatPre (n : Res (Blifat F) F) : Res (Blifat F) F :=
  { base := blifatSave (resBlifatBurst { blifatDecay n.base with dopamine := 0 })
    rule := { n.rule with forced := false } }

/-- blifat_impl.h:96-107. -/
def resBlifatImpact (n : Res (Blifat F) F) (i : SynapticImpact F) (forcing : Bool) :
    Outcome (Res (Blifat F) F) := do
  let b ← blifatImpact n.base i forcing
  pure { base := b
         rule := if i.synapseType = .excitatory then { n.rule with forced := n.rule.forced || forcing }
                 else n.rule }

/-- blifat_dispatcher.h:46-51, 73-78, 98-102 (the post function takes the base part). -/
def resBlifat : Kind (Res (Blifat F) F) F :=
  ⟨resBlifatPre, resBlifatImpact, fun n => ({ n with base := (blifatPost n.base).1 }, (blifatPost n.base).2)⟩

/-- altai_impl.h:43-53. -/
def resAltaiPre (n : Res (AltAi F) F) : Res (AltAi F) F :=
  { base := { altaiPre n.base with dopamine := 0 }, rule := { n.rule with forced := false } }

/-- altai_impl.h:86-96. -/
def resAltaiImpact (n : Res (AltAi F) F) (i : SynapticImpact F) (forcing : Bool) :
    Outcome (Res (AltAi F) F) := do
  let b ← altaiImpact n.base i forcing
  pure { base := b
         rule := if i.synapseType = .excitatory then { n.rule with forced := n.rule.forced || forcing }
                 else n.rule }

/-- altai_dispatcher.h:48-53, 75-80, 100-104. -/
def resAltai : Kind (Res (AltAi F) F) F :=
  ⟨resAltaiPre, resAltaiImpact, fun n => ({ n with base := (altaiPost n.base).1 }, (altaiPost n.base).2)⟩

end

/-! ## Populations -/

/-- One iteration of the pre-impact loop (populations.h:57-60); an index outside is undefined behaviour. -/
def preAt {N F : Type} (k : Kind N F) (pop : List N) (i : Nat) : Outcome (List N) :=
  match pop[i]? with
  | some n => .ok (pop.set i (k.pre n))
  | none => .ub

/-- `calculate_pre_impact_population_state(pop, start, end)` (populations.h:53-61). -/
def preImpact {N F : Type} (k : Kind N F) (pop : List N) (lo hi : Nat) : Outcome (List N) :=
  (List.range' lo (hi - lo)).foldlM (preAt k) pop

/-- One impact (populations.h:82). -/
def impactAt {N F : Type} (k : Kind N F) (pop : List N) (i : SynapticImpact F) (forcing : Bool) :
    Outcome (List N) :=
  match pop[i.postsynapticNeuronIndex]? with
  | some n => do
    let n' ← k.impact n i forcing
    pure (pop.set i.postsynapticNeuronIndex n')
  | none => .ub

/-- `impact_population` (populations.h:73-85). -/
def impactPopulation {N F : Type} (k : Kind N F) (pop : List N) (msgs : List (SynapticImpactMessage F)) :
    Outcome (List N) :=
  msgs.foldlM (fun p m => m.impacts.foldlM (fun q i => impactAt k q i m.isForcing) p) pop

/-- One iteration of the post-impact loop (populations.h:111-114). -/
def postAt {N F : Type} (k : Kind N F) (s : List N × List Nat) (i : Nat) : Outcome (List N × List Nat) :=
  match s.1[i]? with
  | some n => .ok (s.1.set i (k.post n).1, if (k.post n).2 then s.2 ++ [i] else s.2)
  | none => .ub

/-- `calculate_post_impact_population_state(pop, message, start, end)` (populations.h:104-116); the second
component is `message.neuron_indexes_`.  Neuron indexes are 32 bit: populations have fewer neurons. -/
def postImpact {N F : Type} (k : Kind N F) (pop : List N) (spikes : List Nat) (lo hi : Nat) :
    Outcome (List N × List Nat) :=
  (List.range' lo (hi - lo)).foldlM (postAt k) (pop, spikes)

/-- `calculate_any_population` (populations_old.h:105-121): `msgs` are the unloaded messages; the result is the new
population and the message that is sent, if any. -/
def stepPopulation {N F : Type} (k : Kind N F) (uid : UID) (step : Nat) (pop : List N)
    (msgs : List (SynapticImpactMessage F)) : Outcome (List N × Option SpikeMessage) := do
  let p1 ← preImpact k pop 0 pop.length
  let p2 ← impactPopulation k p1 msgs
  let r ← postImpact k p2 [] 0 p2.length
  pure (r.1, if r.2.isEmpty then none else some ⟨⟨uid, step⟩, r.2⟩)

/-! ## The multi-threaded population step

A task works on the neurons `cur … stop-1` of one population.  Between two accesses of a task any other task may
run; the schedule is the list of tasks that make the next move.  The append of the spikes is one move (it is done
under a mutex). -/

/-- A task posted by the loops backend.cpp:77-99 and 124-165 (cpu-multi-threaded-backend/impl/backend.cpp). -/
structure Task where
  cur : Nat
  stop : Nat
  buffer : List Nat
  done : Bool
deriving Repr, DecidableEq

/-- Population, the spikes of its message, and its tasks. -/
structure Par (N : Type) where
  pop : List N
  spikes : List Nat
  tasks : List Task
deriving Repr, DecidableEq

/-- The tasks posted for one population (backend.cpp:82-93, 132-164). -/
def postedTasks (size part : Nat) : Option (List Task) :=
  (Delta.partStarts size part (size + 1) 0).map (fun starts =>
    starts.map (fun lo => ⟨lo, Delta.partEnd size part lo, [], false⟩))

/-- One move of task `t` in the pre-impact phase: the next neuron, or the end of the task. -/
def preMove {N F : Type} (k : Kind N F) (s : Par N) (t : Nat) : Par N :=
  match s.tasks[t]? with
  | none => s
  | some task =>
    if task.done then s
    else if task.cur < task.stop then
      match s.pop[task.cur]? with
      | some n => { s with pop := s.pop.set task.cur (k.pre n)
                           tasks := s.tasks.set t { task with cur := task.cur + 1 } }
      | none => s
    else { s with tasks := s.tasks.set t { task with done := true } }

/-- One move of task `t` in the post-impact phase (backend.cpp:146-154): the next neuron, or the locked append. -/
def postMove {N F : Type} (k : Kind N F) (s : Par N) (t : Nat) : Par N :=
  match s.tasks[t]? with
  | none => s
  | some task =>
    if task.done then s
    else if task.cur < task.stop then
      match s.pop[task.cur]? with
      | some n =>
        { s with pop := s.pop.set task.cur (k.post n).1
                 tasks := s.tasks.set t
                   { task with cur := task.cur + 1
                               buffer := if (k.post n).2 then task.buffer ++ [task.cur] else task.buffer } }
      | none => s
    else { s with spikes := s.spikes ++ task.buffer
                  tasks := s.tasks.set t { task with done := true } }

/-- All tasks have ended (`calc_pool_->join()` returns). -/
def allDone (ts : List Task) : Bool := ts.all (·.done)

/-- The multi-threaded step of one population (backend.cpp:77-222, 206-222): both parallel phases with their
schedules, the impact phase in between (one task, so sequential).  `none`: a schedule did not run all tasks to
their end.  Simplification: the tasks of other populations, which work on other objects, are left out. -/
def multiPopulation {N F : Type} (k : Kind N F) (uid : UID) (step part : Nat) (pop : List N)
    (msgs : List (SynapticImpactMessage F)) (sched1 sched2 : List Nat) :
    Option (Outcome (List N × Option SpikeMessage)) :=
  match postedTasks pop.length part with
  | none => none
  | some tasks =>
    let s1 := sched1.foldl (preMove k) ⟨pop, [], tasks⟩
    if allDone s1.tasks then
      match impactPopulation k s1.pop msgs with
      | .ok p2 =>
        let s2 := sched2.foldl (postMove k) ⟨p2, [], tasks⟩
        if allDone s2.tasks then
          some (.ok (s2.pop, if s2.spikes.isEmpty then none else some ⟨⟨uid, step⟩, s2.spikes⟩))
        else none
      | .throw w => some (.throw w)
      | .ub => some .ub
    else none

end Knp.Neurons
