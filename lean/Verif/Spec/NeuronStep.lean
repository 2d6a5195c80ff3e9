import Verif.Model.Neurons

/-!
# One step of a neuron as a formula

What the impacts of a step come to, and what a neuron makes of that.  Written from the description of the BLIFAT and AltAI-LIF neurons, without loops
over impacts and without intermediate states.
-/

namespace Knp.Spec.NeuronStep
open Knp Knp.Neurons

variable {F : Type} [Arith F]

/-- The values of the impacts of one type, in order. -/
def values (t : OutputType) (imps : List (SynapticImpact F × Bool)) : List F :=
  (imps.filter (fun i => i.1.synapseType = t)).map (fun i => i.1.impactValue)

/-- Added up from the left. -/
def plus (x : F) (l : List F) : F := l.foldl (· + ·) x

/-- The currents of a step in the order of the impacts: excitatory ones are added, inhibitory ones subtracted. -/
def currents (x : F) (imps : List (SynapticImpact F × Bool)) : F :=
  imps.foldl (fun x i => match i.1.synapseType with
    | .excitatory => x + i.1.impactValue
    | .inhibitoryCurrent => x - i.1.impactValue
    | _ => x) x

/-- The last blocking impact decides. -/
def lastBlocking (old : Int) (imps : List (SynapticImpact F × Bool)) : Int :=
  (((values .blocking imps).getLast?).bind Arith.toI64).getD old

/-- Is there a blocking impact whose value is no 64-bit integer? -/
def badBlocking (imps : List (SynapticImpact F × Bool)) : Prop := ∃ v ∈ values .blocking imps, Arith.toI64 v = none

/-- The neuron is forced by an excitatory impact of a forcing message. -/
def forcedBy (imps : List (SynapticImpact F × Bool)) : Bool := imps.any (fun i => i.1.synapseType = .excitatory && i.2)

/-- A blocking counter after a step: a period ends, and the end of a blocked period opens the neuron for ever. -/
def blockingAfter (b : Int) : Int := if b = -1 then i64max else if b < 0 then b + 1 else if b > 0 then b - 1 else 0

/-- The potential of a BLIFAT neuron before its input. -/
def blifatRest (n : Blifat F) : F :=
  if n.burstingPhase = 1 then n.potential * n.potentialDecay + n.reflexive else n.potential * n.potentialDecay

/-- ... with its input: a blocked neuron has none, conductance pulls it to the reversal potential. -/
def blifatInput (n : Blifat F) (imps : List (SynapticImpact F × Bool)) : F :=
  let u := if lastBlocking n.blocking imps ≤ 0 then blifatRest n else currents (blifatRest n) imps
  let g := plus (n.conductance * n.conductanceDecay) (values .inhibitoryConductance imps)
  if Arith.lt g 1 then u - (u - n.reversal) * g else n.reversal

/-- Does a BLIFAT neuron spike? -/
def blifatSpike (n : Blifat F) (imps : List (SynapticImpact F × Bool)) : Bool :=
  decide (n.refractory < addU64 n.sinceFiring 1) &&
    Arith.le (n.activation + n.dynamic * n.thresholdDecay + n.additional) (blifatInput n imps)

/-- A BLIFAT neuron after a step, with the bursting phase `phase` it is left with if it does not spike and the dopamine value `d` it starts with. -/
def blifatAfter (phase : Nat) (d : F) (n : Blifat F) (imps : List (SynapticImpact F × Bool)) : Blifat F :=
  let s := blifatSpike n imps
  let u := if s then n.resetValue else blifatInput n imps
  { n with
    sinceFiring := if s then 0 else addU64 n.sinceFiring 1
    dynamic := if s then n.dynamic * n.thresholdDecay + n.thresholdIncrement else n.dynamic * n.thresholdDecay
    trace := if s then n.trace * n.traceDecay + n.traceIncrement else n.trace * n.traceDecay
    conductance := plus (n.conductance * n.conductanceDecay) (values .inhibitoryConductance imps)
    potential := if Arith.lt u n.minPotential then n.minPotential else u
    preImpact := blifatRest n
    burstingPhase := if s then n.burstingPeriod else phase
    blocking := blockingAfter (lastBlocking n.blocking imps)
    dopamine := plus d (values .dopamine imps) }

/-- The potential of an AltAI neuron before its input. -/
def altaiRest (n : AltAi F) : F := if n.doNotSave then Arith.ofInt n.resetValue else Arith.round n.potential

/-- ... with its input and the leak. -/
def altaiInput (n : AltAi F) (imps : List (SynapticImpact F × Bool)) : F :=
  let u := currents (altaiRest n) imps
  u + Arith.ofInt (if n.leakRev && Arith.lt u 0 then -n.leak else n.leak)

/-- An activity counter after a step; zero never stays. -/
def activityAfter (a : Int) : Int := if a = 1 ∨ a = -1 ∨ a = 0 then i64max else if a > 0 then a - 1 else a + 1

/-- The activity counter after the blocking impacts of a step, one after the other: an impact is taken if it turns the sign or is not shorter than
what is left of the present period.  `none` if that is undefined: the value taken is no 64-bit
integer, or the absolute value of the counter is none. -/
def activityOf (a : Int) : List F → Option Int
  | [] => some a
  | v :: vs =>
    if decide (a < 0) = Arith.signbit v ∧ a = -(i64max + 1) then none
    else if decide (a < 0) ≠ Arith.signbit v ∨ Arith.le (Arith.ofInt a.natAbs) (Arith.abs v) = true then
      (Arith.toI64 v).bind (fun b => activityOf b vs)
    else activityOf a vs

/-- Does an AltAI neuron with activity counter `a` after the impacts spike? -/
def altaiSpike (a : Int) (n : AltAi F) (imps : List (SynapticImpact F × Bool)) : Bool :=
  decide (activityAfter a > 0) && Arith.le (Arith.ofInt n.activation + n.additional) (altaiInput n imps)

/-- The potential of an AltAI neuron after a step.  A neuron that reaches its threshold is reset or has the threshold taken off even in a step in
which it may not spike. -/
def altaiPotential (n : AltAi F) (imps : List (SynapticImpact F × Bool)) : F :=
  let u := altaiInput n imps
  let t : F := Arith.ofInt n.activation + n.additional
  let low : F := -(Arith.ofInt n.negative : F)
  if Arith.le t u && n.isReset then Arith.ofInt n.resetValue
  else
    let v := if Arith.le t u && n.isDiff then u - t else u
    if Arith.le v low then
      if n.saturate then low
      else if n.isReset then Arith.ofInt (-(n.resetValue : Int))
      else if n.isDiff then v + Arith.ofInt n.negative
      else v
    else v

/-- An AltAI neuron after a step, from dopamine value `d`. -/
def altaiAfter (a : Int) (d : F) (n : AltAi F) (imps : List (SynapticImpact F × Bool)) : AltAi F :=
  { n with
    potential := altaiPotential n imps
    preImpact := altaiRest n
    dopamine := plus d (values .dopamine imps)
    activity := activityAfter a }

/-- The laws of addition that make the order of impacts immaterial. -/
structure Sums (F : Type) [Arith F] : Prop where
  swap : ∀ x a b : F, x + a + b = x + b + a
  swapSub : ∀ x a b : F, x + a - b = x - b + a
  subSub : ∀ x a b : F, x - a - b = x - b - a

end Knp.Spec.NeuronStep
