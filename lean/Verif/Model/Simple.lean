import Verif.Model.MnistInference

/-!
# The example `simple-network`

Models `/repo/examples/simple-network/main.cpp`: a population of one default BLIFAT neuron, a projection into it from an input channel, a projection from
it into itself, an output channel.  The program runs on the single-threaded backend.
-/

namespace Knp.Simple
open Knp Knp.Neurons

variable {F : Type} [Arith F]

/-- `neuron_parameters<BLIFATNeuron>{}` (main.cpp:53-56; default_values of neuron-traits/blifat.h:35-156): the counter of steps since the last spike is the largest
`size_t`, the blocking period the largest `int64_t`, the threshold 1, everything else 0.  `reversal` is -0.3, `minPotential` -1.0e9. -/
def neuron (reversal minPotential : F) : Blifat F :=
  { sinceFiring := two64 - 1, activation := 1, additional := 0, dynamic := 0, thresholdDecay := 0, thresholdIncrement := 0, trace := 0, traceDecay := 0
    traceIncrement := 0, conductance := 0, conductanceDecay := 0, potential := 0, preImpact := 0, potentialDecay := 0, burstingPhase := 0
    burstingPeriod := 0, reflexive := 0, reversal := reversal, refractory := 0, resetValue := 0, minPotential := minPotential, blocking := i64max
    dopamine := 0 }

/-- The UIDs the program makes: the population, the input projection, the loop, the channels. -/
structure Uids where
  pop : UID
  input : UID
  loop : UID
  channel : UID
  out : UID

/-- The population (main.cpp:63). -/
def pops (B : Type) (reversal minPotential : F) (u : Uids) : List (Learn.Pop (Blifat F) B F) := [.plain u.pop blifat [neuron reversal minPotential]]

/-- A projection with one synapse of weight 1, from neuron 0 to neuron 0 (main.cpp:38-49); new projections are locked, nothing waits, impacts of delta
projections are forcing. -/
def projection (uid pre post : UID) (delay : Nat) : Learn.Proj F :=
  ⟨⟨uid, pre, post, true⟩, true, Mnist.deltaSyns [⟨⟨1, delay, .excitatory⟩, 0, 0⟩], []⟩

/-- The projections in the order they are added (main.cpp:84-89); in the example `delayIn` is 1 and `delayLoop` 6. -/
def projs (u : Uids) (delayIn delayLoop : Nat) : List (Learn.Proj F) := [projection u.input 0 u.pop delayIn, projection u.loop u.pop u.pop delayLoop]

/-- `add_input_channel`, `add_output_channel` (main.cpp:102-105). -/
def inputs (u : Uids) : List (UID × UID) := [(u.input, u.channel)]
def layout (u : Uids) : Prog.Layout := ⟨[u.channel], [(u.out, [u.pop])], [], []⟩

/-- The generator (main.cpp:107-117): neuron 0 in the steps `input` says, in the example those divisible by 5. -/
def code {σ : Type} (input : Nat → Bool) : Prog.Code σ F :=
  { gen := fun _ u t => (if input t then [0] else [], u), handle := fun _ u _ => ([], u), observe := fun _ u _ => u }

/-- The predicate of `start` (main.cpp:136); in the example `n` is 20. -/
def pred {σ : Type} (n : Nat) (u : σ) (t : Nat) : Bool × σ := (decide (t < n), u)

/-- What is printed (main.cpp:141-151): the steps of the messages `update` returns. -/
def printed {σ P J : Type} (u : Uids) (s : Prog.State σ P J F) : List Nat := (Prog.updateOut (layout u) 0 s).2.map (fun m => m.header.sendTime)

end Knp.Simple
