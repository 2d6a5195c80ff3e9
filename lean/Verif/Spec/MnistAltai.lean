import Verif.Model.MnistAltai
import Verif.Spec.Mnist

/-!
# The network of the MNIST example with AltAI neurons, as a picture

As `Spec/Mnist.lean`, whose arrows it uses.  Different from the BLIFAT network: one subnetwork, the numbers (weights are thousands), and a label resets all
input neurons, not only the column of its class.
-/

namespace Knp.Spec.MnistAltai
open Knp Knp.Mnist Knp.Spec

variable {F : Type}

/-- Sizes fit the machine and weight 0 is allowed. -/
structure Fit [Field F] [LinearOrder F] (p : Altai.Params F) : Prop where
  classes : 0 < p.classes
  column : 0 < p.perColumn
  pixels : p.inputSize * p.inputs < two64
  labels : p.classes * p.inputs < two64
  eps : 0 < p.eps
  low : p.wMin ≤ 0
  high : 0 < p.wMax - p.eps

/-- Input neuron `i` is in the column of class `c`. -/
def InColumn (p : Altai.Params F) (c i : Nat) : Prop := i < p.inputs ∧ i / p.perColumn = c

/-- The arrows of the network whose UIDs start with `f`: `f` is the input, `f + 1` the output, `f + 2` the gate population. -/
def arrows [Field F] (p : Altai.Params F) (f : Nat) : List (Arrow F) :=
  [-- every pixel to every input neuron
   ⟨f + 3, 0, f, true, 0, 1, .excitatory, fun a i => a < p.inputSize ∧ i < p.inputs⟩,
   -- the label rewards the column of its class
   ⟨f + 4, 0, f, false, 179376 / 1000, 3, .dopamine, InColumn p⟩,
   -- the label resets everybody
   ⟨f + 5, 0, f, false, -30000, 4, .excitatory, fun c i => c < p.classes ∧ i < p.inputs⟩,
   -- the label opens the gate of its class
   ⟨f + 6, 0, f + 2, false, 10000, 1, .excitatory, fun a b => a = b ∧ a < p.classes⟩,
   -- the winners of a column excite the output neuron of its class
   ⟨f + 7, 0, f + 1, false, 10000, 1, .excitatory, fun i c => InColumn p c i⟩,
   -- an output neuron closes the gate of its class
   ⟨f + 8, f + 1, f + 2, false, -10, 1, .blocking, fun a b => a = b ∧ a < p.classes⟩,
   -- an open gate excites the column of its class
   ⟨f + 9, f + 2, f, false, 10000, 1, .excitatory, InColumn p⟩]

/-- A training changed what is in the populations and projections of the network, nothing else. -/
def SameIdentities {P J P' J' : Type} (built : Network P J) (trained : Network P' J') : Prop :=
  trained.populations.map (fun p => (p.uid, p.kind)) = built.populations.map (fun p => (p.uid, p.kind)) ∧
    trained.projections.map (fun j => (j.uid, j.pre, j.post, j.kind)) = built.projections.map (fun j => (j.uid, j.pre, j.post, j.kind))

/-- Weights `body'` are the weights `body` times `c`, rounded: whole numbers from -255 to 255. -/
def RoundedWeights {S : Type} [Field F] [LinearOrder F] (c : F) (body body' : List (Infer.Syn F S)) : Prop :=
  List.Forall₂ (fun s s' : Infer.Syn F S => s'.rest = s.rest ∧ |s'.weight - c * s.weight| ≤ 1 / 2 ∧ ∃ z : Int, s'.weight = z ∧ z.natAbs ≤ 255) body body'

/-- Thresholds `body'` are the thresholds `body` times `c`, rounded down. -/
def ScaledThresholds {R : Type} [Field F] [LinearOrder F] (c : F) (body body' : List (Infer.Neuron F R)) : Prop :=
  List.Forall₂ (fun m m' : Infer.Neuron F R => m'.rest = m.rest ∧ m'.additional = c * m.additional ∧
    (m'.activation : F) ≤ c * m.activation ∧ c * m.activation < (m'.activation : F) + 1) body body'

end Knp.Spec.MnistAltai
