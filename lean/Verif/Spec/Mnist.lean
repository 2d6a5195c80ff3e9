import Verif.Model.Mnist
import Verif.Spec.Learn

/-!
# The network of the MNIST example, as a picture

What `construct_network.cpp` is meant to build, without its functions.  In every subnetwork: an input population whose neurons are divided into
columns, one per class; an output and a gate population with one neuron per class.
-/

namespace Knp.Spec
open Knp Knp.Mnist

variable {F : Type}

/-- Sizes fit the machine and the weight of the trained synapses is allowed. -/
structure Fit [Field F] [LinearOrder F] (p : Params F) : Prop where
  classes : 0 < p.classes
  column : 0 < p.perColumn
  small : p.inputs ≤ 2 ^ 32
  pixels : p.inputSize ≤ 2 ^ 32
  pairs : p.inputSize * p.inputs < two64
  eps : 0 < p.eps
  low : p.wMin ≤ p.base
  high : p.base < p.wMax - p.eps

/-- Input neuron `i` is in the column of class `c`. -/
def InColumn (p : Params F) (c i : Nat) : Prop := i < p.inputs ∧ i / p.perColumn = c

/-- An arrow of the picture: ends (0: none, the projection hears a channel or a handler), whether it is trained, what its synapses are
like and which neurons they connect. -/
structure Arrow (F : Type) where
  uid : UID
  pre : UID
  post : UID
  trained : Bool
  weight : F
  delay : Nat
  type : OutputType
  connects : Nat → Nat → Prop

/-- The arrows of the subnetwork whose UIDs start with `f`: `f` is the input, `f + 1` the output, `f + 2` the gate population. -/
def arrows [Field F] (p : Params F) (f : Nat) : List (Arrow F) :=
  [-- every pixel to every input neuron
   ⟨f + 3, 0, f, true, 0, 1, .excitatory, fun a i => a < p.inputSize ∧ i < p.inputs⟩,
   -- the label rewards the column of its class
   ⟨f + 4, 0, f, false, 18 / 100, 3, .dopamine, InColumn p⟩,
   -- the winners of a column excite the output neuron of its class
   ⟨f + 5, 0, f + 1, false, 10, 1, .excitatory, fun i c => InColumn p c i⟩,
   -- an output neuron closes the gate of its class
   ⟨f + 6, f + 1, f + 2, false, -10, 1, .blocking, fun a b => a = b ∧ a < p.classes⟩,
   -- the label opens the gate of its class
   ⟨f + 7, 0, f + 2, false, 10, 1, .excitatory, fun a b => a = b ∧ a < p.classes⟩,
   -- an open gate excites the column of its class
   ⟨f + 8, f + 2, f, false, 10, 1, .excitatory, InColumn p⟩,
   -- the label resets the column of its class
   ⟨f + 9, 0, f, false, -30, 4, .excitatory, InColumn p⟩]

/-- A projection is an arrow: every pair of neurons of the arrow is connected by exactly one synapse, no other pair is. -/
structure Draws (j : Learn.Proj F) (a : Arrow F) : Prop where
  uid : j.ident.uid = a.uid
  pre : j.ident.pre = a.pre
  post : j.ident.post = a.post
  forced : j.ident.forced = !a.trained
  locked : j.locked = !a.trained
  plain : a.trained = false → ∃ d, j.syns = .delta d
  learns : a.trained = true → ∃ ss x y, j.syns = .resource [] ss x y
  fresh : j.queue = []
  alike : ∀ y ∈ (wired j.syns).synapses, y.weight = a.weight ∧ y.delay = a.delay ∧ y.outType = a.type
  once : ∀ m n, a.connects m n → (((wired j.syns).synapses.map (fun y => (y.source, y.target))).count (m, n)) = 1
  only : ∀ m n, ¬ a.connects m n → (m, n) ∉ (wired j.syns).synapses.map (fun y => (y.source, y.target))

/-- What of the picture is left for inference: the images, and the winners of the columns that excite the output neurons. -/
def keptArrows [Field F] (p : Params F) (f : Nat) : List (Arrow F) :=
  [⟨f + 3, 0, f, true, 0, 1, .excitatory, fun a i => a < p.inputSize ∧ i < p.inputs⟩,
   ⟨f + 5, 0, f + 1, false, 10, 1, .excitatory, fun i c => InColumn p c i⟩]

/-- A projection is an arrow, after a training: as `Draws`, but weights that were trained are any; and it is locked. -/
structure Kept (j : Learn.Proj F) (a : Arrow F) : Prop where
  uid : j.ident.uid = a.uid
  pre : j.ident.pre = a.pre
  post : j.ident.post = a.post
  forced : j.ident.forced = !a.trained
  locked : j.locked = true
  plain : a.trained = false → (∃ d, j.syns = .delta d) ∧ ∀ y ∈ (wired j.syns).synapses, y.weight = a.weight
  learns : a.trained = true → ∃ ss x y, j.syns = .resource [] ss x y
  fresh : j.queue = []
  alike : ∀ y ∈ (wired j.syns).synapses, y.delay = a.delay ∧ y.outType = a.type
  once : ∀ m n, a.connects m n → (((wired j.syns).synapses.map (fun y => (y.source, y.target))).count (m, n)) = 1
  only : ∀ m n, ¬ a.connects m n → (m, n) ∉ (wired j.syns).synapses.map (fun y => (y.source, y.target))

/-- The UIDs of the program are new ones: different from each other and from those of the network, which starts with `f`. -/
structure NewUids (p : Params F) (f : Nat) (u : Uids) : Prop where
  channels : u.raster ≠ u.labels
  raster : u.raster < f ∨ f + 10 * p.subnetworks ≤ u.raster
  labels : u.labels < f ∨ f + 10 * p.subnetworks ≤ u.labels
  handlers : ∀ n < p.subnetworks, (u.handler n < f ∨ f + 10 * p.subnetworks ≤ u.handler n) ∧ u.handler n ≠ u.raster ∧ u.handler n ≠ u.labels
  each : ∀ m < p.subnetworks, ∀ n < p.subnetworks, u.handler m = u.handler n → m = n

/-- The label shown in step `t` of the training: the label of the current frame, in sub-step `labelStep`. -/
def labelAt (d : Data.Dataset) (labelStep t : Nat) : Option Nat :=
  if t % d.stepsPerFrame = labelStep then (d.frames[t / d.stepsPerFrame]?).map (fun f => f.1) else none

end Knp.Spec
