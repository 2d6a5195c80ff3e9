import Verif.Model.Mnist
import Verif.Model.Evaluation

/-!
# The MNIST example: inference

Models `/repo/examples/mnist-learn`, BLIFAT variant, after the training: `models/blifat/prepare_network_for_inference.cpp` and `inference.h`.
-/

namespace Knp.Prog
open Knp

variable {σ P J F : Type}

/-- `OutputChannel::update` called by the program (output_channel.cpp:38-51; inference.h:184): output channel `n` takes what has arrived at its
endpoint and gives a copy of everything it holds.  A channel that does not exist is not a call the program can make. -/
def updateOut (L : Layout) (n : Nat) (s : State σ P J F) : State σ P J F × List SpikeMessage :=
  match L.outputs[n]?, s.outs[n]? with
  | some o, some c =>
    let g := collect s.core.world (L.outBase + n) .spike o.1
    let r := c.update (Sys.spikesIn g.2)
    ({ s with core := { s.core with world := g.1 }, outs := s.outs.set n r.1 }, r.2)
  | _, _ => (s, [])

end Knp.Prog

namespace Knp.Mnist
open Knp Knp.Neurons Knp.Stdp Knp.Infer

variable {σ N F : Type}

/-- Populations of `prepare_network_for_inference<BLIFATNeuron>` (prepare_network_for_inference.cpp:37-49): those of the training backend, as they are
now, whose UIDs are in `inference_population_uids_`, in the order of the backend. -/
def restoredPops (a : Annotated F) (pops : List (Learn.Pop N (Blifat F) F)) : List (Learn.Pop N (Blifat F) F) :=
  pops.filter (fun q => a.builder.keepPops.contains q.uid)

/-- Its projections (l. 51-61): contents of those in `inference_internal_projection_`, without their queues (get_network.cpp:73).  The inference backend
loads them, and `stop_learning` (inference.h:99; backend.h:315-322 of the CPU backends) locks all of them before the first step. -/
def restoredProjs (a : Annotated F) (projs : List (Learn.Proj F)) : List (Learn.Proj F) :=
  (projs.filter (fun j => a.builder.keepProjs.contains j.ident.uid)).map (fun j => { j with queue := [], locked := true })

/-- The connections of the image channel (inference.h:89-90). -/
def inferInputs (a : Annotated F) (u : Uids) : List (UID × UID) := a.fromRaster.map (fun j => (j, u.raster))

/-- Endpoints of the inference program (inference.h:80-94, 111-173): the image channel, the output channel, the handlers, loggers.  The UIDs are made anew;
`u.labels` is not used. -/
def inferLayout (a : Annotated F) (u : Uids) (loggers : List Prog.Observer) : Prog.Layout :=
  (Prog.addWtaHandlers u.handler 0 ⟨[u.raster], [(u.out, a.builder.outputs)], [], loggers⟩ a.wtaData).1

/-- Its functions.  Simplification as in `trainCode`. -/
def inferCode (p : Params F) (a : Annotated F) (d : Data.Dataset) (winners maxSize : Nat) (observe : Nat → σ → List (Message F) → σ)
    (draw : Nat → σ → Nat → Nat → Nat) (advance : Nat → σ → σ) : Prog.Code σ F :=
  Prog.wtaCode { gen := fun _ u t => (given (d.inferenceImages t), u)
                 handle := fun _ u _ => ([], u)
                 observe := observe } 0 p.subnetworks maxSize a.wtaBorders winners draw advance

/-- The predicate of `start` (inference.h:176-181). -/
def inferPred (d : Data.Dataset) (u : σ) (t : Nat) : Bool × σ := (decide (t ≠ d.stepsInference), u)

/-- `infer_network` after `start` (inference.h:184-190): `spikes` is what it returns.  `std::sort` promises nothing but a sorted permutation. -/
def Returned {P J : Type} (a : Annotated F) (u : Uids) (loggers : List Prog.Observer) (s : Prog.State σ P J F) (spikes : List SpikeMessage) : Prop :=
  spikes.Perm (Prog.updateOut (inferLayout a u loggers) 0 s).2 ∧ spikes.Pairwise (fun x y => x.header.sendTime ≤ y.header.sendTime)

end Knp.Mnist
