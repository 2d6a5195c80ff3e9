import Verif.Model.Program
import Verif.Model.Storage
import Verif.Model.Mnist

/-!
# The example `mnist-client`

Models `/repo/examples/mnist-client/process_data.cpp` and `inference.cpp`: reading images from a file, making spikes of them, the program that shows
them to a network and collects what the output populations say.
-/

namespace Knp.Client
open Knp Knp.Store

variable {N B F : Type}

/-- The loop of `read_images_from_file` (process_data.cpp:95-101): a new image is all zeros, `read` puts the next bytes of the file into it; the stream
stays good unless the file had fewer bytes left than were asked for.  `none`: still reading after `fuel` rounds. -/
def readLoop (size : Nat) : Nat → List Nat → Option (List (List Nat))
  | 0, _ => none
  | fuel + 1, bytes =>
    let image := bytes.take size ++ List.replicate (size - bytes.length) 0
    if bytes.length < size then some [image] else (readLoop size fuel (bytes.drop size)).map (fun l => image :: l)

/-- `read_images_from_file` (process_data.cpp:89-103).  The stream of a file that cannot be opened (`none`) is not good. -/
def readImages (size fuel : Nat) : Option (List Nat) → Option (List (List Nat))
  | none => some []
  | some bytes => readLoop size fuel bytes

/-- `delta * static_cast<double>(frame_num + 1)`, `delta` being `256.0 / num_levels`, both rounded to doubles (process_data.cpp:70, 77).  Frame numbers
below 2^53. -/
def threshold (levels frame : Nat) : Rat := toDouble (toDouble (256 / (levels : Rat)) * ((frame + 1 : Nat) : Rat))

/-- `image_to_spikes` (process_data.cpp:68-81): frames from number `levels` on stay empty vectors.  Numbers of levels and frames are not negative. -/
def imageToSpikes (buf : List Nat) (levels frames : Nat) : List (List Bool) :=
  (List.range frames).map (fun k => if k < levels then buf.map (fun b : Nat => decide (threshold levels k ≤ (b : Rat))) else [])

/-- `read_spikes_from_grayscale_file` (process_data.cpp:117-131). -/
def readFrames (size framesPerImage levels skip fuel : Nat) (file : Option (List Nat)) : Option (List (List Bool)) :=
  (readImages size fuel file).map (fun images => (images.drop skip).flatMap (fun i => imageToSpikes i levels framesPerImage))

/-- Indices of the `true` entries, ascending (inference.cpp:48-51). -/
def indices (f : List Bool) : List Nat := (List.range f.length).filter (fun i => f[i]? == some true)

/-- The function `make_input_image_generator` gives (inference.cpp:39-56).  `spike_frames[step + skip]` with no such frame is undefined. -/
def generated (frames : List (List Bool)) (skip step : Nat) : Outcome (List Nat) :=
  if frames.length ≤ step then .ok []
  else match frames[step + skip]? with
    | none => .ub
    | some f => .ok (indices f)

/-- `find_projections` with the criterion `size() == pixels` and the check after it (inference.cpp:60-71, 128-134); in the example `pixels` is 117600. -/
def inputProjs (pixels : Nat) (projs : List (Learn.Proj F)) : Outcome (List UID) :=
  let l := (projs.filter (fun j => j.syns.view.synapses.length == pixels)).map (fun j => j.ident.uid)
  if l = [] then .throw "Wrong model file: model doesn't have inputs" else .ok l

/-- Number of neurons. -/
def neurons : Learn.Pop N B F → Nat
  | .plain _ _ ns => ns.length
  | .trained _ _ _ ns => ns.length

/-- The populations observed (inference.cpp:155-162); in the example `outs` is 10. -/
def outputPops (outs : Nat) (pops : List (Learn.Pop N B F)) : List UID := (pops.filter (fun p => neurons p == outs)).map (fun p => p.uid)

/-- One channel for every input projection (inference.cpp:136-141); `chan` are the new UIDs.  Simplification: the channels are called in this order
(`InputChannelMap` is an unordered map). -/
def inputs (chan : Nat → UID) (ins : List UID) : List (UID × UID) := ins.mapIdx (fun i p => (p, chan i))

/-- The endpoints: the channels and the observer (inference.cpp:145-147, 165). -/
def layout (chan : Nat → UID) (obs : UID) (ins outs : List UID) : Prog.Layout :=
  ⟨(List.range ins.length).map chan, [], [], [⟨obs, .spike, outs⟩]⟩

/-- The observer function (inference.cpp:75-91): the step and the neurons of the first message. -/
def observe (results : List (Nat × List Nat)) (ms : List SpikeMessage) : List (Nat × List Nat) :=
  match ms with
  | [] => results
  | m :: _ => if m.neuronIndexes = [] then results else results ++ [(m.header.sendTime, m.neuronIndexes)]

/-- The functions of the program (inference.cpp:147, 165).  Simplification: an undefined answer of a generator is the empty one; C171_generator states that
there is none. -/
def code (frames : List (List Bool)) : Prog.Code (List (Nat × List Nat)) F :=
  { gen := fun _ u t => (Mnist.given (generated frames 0 t), u), handle := fun _ u _ => ([], u), observe := fun _ u ms => observe u (Sys.spikesIn ms) }

/-- The predicate of `start` (inference.cpp:168-173). -/
def pred {σ : Type} (frames : List (List Bool)) (u : σ) (t : Nat) : Bool × σ := (decide (t ≠ frames.length), u)

end Knp.Client
