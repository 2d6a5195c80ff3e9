import Verif.Model.Messages

/-!
# Classification datasets

`knp/base-framework/include/knp/framework/data_processing/classification/dataset.h`,
`knp/base-framework/impl/data_processing/classification/{dataset,image}.cpp`.
-/

namespace Knp.Data

/-- `unsigned`: 2^32. -/
def two32 : Nat := 4294967296

/-- `Dataset` (dataset.h:204-224) and `images::Dataset::image_size_` (image.h). A frame is its vector of flags. -/
structure Dataset where
  frames : List (Nat × List Bool)
  trainN : Nat
  infN : Nat
  stepsPerFrame : Nat
  classes : Nat
  imageSize : Nat
deriving DecidableEq, Repr

namespace Dataset

/-- `split` (dataset.cpp:30-43): the sum is a wrapping `size_t` sum, the two amounts are stored in `unsigned`. -/
def split (d : Dataset) (a b : Nat) : Outcome Dataset :=
  if d.frames.length < addU64 b a then .throw "Dataset is too small."
  else .ok { d with trainN := a % two32, infN := b % two32 }

/-- `get_data_for_training` (dataset.h:148-151), the range it delimits; an iterator past the end is undefined. -/
def trainingData (d : Dataset) : Outcome (List (Nat × List Bool)) :=
  if d.trainN ≤ d.frames.length then .ok (d.frames.take d.trainN) else .ub

/-- `get_data_for_inference` (dataset.h:158-163). -/
def inferenceData (d : Dataset) : Outcome (List (Nat × List Bool)) :=
  if d.trainN + d.infN ≤ d.frames.length then .ok ((d.frames.drop d.trainN).take d.infN) else .ub

/-- `get_steps_amount_for_training`, `get_steps_amount_for_inference` (dataset.h:177-190); products that fit `size_t`. -/
def stepsTraining (d : Dataset) : Nat := d.trainN * d.stepsPerFrame
def stepsInference (d : Dataset) : Nat := d.infN * d.stepsPerFrame

/-- The loop over the flags of one sub-step (image.cpp:87-90, 111-114): `i` runs over `start .. start + n - 1`, pushing
`i - start`; reading past the end is undefined. `off` is `i - start`. Indices fit the 32-bit spike index. -/
def activeLoop (data : List Bool) (start : Nat) : Nat → Nat → List Nat → Outcome (List Nat)
  | 0, _, acc => .ok acc
  | n + 1, off, acc =>
    match data[start + off]? with
    | some true => activeLoop data start n (off + 1) (acc ++ [off])
    | some false => activeLoop data start n (off + 1) acc
    | none => .ub

/-- Common body of the two image generators (image.cpp:73-118): part of `part` frames starting at frame `base`. Division by
zero is undefined. -/
def imageGen (d : Dataset) (base part : Nat) (step : Nat) : Outcome (List Nat) :=
  if d.stepsPerFrame = 0 ∨ part = 0 then .ub
  else match d.frames[base + (step / d.stepsPerFrame) % part]? with
    | none => .ub
    | some f => activeLoop f.2 ((step % d.stepsPerFrame) * d.imageSize) d.imageSize 0 []

/-- `make_training_images_spikes_generator` (image.cpp:73-94). -/
def trainingImages (d : Dataset) (step : Nat) : Outcome (List Nat) := imageGen d 0 d.trainN step

/-- `make_inference_images_spikes_generator` (image.cpp:97-118). -/
def inferenceImages (d : Dataset) (step : Nat) : Outcome (List Nat) := imageGen d d.trainN d.infN step

/-- `make_training_labels_generator` (image.cpp:58-70). -/
def trainingLabels (d : Dataset) (step : Nat) : Outcome (List Nat) :=
  if d.stepsPerFrame = 0 ∨ d.trainN = 0 then .ub
  else match d.frames[(step / d.stepsPerFrame) % d.trainN]? with
    | none => .ub
    | some f => .ok [f.1]

end Dataset

/-! ## Rate coding -/

section Converter
variable {F : Type}

/-- Arithmetic used by the converter; `ofByte` is `static_cast<float>(uint8_t)`. -/
structure ConvOps (F : Type) where
  zero : F
  add : F → F → F
  mul : F → F → F
  ofByte : Nat → F
  geOne : F → Bool
  dec : F → F

/-- One active step for all pixels (image.cpp:135-144): new states and flags. Pixel `l` of an image shorter than the states is
an undefined read. -/
def convStep (o : ConvOps F) (factor : F) : List F → List Nat → Outcome (List F × List Bool)
  | [], _ => .ok ([], [])
  | _ :: _, [] => .ub
  | s :: ss, p :: ps =>
    let v := o.add s (o.mul factor (o.ofByte p))
    match convStep o factor ss ps with
    | .ok r => if o.geOne v then .ok (o.dec v :: r.1, true :: r.2) else .ok (v :: r.1, false :: r.2)
    | .throw w => .throw w
    | .ub => .ub

/-- The loop over the active steps (image.cpp:133-145). -/
def convLoop (o : ConvOps F) (factor : F) (image : List Nat) : Nat → List F → List Bool → Outcome (List F × List Bool)
  | 0, st, ret => .ok (st, ret)
  | n + 1, st, ret =>
    match convStep o factor st image with
    | .ok r => convLoop o factor image n r.1 (ret ++ r.2)
    | .throw w => .throw w
    | .ub => .ub

/-- How many flags are appended at the end (image.cpp:147); difference and product wrap. -/
def padLen (spf active imageSize : Nat) : Nat := subU64 spf active * imageSize % two64

/-- Whether a vector can grow by `n` flags; `2^63` stands for the limit of `std::vector<bool>`. -/
def fitsVector (n : Nat) : Bool := decide (n < 9223372036854775808)

/-- Padding at the end (image.cpp:147): a request beyond what a vector can hold throws. -/
def convPad (spf active imageSize : Nat) (ret : List Bool) : Outcome (List Bool) :=
  if fitsVector (padLen spf active imageSize) then .ok (ret ++ List.replicate (padLen spf active imageSize) false)
  else .throw "vector::_M_fill_insert"

/-- One call of the incrementing converter (image.cpp:126-150); `states` persists between calls. -/
def convert (o : ConvOps F) (spf imageSize active : Nat) (factor : F) (states : List F) (image : List Nat) :
    Outcome (List F × List Bool) :=
  (convLoop o factor image active (if states.isEmpty then List.replicate imageSize o.zero else states) []).bind
    (fun r => (convPad spf active imageSize r.2).bind (fun flags => .ok (r.1, flags)))

end Converter

/-! ## Reading images and labels -/

section Loading
variable {S : Type}

/-- `images_stream.read(buffer, size)` (image.cpp:43): what the buffer holds afterwards, the rest of the stream, and whether the
stream is still good. -/
def readImage (buf bytes : List Nat) (size : Nat) : List Nat × List Nat × Bool :=
  if size ≤ bytes.length then (bytes.take size, bytes.drop size, true)
  else (bytes ++ buf.drop bytes.length, [], false)

/-- `process_labels_and_images` (image.cpp:28-55). The label stream is its list of lines ended by a newline (an unterminated
rest of the file makes `getline` hit the end of the file and leave the loop, like no line at all). `parse` is `std::stoi`,
`none` an exception; `conv` is the converter with its state. Both streams are good at the start. -/
def loadLoop (size max : Nat) (conv : S → List Nat → List Bool × S) (parse : String → Option Nat) :
    List String → (buf bytes : List Nat) → (good : Bool) → S → List (Nat × List Bool) →
    List (Nat × List Bool) × Outcome Unit
  | lines, buf, bytes, good, st, acc =>
    if good then
      match lines with
      | [] => (acc, .ok ())
      | line :: rest =>
        match parse line with
        | none => (acc, .throw "stoi")
        | some label =>
          let acc' := acc ++ [(label, (conv st (readImage buf bytes size).1).1)]
          if acc'.length = max then (acc', .ok ())
          else loadLoop size max conv parse rest (readImage buf bytes size).1 (readImage buf bytes size).2.1
            (readImage buf bytes size).2.2 (conv st (readImage buf bytes size).1).2 acc'
    else (acc, .ok ())

/-- The whole call on an empty dataset. -/
def loadImages (size max : Nat) (conv : S → List Nat → List Bool × S) (parse : String → Option Nat) (st : S)
    (bytes : List Nat) (lines : List String) : List (Nat × List Bool) × Outcome Unit :=
  loadLoop size max conv parse lines (List.replicate size 0) bytes true st []

end Loading

end Knp.Data
