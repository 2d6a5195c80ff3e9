import Verif.Model.Dataset
import Mathlib.Algebra.Order.Field.Basic
import Mathlib.Algebra.Order.Field.Rat
import Mathlib.Algebra.BigOperators.Group.List.Basic
import Mathlib.Tactic.Ring
import Mathlib.Tactic.Linarith
import Mathlib.Tactic.NormNum
import Mathlib.Tactic.LinearCombination

/-!
# C69, C70, C71, C95, C96: classification datasets
-/

namespace Knp.Props
open Knp Knp.Data

/-! ## C69 -/

/-- C69. For datasets of fewer than 2^32 frames and amounts whose sum does not wrap: if the sum fits, the training part is the
first `a` frames, the inference part the next `b`, nothing else changes; otherwise the call throws. -/
theorem C69_split_partial (d : Dataset) (a b : Nat) (hlen : d.frames.length < two32) (hab : a + b < two64) :
    (a + b ≤ d.frames.length → ∃ d', d.split a b = .ok d' ∧ d'.frames = d.frames ∧
      d'.trainingData = .ok (d.frames.take a) ∧ d'.inferenceData = .ok ((d.frames.drop a).take b) ∧
      d'.stepsTraining = a * d.stepsPerFrame ∧ d'.stepsInference = b * d.stepsPerFrame ∧
      (d'.stepsPerFrame, d'.classes, d'.imageSize) = (d.stepsPerFrame, d.classes, d.imageSize)) ∧
    (d.frames.length < a + b → d.split a b = .throw "Dataset is too small.") := by
  have hsum : addU64 b a = a + b := by rw [addU64_of_lt (by omega)]; omega
  constructor
  · intro h
    have ha : a % two32 = a := Nat.mod_eq_of_lt (by omega)
    have hb : b % two32 = b := Nat.mod_eq_of_lt (by omega)
    refine ⟨{ d with trainN := a, infN := b }, ?_, rfl, ?_, ?_, rfl, rfl, rfl⟩
    · unfold Dataset.split
      rw [hsum, if_neg (by omega), ha, hb]
    · unfold Dataset.trainingData
      rw [if_pos (show a ≤ d.frames.length by omega)]
    · unfold Dataset.inferenceData
      rw [if_pos (show a + b ≤ d.frames.length from h)]
  · intro h
    unfold Dataset.split
    rw [hsum, if_pos h]

example : (let d : Dataset := ⟨[(0, []), (1, []), (2, [])], 0, 0, 1, 3, 0⟩
    d.frames.length < two32 ∧ 2 + 1 < two64 ∧ 2 + 1 ≤ d.frames.length) := by decide

/-- C69 is false in general: with one frame, asking for 2^64 - 1 and 1 is accepted and the training part then ends outside the
dataset. -/
theorem C69_wrap_refuted : ∃ (d d' : Dataset) (a b : Nat), a < two64 ∧ b < two64 ∧ d.frames.length < a + b ∧
    d.split a b = .ok d' ∧ d'.trainingData = .ub :=
  ⟨⟨[(0, [])], 0, 0, 1, 1, 0⟩, ⟨[(0, [])], 4294967295, 1, 1, 1, 0⟩, 18446744073709551615, 1, by decide, by decide,
    by decide, by decide, by decide⟩

/-- C69 is false for datasets of 2^32 frames or more: all of them asked for training, none are used. -/
theorem C69_truncation_refuted (d : Dataset) (h : d.frames.length = two32) :
    ∃ d', d.split two32 0 = .ok d' ∧ d'.trainingData = .ok [] := by
  refine ⟨{ d with trainN := 0, infN := 0 }, ?_, ?_⟩
  · unfold Dataset.split
    have h1 : addU64 0 two32 = two32 := by decide
    have h2 : two32 % two32 = 0 := by decide
    have h3 : 0 % two32 = 0 := by decide
    rw [h1, h, if_neg (Nat.lt_irrefl _), h2, h3]
  · unfold Dataset.trainingData
    rw [if_pos (Nat.zero_le _)]
    simp

example : ∃ d : Dataset, d.frames.length = two32 :=
  ⟨⟨List.replicate two32 (0, []), 0, 0, 1, 1, 0⟩, List.length_replicate⟩

/-! ## C70 -/

/-- The active pixels of sub-step `t` of a frame: what a generator must return, as a set. -/
def PixelActive (imageSize : Nat) (flags : List Bool) (t p : Nat) : Prop :=
  p < imageSize ∧ flags[t * imageSize + p]? = some true

private theorem activeLoop_spec (data : List Bool) (start n off : Nat) (acc : List Nat)
    (h : start + off + n ≤ data.length) :
    Dataset.activeLoop data start n off acc =
      .ok (acc ++ (List.range' off n).filter (fun p => data[start + p]? == some true)) := by
  induction n generalizing off acc with
  | zero => simp [Dataset.activeLoop]
  | succ n ih =>
    rw [Dataset.activeLoop, List.range'_succ, List.filter_cons]
    have hlt : start + off < data.length := by omega
    rw [List.getElem?_eq_getElem hlt]
    cases hv : data[start + off] with
    | true => dsimp only; rw [ih _ _ (by omega)]; simp
    | false => dsimp only; rw [ih _ _ (by omega)]; simp

private theorem imageGen_spec (d : Dataset) (base part t : Nat) (hs : 1 ≤ d.stepsPerFrame) (hp : 1 ≤ part)
    (f : Nat × List Bool) (hf : d.frames[base + (t / d.stepsPerFrame) % part]? = some f)
    (hlen : f.2.length = d.stepsPerFrame * d.imageSize) :
    ∃ l, d.imageGen base part t = .ok l ∧ l.Pairwise (· < ·) ∧
      ∀ p, p ∈ l ↔ PixelActive d.imageSize f.2 (t % d.stepsPerFrame) p := by
  have ht := Nat.mod_lt t (by omega : d.stepsPerFrame > 0)
  have hb : (t % d.stepsPerFrame) * d.imageSize + 0 + d.imageSize ≤ f.2.length := by
    rw [hlen]
    calc (t % d.stepsPerFrame) * d.imageSize + 0 + d.imageSize = (t % d.stepsPerFrame + 1) * d.imageSize := by ring
      _ ≤ d.stepsPerFrame * d.imageSize := Nat.mul_le_mul_right _ (by omega)
  refine ⟨(List.range d.imageSize).filter (fun p => f.2[(t % d.stepsPerFrame) * d.imageSize + p]? == some true), ?_, ?_, ?_⟩
  · unfold Dataset.imageGen
    rw [if_neg (by omega), hf]
    dsimp only
    rw [activeLoop_spec _ _ _ _ _ hb, List.range_eq_range']
    rfl
  · exact List.Pairwise.filter _ List.pairwise_lt_range
  · intro p
    rw [List.mem_filter, List.mem_range]
    unfold PixelActive
    simp

/-- A dataset as the loader builds it: each frame has `steps_per_frame * image_size` flags, and the two parts are inside. -/
structure WellFormed (d : Dataset) : Prop where
  frameSize : ∀ f ∈ d.frames, f.2.length = d.stepsPerFrame * d.imageSize
  steps : 1 ≤ d.stepsPerFrame
  parts : d.trainN + d.infN ≤ d.frames.length

/-- C70, training. At step `t` the generator returns the active pixels, ascending, of sub-step `t mod s` of frame
`(t / s) mod a` of the training part. -/
theorem C70_training (d : Dataset) (h : WellFormed d) (ha : 1 ≤ d.trainN) (t : Nat) :
    ∃ part f l, d.trainingData = .ok part ∧ part.length = d.trainN ∧
      part[(t / d.stepsPerFrame) % part.length]? = some f ∧ d.trainingImages t = .ok l ∧ l.Pairwise (· < ·) ∧
      (∀ p, p ∈ l ↔ PixelActive d.imageSize f.2 (t % d.stepsPerFrame) p) ∧ d.trainingLabels t = .ok [f.1] := by
  have hle : d.trainN ≤ d.frames.length := by have := h.parts; omega
  have hm := Nat.mod_lt (t / d.stepsPerFrame) (by omega : d.trainN > 0)
  have hlt : (t / d.stepsPerFrame) % d.trainN < d.frames.length := by omega
  have hl : (d.frames.take d.trainN).length = d.trainN := by rw [List.length_take]; omega
  have hf := List.getElem?_eq_getElem hlt
  have hf0 : d.frames[0 + (t / d.stepsPerFrame) % d.trainN]? = some d.frames[(t / d.stepsPerFrame) % d.trainN] := by
    rw [Nat.zero_add]; exact hf
  obtain ⟨l, h1, h2, h3⟩ := imageGen_spec d 0 d.trainN t h.steps ha _ hf0 (h.frameSize _ (List.getElem_mem hlt))
  refine ⟨d.frames.take d.trainN, _, l, ?_, hl, ?_, h1, h2, h3, ?_⟩
  · unfold Dataset.trainingData
    rw [if_pos hle]
  · rw [hl, List.getElem?_take_of_lt hm]
    exact hf
  · unfold Dataset.trainingLabels
    rw [if_neg (by have := h.steps; omega), hf]

/-- C70, inference: the same over the inference part. -/
theorem C70_inference (d : Dataset) (h : WellFormed d) (hb : 1 ≤ d.infN) (t : Nat) :
    ∃ part f l, d.inferenceData = .ok part ∧ part.length = d.infN ∧
      part[(t / d.stepsPerFrame) % part.length]? = some f ∧ d.inferenceImages t = .ok l ∧ l.Pairwise (· < ·) ∧
      ∀ p, p ∈ l ↔ PixelActive d.imageSize f.2 (t % d.stepsPerFrame) p := by
  have hle := h.parts
  have hm := Nat.mod_lt (t / d.stepsPerFrame) (by omega : d.infN > 0)
  have hlt : d.trainN + (t / d.stepsPerFrame) % d.infN < d.frames.length := by omega
  have hl : ((d.frames.drop d.trainN).take d.infN).length = d.infN := by
    rw [List.length_take, List.length_drop]; omega
  have hf := List.getElem?_eq_getElem hlt
  obtain ⟨l, h1, h2, h3⟩ := imageGen_spec d d.trainN d.infN t h.steps hb _ hf (h.frameSize _ (List.getElem_mem hlt))
  refine ⟨(d.frames.drop d.trainN).take d.infN, _, l, ?_, hl, ?_, h1, h2, h3⟩
  · unfold Dataset.inferenceData
    rw [if_pos hle]
  · rw [hl, List.getElem?_take_of_lt hm, List.getElem?_drop]
    exact hf

/-- C70, both generators repeat after one pass over their part. -/
theorem C70_periodic (d : Dataset) (t : Nat) :
    d.trainingImages (t + d.stepsTraining) = d.trainingImages t ∧
    d.inferenceImages (t + d.stepsInference) = d.inferenceImages t ∧
    d.trainingLabels (t + d.stepsTraining) = d.trainingLabels t := by
  have key : ∀ part, 0 < d.stepsPerFrame →
      (t + part * d.stepsPerFrame) / d.stepsPerFrame % part = t / d.stepsPerFrame % part ∧
      (t + part * d.stepsPerFrame) % d.stepsPerFrame = t % d.stepsPerFrame := by
    intro part hs
    rw [Nat.add_mul_div_right _ _ hs, Nat.add_mod_right, Nat.add_mul_mod_self_right]
    exact ⟨rfl, rfl⟩
  have gen : ∀ base part, d.imageGen base part (t + part * d.stepsPerFrame) = d.imageGen base part t := by
    intro base part
    unfold Dataset.imageGen
    by_cases hc : d.stepsPerFrame = 0 ∨ part = 0
    · rw [if_pos hc, if_pos hc]
    · rw [if_neg hc, if_neg hc, (key part (by omega)).1, (key part (by omega)).2]
  refine ⟨gen 0 d.trainN, gen d.trainN d.infN, ?_⟩
  unfold Dataset.trainingLabels Dataset.stepsTraining
  by_cases hc : d.stepsPerFrame = 0 ∨ d.trainN = 0
  · rw [if_pos hc, if_pos hc]
  · rw [if_neg hc, if_neg hc, (key d.trainN (by omega)).1]

example : WellFormed ⟨[(3, [true, false, true, true]), (1, [false, true, false, false])], 1, 1, 2, 4, 2⟩ :=
  ⟨by decide, by decide, by decide⟩
example : (⟨[(3, [true, false, true, true]), (1, [false, true, false, false])], 1, 1, 2, 4, 2⟩ : Dataset).trainingImages 7 =
    .ok [0, 1] := by decide

/-- C70, limit: an empty part makes the generator divide by zero. -/
theorem C70_empty_part_ub (d : Dataset) (h : d.infN = 0) (t : Nat) : d.inferenceImages t = .ub := by
  unfold Dataset.inferenceImages Dataset.imageGen
  rw [if_pos (Or.inr h)]

/-! ## C71 -/

section Conv
variable {F : Type}

private theorem convStep_len (o : ConvOps F) (factor : F) (st : List F) (image : List Nat) (h : st.length ≤ image.length) :
    ∃ r, convStep o factor st image = .ok r ∧ r.1.length = st.length ∧ r.2.length = st.length := by
  induction st generalizing image with
  | nil => exact ⟨([], []), rfl, rfl, rfl⟩
  | cons s ss ih =>
    cases image with
    | nil => simp at h
    | cons p ps =>
      obtain ⟨r, h1, h2, h3⟩ := ih ps (by simpa using h)
      rw [convStep, h1]
      dsimp only
      by_cases hg : o.geOne (o.add s (o.mul factor (o.ofByte p))) = true
      · rw [if_pos hg]; exact ⟨_, rfl, by simp [h2], by simp [h3]⟩
      · rw [if_neg hg]; exact ⟨_, rfl, by simp [h2], by simp [h3]⟩

private theorem convLoop_len (o : ConvOps F) (factor : F) (image : List Nat) (n : Nat) (st : List F) (ret : List Bool)
    (h : st.length ≤ image.length) :
    ∃ r, convLoop o factor image n st ret = .ok r ∧ r.1.length = st.length ∧
      r.2.length = ret.length + n * st.length := by
  induction n generalizing st ret with
  | zero => exact ⟨(st, ret), rfl, rfl, by simp⟩
  | succ n ih =>
    obtain ⟨r, h1, h2, h3⟩ := convStep_len o factor st image h
    obtain ⟨q, g1, g2, g3⟩ := ih r.1 (ret ++ r.2) (by omega)
    refine ⟨q, ?_, by omega, ?_⟩
    · rw [convLoop, h1]; exact g1
    · rw [g3, List.length_append, h2, h3]; ring

private theorem padLen_le (spf active sz : Nat) (ha : active ≤ spf) (hspf : spf < two64)
    (hfit : spf * sz < 9223372036854775808) : padLen spf active sz = (spf - active) * sz := by
  unfold padLen
  rw [subU64_of_le ha hspf]
  apply Nat.mod_eq_of_lt
  have : (spf - active) * sz ≤ spf * sz := Nat.mul_le_mul_right _ (by omega)
  have h2 : 9223372036854775808 < two64 := by decide
  omega

private theorem padLen_fits (spf active sz : Nat) (ha : active ≤ spf) (hspf : spf < two64)
    (hfit : spf * sz < 9223372036854775808) : fitsVector (padLen spf active sz) = true := by
  rw [padLen_le spf active sz ha hspf hfit]
  unfold fitsVector
  apply decide_eq_true
  have : (spf - active) * sz ≤ spf * sz := Nat.mul_le_mul_right _ (by omega)
  omega

private theorem padLen_gt (spf active sz : Nat) (ha : spf < active) (h64 : active < two64) (hsz : 1 ≤ sz)
    (hd : (active - spf) * sz ≤ 9223372036854775808) : fitsVector (padLen spf active sz) = false := by
  unfold fitsVector
  apply decide_eq_false
  unfold padLen
  rw [subU64_of_gt ha h64]
  have e1 : (spf + two64 - active) * sz + (active - spf) * sz = two64 * sz := by
    rw [← Nat.add_mul]; congr 1; omega
  have hpos : 1 ≤ (active - spf) * sz := Nat.mul_pos (by omega) (by omega)
  have hbig : two64 = 9223372036854775808 + 9223372036854775808 := by decide
  generalize (active - spf) * sz = x at *
  generalize (spf + two64 - active) * sz = y at *
  generalize two64 = T at *
  obtain ⟨k, rfl⟩ : ∃ k, sz = k + 1 := ⟨sz - 1, by omega⟩
  have e2 : y = (T - x) + T * k := by
    have : T * (k + 1) = T * k + T := by ring
    omega
  rw [e2, Nat.add_mul_mod_self_left, Nat.mod_eq_of_lt (by omega)]
  omega

private theorem convPad_ok (spf active sz : Nat) (ret : List Bool) (n : Nat) (h : fitsVector (padLen spf active sz) = true)
    (hn : padLen spf active sz = n) : convPad spf active sz ret = .ok (ret ++ List.replicate n false) := by
  unfold convPad
  rw [if_pos h, hn]

private theorem convPad_throw (spf active sz : Nat) (ret : List Bool) (h : fitsVector (padLen spf active sz) = false) :
    convPad spf active sz ret = .throw "vector::_M_fill_insert" := by
  unfold convPad
  rw [h]
  exact if_neg Bool.false_ne_true

private theorem obind_ok {α β : Type} (a : α) (f : α → Outcome β) : (Outcome.ok a).bind f = f a := rfl
private theorem obind_throw {α β : Type} (w : String) (f : α → Outcome β) : (Outcome.throw w : Outcome α).bind f = .throw w := rfl

private theorem convert_ok (o : ConvOps F) (spf sz active : Nat) (factor : F) (st : List F) (image : List Nat)
    (r : List F × List Bool) (flags : List Bool)
    (h1 : convLoop o factor image active (if st.isEmpty then List.replicate sz o.zero else st) [] = .ok r)
    (h2 : convPad spf active sz r.2 = .ok flags) : convert o spf sz active factor st image = .ok (r.1, flags) := by
  unfold convert
  rw [h1, obind_ok, h2, obind_ok]

private theorem convert_throw (o : ConvOps F) (spf sz active : Nat) (factor : F) (st : List F) (image : List Nat)
    (r : List F × List Bool)
    (h1 : convLoop o factor image active (if st.isEmpty then List.replicate sz o.zero else st) [] = .ok r)
    (h2 : convPad spf active sz r.2 = .throw "vector::_M_fill_insert") :
    convert o spf sz active factor st image = .throw "vector::_M_fill_insert" := by
  unfold convert
  rw [h1, obind_ok, h2, obind_throw]

/-- States as they are before a call: none yet, or one per pixel. -/
def GoodStates (imageSize : Nat) (st : List F) : Prop := st = [] ∨ st.length = imageSize

/-- C71. If the active steps fit into the frame, the converter succeeds for every image of `image_size` bytes, whatever images
came before, and yields exactly `steps_per_frame * image_size` flags, none set after the active steps; its states stay fit
for the next call. -/
theorem C71_shape (o : ConvOps F) (spf imageSize active : Nat) (factor : F) (st : List F) (image : List Nat)
    (ha : active ≤ spf) (hfit : spf * imageSize < 9223372036854775808) (hspf : spf < two64)
    (hst : GoodStates imageSize st) (himg : image.length = imageSize) :
    ∃ st' flags, convert o spf imageSize active factor st image = .ok (st', flags) ∧ GoodStates imageSize st' ∧
      flags.length = spf * imageSize ∧
      ∀ k, active * imageSize ≤ k → k < spf * imageSize → flags[k]? = some false := by
  have hst2 : (if st.isEmpty then List.replicate imageSize o.zero else st).length = imageSize := by
    rcases hst with rfl | h
    · simp
    · cases st with
      | nil => simp
      | cons a b => simpa using h
  obtain ⟨r, h1, h2, h3⟩ := convLoop_len o factor image active _ [] (by rw [hst2, himg] :
    (if st.isEmpty then List.replicate imageSize o.zero else st).length ≤ image.length)
  rw [hst2] at h2 h3
  have hmul := padLen_le spf active imageSize ha hspf hfit
  have hlt := padLen_fits spf active imageSize ha hspf hfit
  have htot : active * imageSize + (spf - active) * imageSize = spf * imageSize := by
    rw [← Nat.add_mul]; congr 1; omega
  have hr2 : r.2.length = active * imageSize := by rw [h3]; simp
  refine ⟨r.1, r.2 ++ List.replicate ((spf - active) * imageSize) false, ?_, Or.inr h2, ?_, ?_⟩
  · exact convert_ok o spf imageSize active factor st image r _ h1 (convPad_ok spf active imageSize r.2 _ hlt hmul)
  · rw [List.length_append, List.length_replicate, hr2, htot]
  · intro k hk1 hk2
    rw [List.getElem?_append_right (by omega), List.getElem?_replicate, if_pos (by omega)]

/-- C71, limit: more active steps than the frame has are not refused cleanly: the padding length wraps around and the call
throws from the vector (for sizes that do not wrap twice). -/
theorem C71_too_many_active (o : ConvOps F) (spf imageSize active : Nat) (factor : F) (st : List F) (image : List Nat)
    (ha : spf < active) (h64 : active < two64) (hsz : 1 ≤ imageSize)
    (hd : (active - spf) * imageSize ≤ 9223372036854775808) (hst : GoodStates imageSize st) (himg : image.length = imageSize) :
    convert o spf imageSize active factor st image = .throw "vector::_M_fill_insert" := by
  have hst2 : (if st.isEmpty then List.replicate imageSize o.zero else st).length = imageSize := by
    rcases hst with rfl | h
    · simp
    · cases st with
      | nil => simp
      | cons a b => simpa using h
  obtain ⟨r, h1, _, _⟩ := convLoop_len o factor image active _ [] (by rw [hst2, himg] :
    (if st.isEmpty then List.replicate imageSize o.zero else st).length ≤ image.length)
  have hmul := padLen_gt spf active imageSize ha h64 hsz hd
  exact convert_throw o spf imageSize active factor st image r h1 (convPad_throw spf active imageSize r.2 hmul)

end Conv

/-! ## C96: rate coding conserves intensity -/

section Rate
variable {K : Type} [Field K] [LinearOrder K] [IsStrictOrderedRing K]

/-- Exact arithmetic for the converter. -/
def exactConv (K : Type) [Field K] [LinearOrder K] : ConvOps K :=
  { zero := 0, add := (· + ·), mul := (· * ·), ofByte := fun n => (n : K), geOne := fun v => decide (1 ≤ v), dec := fun v => v - 1 }

/-- All images given to one converter, one after another: the frames, and the states at the end. -/
def convertAll {F : Type} (o : ConvOps F) (spf imageSize active : Nat) (factor : F) :
    List F → List (List Nat) → Outcome (List F × List (List Bool))
  | st, [] => .ok (st, [])
  | st, im :: ims =>
    match convert o spf imageSize active factor st im with
    | .ok r =>
      match convertAll o spf imageSize active factor r.1 ims with
      | .ok q => .ok (q.1, r.2 :: q.2)
      | .throw w => .throw w
      | .ub => .ub
    | .throw w => .throw w
    | .ub => .ub

/-- Number of spikes of pixel `l` in one frame. -/
def pixelSpikes (spf imageSize l : Nat) (flags : List Bool) : Nat :=
  (List.range spf).countP (fun i => flags[i * imageSize + l]? == some true)

omit [IsStrictOrderedRing K] in
private theorem convStep_pixel (factor : K) (st : List K) (image : List Nat) (h : st.length ≤ image.length) (l : Nat)
    (hl : l < st.length) :
    ∃ r s s' p b, convStep (exactConv K) factor st image = .ok r ∧ r.1.length = st.length ∧ r.2.length = st.length ∧
      st[l]? = some s ∧ r.1[l]? = some s' ∧ image[l]? = some p ∧ r.2[l]? = some b ∧
      s' + (if b then 1 else 0) = s + factor * (p : K) ∧ (b = true ↔ 1 ≤ s + factor * (p : K)) := by
  induction st generalizing image l with
  | nil => simp at hl
  | cons s ss ih =>
    cases image with
    | nil => simp at h
    | cons p ps =>
      have h' : ss.length ≤ ps.length := by simpa using h
      cases l with
      | zero =>
        obtain ⟨r, h1, h2, h3⟩ := convStep_len (exactConv K) factor ss ps h'
        rw [convStep, h1]
        dsimp only
        by_cases hg : 1 ≤ s + factor * (p : K)
        · rw [if_pos (show (exactConv K).geOne ((exactConv K).add s ((exactConv K).mul factor ((exactConv K).ofByte p))) = true from
            decide_eq_true hg)]
          refine ⟨_, s, s + factor * (p : K) - 1, p, true, rfl, by simp [h2], by simp [h3], rfl, rfl, rfl, rfl, by simp, by simp [hg]⟩
        · rw [if_neg (show ¬ (exactConv K).geOne ((exactConv K).add s ((exactConv K).mul factor ((exactConv K).ofByte p))) = true from by
            simpa [exactConv] using hg)]
          refine ⟨_, s, s + factor * (p : K), p, false, rfl, by simp [h2], by simp [h3], rfl, rfl, rfl, rfl, by simp, by simp [hg]⟩
      | succ l =>
        obtain ⟨r, x, x', q, b, h1, h2, h3, e1, e2, e3, e4, e5, e6⟩ := ih ps h' l (by simpa using hl)
        rw [convStep, h1]
        dsimp only
        by_cases hg : (exactConv K).geOne ((exactConv K).add s ((exactConv K).mul factor ((exactConv K).ofByte p))) = true
        · rw [if_pos hg]
          exact ⟨_, x, x', q, b, rfl, by simp [h2], by simp [h3], by simpa using e1, by simpa using e2, by simpa using e3,
            by simpa using e4, e5, e6⟩
        · rw [if_neg hg]
          exact ⟨_, x, x', q, b, rfl, by simp [h2], by simp [h3], by simpa using e1, by simpa using e2, by simpa using e3,
            by simpa using e4, e5, e6⟩

/-- Spikes of pixel `l` in `n` blocks of `sz` flags starting at block `start`. -/
private def blockCount (sz l start n : Nat) (flags : List Bool) : Nat :=
  (List.range' start n).countP (fun i => flags[i * sz + l]? == some true)

private theorem convLoop_pixel (factor : K) (image : List Nat) (sz l p : Nat) (hl : l < sz) (himg : sz ≤ image.length)
    (hp : image[l]? = some p) (n k : Nat) (st : List K) (ret : List Bool) (hst : st.length = sz) (hret : ret.length = k * sz)
    (s : K) (hs : st[l]? = some s) :
    ∃ r s', convLoop (exactConv K) factor image n st ret = .ok r ∧ r.1.length = sz ∧ r.2.length = (k + n) * sz ∧
      r.1[l]? = some s' ∧ (∀ i, i < ret.length → r.2[i]? = ret[i]?) ∧
      s' + (blockCount sz l k n r.2 : K) = s + n * (factor * (p : K)) ∧
      (0 ≤ factor * (p : K) → factor * (p : K) ≤ 1 → 0 ≤ s → s < 1 → 0 ≤ s' ∧ s' < 1) := by
  induction n generalizing k st ret s with
  | zero =>
    refine ⟨(st, ret), s, rfl, hst, by simpa using hret, hs, fun _ _ => rfl, ?_, fun _ _ h1 h2 => ⟨h1, h2⟩⟩
    simp [blockCount]
  | succ n ih =>
    obtain ⟨r, x, x', q, b, h1, h2, h3, e1, e2, e3, e4, e5, e6⟩ :=
      convStep_pixel factor st image (by omega) l (by omega)
    rw [hs] at e1
    obtain rfl := Option.some.inj e1
    rw [hp] at e3
    obtain rfl := Option.some.inj e3
    have hlen : (ret ++ r.2).length = (k + 1) * sz := by rw [List.length_append, h3, hst, hret]; ring
    obtain ⟨w, s', g1, g2, g3, g4, g5, g6, g7⟩ := ih (k + 1) r.1 (ret ++ r.2) (by omega) hlen x' e2
    have hbit : w.2[k * sz + l]? = some b := by
      rw [g5 (k * sz + l) (by rw [hlen]; have : (k + 1) * sz = k * sz + sz := by ring
                              omega)]
      rw [List.getElem?_append_right (by omega), hret]
      have : k * sz + l - k * sz = l := by omega
      rw [this]; exact e4
    refine ⟨w, s', ?_, g2, ?_, g4, ?_, ?_, ?_⟩
    · rw [convLoop, h1]; exact g1
    · rw [g3]; ring
    · intro i hi
      rw [g5 i (by rw [List.length_append]; omega), List.getElem?_append_left hi]
    · have hcount : blockCount sz l k (n + 1) w.2 = (if b then 1 else 0) + blockCount sz l (k + 1) n w.2 := by
        unfold blockCount
        rw [List.range'_succ, List.countP_cons, hbit]
        cases b <;> simp [Nat.add_comm]
      rw [hcount]
      push_cast
      cases b with
      | true =>
        simp only [if_true] at e5 ⊢
        linear_combination g6 + e5
      | false =>
        simp only [if_false, Bool.false_eq_true] at e5 ⊢
        linear_combination g6 + e5
    · intro i0 i1 s0 s1
      apply g7 i0 i1
      · cases b with
        | true => have := e6.1 rfl; simp only [if_true] at e5; linarith
        | false => simp only [if_false, Bool.false_eq_true] at e5; linarith
      · cases b with
        | true => simp only [if_true] at e5; linarith
        | false =>
          have : ¬ (1 ≤ s + factor * (p : K)) := fun hh => by have := e6.2 hh; cases this
          simp only [if_false, Bool.false_eq_true] at e5
          linarith

private theorem convert_pixel (spf sz active : Nat) (factor : K) (st : List K) (image : List Nat) (l p : Nat) (s : K)
    (ha : active ≤ spf) (hfit : spf * sz < 9223372036854775808) (hspf : spf < two64) (himg : image.length = sz) (hl : l < sz)
    (hp : image[l]? = some p) (hs : (st = [] ∧ s = 0) ∨ (st.length = sz ∧ st[l]? = some s)) :
    ∃ r s', convert (exactConv K) spf sz active factor st image = .ok r ∧ r.1.length = sz ∧ r.1[l]? = some s' ∧
      s' + (pixelSpikes spf sz l r.2 : K) = s + active * (factor * (p : K)) ∧
      (0 ≤ factor * (p : K) → factor * (p : K) ≤ 1 → 0 ≤ s → s < 1 → 0 ≤ s' ∧ s' < 1) := by
  have hg : GoodStates sz st := by
    rcases hs with ⟨h, _⟩ | ⟨h, _⟩
    · exact Or.inl h
    · exact Or.inr h
  obtain ⟨st', flags, hc, _, hlen, hz⟩ := C71_shape (exactConv K) spf sz active factor st image ha hfit hspf hg himg
  have hst2 : (if st.isEmpty then List.replicate sz (exactConv K).zero else st).length = sz ∧
      (if st.isEmpty then List.replicate sz (exactConv K).zero else st)[l]? = some s := by
    rcases hs with ⟨rfl, rfl⟩ | ⟨h1, h2⟩
    · simp [exactConv, hl]
    · cases st with
      | nil => simp at h2
      | cons a b => exact ⟨by simpa using h1, by simpa using h2⟩
  obtain ⟨r, s', g1, g2, g3, g4, _, g6, g7⟩ := convLoop_pixel factor image sz l p hl (by omega) hp active 0 _ []
    hst2.1 (by simp) s hst2.2
  -- the frame is the flags of the active steps plus padding
  have hr : st' = r.1 ∧ ∃ pad, flags = r.2 ++ pad := by
    have hpd := padLen_fits spf active sz ha hspf hfit
    have := convert_ok (exactConv K) spf sz active factor st image r _ g1 (convPad_ok spf active sz r.2 _ hpd rfl)
    rw [hc] at this
    have e2 := Prod.mk.inj (Outcome.ok.inj this)
    exact ⟨e2.1, _, e2.2⟩
  obtain ⟨rfl, pad, rfl⟩ := hr
  refine ⟨_, s', hc, g2, g4, ?_, g7⟩
  have hcount : pixelSpikes spf sz l (r.2 ++ pad) = blockCount sz l 0 active r.2 := by
    unfold pixelSpikes blockCount
    have hsplit : spf = active + (spf - active) := by omega
    conv_lhs => rw [hsplit, List.range_add, List.countP_append, List.countP_map]
    have h0 : List.countP ((fun i => (r.2 ++ pad)[i * sz + l]? == some true) ∘ fun x => active + x) (List.range (spf - active)) = 0 := by
      rw [List.countP_eq_zero]
      intro i hi
      have hi' : i < spf - active := List.mem_range.1 hi
      have e1 : active * sz ≤ (active + i) * sz + l := by
        have : active * sz ≤ (active + i) * sz := Nat.mul_le_mul_right _ (by omega)
        omega
      have e2 : (active + i) * sz + l < spf * sz := by
        calc (active + i) * sz + l < (active + i) * sz + sz := by omega
          _ = (active + i + 1) * sz := by ring
          _ ≤ spf * sz := Nat.mul_le_mul_right _ (by omega)
      have := hz _ e1 e2
      simp [this]
    rw [h0, Nat.add_zero, List.range_eq_range']
    apply List.countP_congr
    intro i hi
    have hi' : i < active := by
      have := List.mem_range'_1.1 hi; omega
    have : i * sz + l < r.2.length := by
      rw [g3]
      calc i * sz + l < i * sz + sz := by omega
        _ = (i + 1) * sz := by ring
        _ ≤ (0 + active) * sz := Nat.mul_le_mul_right _ (by omega)
    rw [List.getElem?_append_left this]
  rw [hcount]
  exact g6

/-- C96. In exact arithmetic, for every sequence of images and every pixel whose increments lie in `[0, 1]`, the number of
spikes the pixel sends over all frames is the whole part of its total increment: `N <= T < N + 1`. -/
theorem C96_rate (spf sz active : Nat) (factor : K) (images : List (List Nat)) (l : Nat) (hl : l < sz)
    (ha : active ≤ spf) (hfit : spf * sz < 9223372036854775808) (hspf : spf < two64)
    (himg : ∀ im ∈ images, im.length = sz)
    (hinc : ∀ im ∈ images, ∀ p, im[l]? = some p → 0 ≤ factor * (p : K) ∧ factor * (p : K) ≤ 1) :
    ∃ st frames, convertAll (exactConv K) spf sz active factor [] images = .ok (st, frames) ∧
      frames.length = images.length ∧
      ((frames.map (pixelSpikes spf sz l)).sum : K) ≤ active * (factor * (((images.map (fun im => im.getD l 0)).sum : Nat) : K)) ∧
      active * (factor * (((images.map (fun im => im.getD l 0)).sum : Nat) : K)) < ((frames.map (pixelSpikes spf sz l)).sum : K) + 1 := by
  have gen : ∀ (images : List (List Nat)) (st : List K) (s : K),
      (∀ im ∈ images, im.length = sz) →
      (∀ im ∈ images, ∀ p, im[l]? = some p → 0 ≤ factor * (p : K) ∧ factor * (p : K) ≤ 1) →
      ((st = [] ∧ s = 0) ∨ (st.length = sz ∧ st[l]? = some s)) → 0 ≤ s → s < 1 →
      ∃ st' frames s', convertAll (exactConv K) spf sz active factor st images = .ok (st', frames) ∧
        frames.length = images.length ∧
        s' + (((frames.map (pixelSpikes spf sz l)).sum : Nat) : K) =
          s + active * (factor * (((images.map (fun im => im.getD l 0)).sum : Nat) : K)) ∧ 0 ≤ s' ∧ s' < 1 := by
    intro images
    induction images with
    | nil =>
      intro st s _ _ _ h0 h1
      exact ⟨st, [], s, rfl, rfl, by simp, h0, h1⟩
    | cons im ims ih =>
      intro st s hi hinc hs h0 h1
      have him := hi im (by simp)
      obtain ⟨p, hp⟩ : ∃ p, im[l]? = some p := ⟨im[l]'(by omega), List.getElem?_eq_getElem (by omega)⟩
      obtain ⟨r, s1, c1, c2, c3, c4, c5⟩ := convert_pixel spf sz active factor st im l p s ha hfit hspf him hl hp hs
      have hb := c5 (hinc im (by simp) p hp).1 (hinc im (by simp) p hp).2 h0 h1
      obtain ⟨st', frames, s', d1, d2, d3, d4, d5⟩ := ih r.1 s1 (fun x hx => hi x (by simp [hx]))
        (fun x hx => hinc x (by simp [hx])) (Or.inr ⟨c2, c3⟩) hb.1 hb.2
      refine ⟨st', r.2 :: frames, s', ?_, by simp [d2], ?_, d4, d5⟩
      · rw [convertAll, c1]
        dsimp only
        rw [d1]
      · have hgd : im.getD l 0 = p := by rw [List.getD_eq_getElem?_getD, hp]; rfl
        simp only [List.map_cons, List.sum_cons, hgd]
        push_cast
        linear_combination d3 + c4
  obtain ⟨st', frames, s', d1, d2, d3, d4, d5⟩ := gen images [] 0 himg hinc (Or.inl ⟨rfl, rfl⟩) (le_refl _) zero_lt_one
  refine ⟨st', frames, d1, d2, ?_, ?_⟩
  · linarith
  · linarith

end Rate

/-- Non-vacuity: factor 1/4, two images of two pixels, three active steps of four. -/
example : (match convertAll (exactConv Rat) 4 2 3 (1 / 4) [] [[2, 1], [1, 4]] with
    | .ok r => r.2.map (pixelSpikes 4 2 0)
    | _ => []) = [1, 1] := by decide +kernel

/-! ## C95: loading -/

section LoadP
variable {S : Type}

/-- The frames of images `imgs` with labels `labels`, converted one after another. -/
def framesOf (conv : S → List Nat → List Bool × S) : S → List (List Nat) → List Nat → List (Nat × List Bool)
  | st, im :: ims, lb :: lbs => (lb, (conv st im).1) :: framesOf conv (conv st im).2 ims lbs
  | _, _, _ => []

/-- C95. If the image file consists of whole images and there are no more label lines than images, the dataset gets
image `i` with label `i`, in order, at most `max` of them. -/
theorem C95_load_partial (size max : Nat) (conv : S → List Nat → List Bool × S) (parse : String → Option Nat) (st : S)
    (imgs : List (List Nat)) (lines : List String) (labels : List Nat) (hmax : 1 ≤ max)
    (hsz : ∀ im ∈ imgs, im.length = size) (hlab : lines.map parse = labels.map some) (hle : lines.length ≤ imgs.length) :
    loadImages size max conv parse st imgs.flatten lines = ((framesOf conv st imgs labels).take max, .ok ()) := by
  have gen : ∀ (lines : List String) (labels : List Nat) (imgs : List (List Nat)) (st : S) (buf : List Nat)
      (acc : List (Nat × List Bool)), (∀ im ∈ imgs, im.length = size) → lines.map parse = labels.map some →
      lines.length ≤ imgs.length → acc.length < max →
      loadLoop size max conv parse lines buf imgs.flatten true st acc =
        (acc ++ (framesOf conv st imgs labels).take (max - acc.length), .ok ()) := by
    intro lines
    induction lines with
    | nil =>
      intro labels imgs st buf acc _ hlab _ _
      have : labels = [] := by
        cases labels with
        | nil => rfl
        | cons a b => simp at hlab
      subst this
      rw [loadLoop]
      have : framesOf conv st imgs [] = [] := by cases imgs <;> rfl
      simp [this]
    | cons line rest ih =>
      intro labels imgs st buf acc hsz hlab hle hacc
      cases labels with
      | nil => simp at hlab
      | cons lb lbs =>
        cases imgs with
        | nil => simp at hle
        | cons im ims =>
          have hp : parse line = some lb := by simpa using (List.cons.inj hlab).1
          have hlen := hsz im (by simp)
          have hread : readImage buf (im :: ims).flatten size = (im, ims.flatten, true) := by
            unfold readImage
            rw [List.flatten_cons, if_pos (by rw [List.length_append]; omega)]
            rw [← hlen, List.take_left, List.drop_left]
          rw [loadLoop, if_pos rfl, hread]
          dsimp only
          rw [hp]
          dsimp only
          by_cases hm : (acc ++ [(lb, (conv st im).1)]).length = max
          · rw [if_pos hm]
            have hl : max - acc.length = 1 := by rw [List.length_append] at hm; simp at hm; omega
            rw [hl, framesOf]
            simp
          · rw [if_neg hm]
            rw [ih lbs ims (conv st im).2 im _ (fun x hx => hsz x (by simp [hx])) (by simpa using (List.cons.inj hlab).2)
              (by simpa using hle) (by rw [List.length_append] at hm ⊢; simp at hm ⊢; omega)]
            have hl : max - acc.length = (max - (acc ++ [(lb, (conv st im).1)]).length) + 1 := by
              rw [List.length_append] at hm ⊢; simp at hm ⊢; omega
            rw [hl, framesOf, List.take_succ_cons]
            simp
  have := gen lines labels imgs st (List.replicate size 0) [] hsz hlab hle (show 0 < max by omega)
  unfold loadImages
  rw [this]
  simp

/-- A converter for the examples: a flag per byte. -/
private def plain : Unit → List Nat → List Bool × Unit := fun _ im => (im.map (fun b => decide (0 < b)), ())

/-- A label parser for the examples. -/
private def digit : String → Option Nat := fun s => if s = "0" then some 0 else if s = "1" then some 1 else none

example : loadImages 2 5 plain digit () [1, 0, 0, 1] ["1", "0"] = ([(1, [true, false]), (0, [false, true])], .ok ()) ∧
    (["1", "0"].map digit = [1, 0].map some) := by decide

/-- C95 is false in general. (1) One label more than images: the last image is loaded a second time, under the wrong label.
(2) A truncated last image is completed with bytes of the image before it. (3) A limit of 0 images loads all of them. -/
theorem C95_refuted :
    loadImages 2 5 plain digit () [1, 0] ["1", "0"] = ([(1, [true, false]), (0, [true, false])], .ok ()) ∧
    loadImages 2 5 plain digit () [0, 1, 0] ["1", "0"] = ([(1, [false, true]), (0, [false, true])], .ok ()) ∧
    loadImages 2 0 plain digit () [1, 0] ["1"] = ([(1, [true, false])], .ok ()) := by decide

end LoadP

end Knp.Props
