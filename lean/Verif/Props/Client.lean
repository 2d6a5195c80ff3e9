import Verif.Props.MnistLog
import Verif.Lemmas.Rounding
import Verif.Model.Client

/-!
# C171: the example `mnist-client`

What the client reads from the file, what it shows to the network in every step, when it stops, and what it reports.
-/

namespace Knp.Props
open Knp Knp.Spec Knp.Neurons Knp.Stdp Knp.Prog

/-! ## Reading -/

/-- Image `i` of a file. -/
def imageAt (size : Nat) (bytes : List Nat) (i : Nat) : List Nat := (bytes.drop (i * size)).take size

/-- C171, reading.  Of a file with images of `size` bytes the client reads all complete images, in order, byte by byte, and then one more image: what is left
of the file, possibly nothing, filled up with zeros. -/
theorem C171_images (size : Nat) (hs : 0 < size) : ∀ (fuel : Nat) (bytes : List Nat), bytes.length / size < fuel →
    ∃ images, Client.readImages size fuel (some bytes) = some images ∧ images.length = bytes.length / size + 1 ∧
      (∀ i < bytes.length / size, images[i]? = some (imageAt size bytes i)) ∧
      images[bytes.length / size]? = some (bytes.drop (bytes.length / size * size) ++ List.replicate (size - bytes.length % size) 0) ∧
      ∀ image ∈ images, image.length = size
  | 0, _, h => absurd h (Nat.not_lt_zero _)
  | fuel + 1, bytes, h => by
    show ∃ images, Client.readLoop size (fuel + 1) bytes = some images ∧ _
    unfold Client.readLoop
    by_cases hlt : bytes.length < size
    · simp only [if_pos hlt]
      have hz : bytes.length / size = 0 := Nat.div_eq_of_lt hlt
      refine ⟨_, rfl, by rw [hz]; rfl, fun i hi => by omega, ?_, ?_⟩
      · rw [hz, Nat.mod_eq_of_lt hlt, List.take_of_length_le (by omega)]
        simp
      · intro image hi
        rw [List.mem_singleton.1 hi]
        simp
        omega
    · simp only [if_neg hlt]
      have hd : (bytes.drop size).length / size + 1 = bytes.length / size := by
        rw [List.length_drop]
        conv_rhs => rw [show bytes.length = bytes.length - size + size by omega]
        rw [Nat.add_div_right _ hs]
      obtain ⟨images, h1, h2, h3, h4, h5⟩ := C171_images size hs fuel (bytes.drop size) (by omega)
      have h1 : Client.readLoop size fuel (bytes.drop size) = some images := h1
      rw [h1]
      refine ⟨_, rfl, by rw [List.length_cons, h2, hd], ?_, ?_, ?_⟩
      · intro i hi
        cases i with
        | zero =>
          have : size - bytes.length = 0 := by omega
          simp [imageAt, this]
        | succ i =>
          rw [List.getElem?_cons_succ, h3 i (by omega)]
          unfold imageAt
          rw [List.drop_drop, Nat.succ_mul, Nat.add_comm]
      · rw [← hd, List.getElem?_cons_succ, h4, List.drop_drop, Nat.succ_mul, Nat.add_comm size]
        have : (bytes.drop size).length % size = bytes.length % size := by
          rw [List.length_drop]
          exact (Nat.mod_eq_sub_mod (by omega)).symm
        rw [this]
      · intro image hi
        rcases List.mem_cons.1 hi with rfl | hi
        · simp
          omega
        · exact h5 image hi

/-- C171: no file is read as exactly the images in it.  Whatever images a file consists of, a black one is read after them. -/
theorem C171_images_refuted (size : Nat) (hs : 0 < size) (file : List (List Nat)) (hf : ∀ i ∈ file, i.length = size) (fuel : Nat) (hfuel : file.length < fuel) :
    Client.readImages size fuel (some file.flatten) = some (file ++ [List.replicate size 0]) := by
  show Client.readLoop size fuel file.flatten = _
  induction file generalizing fuel with
  | nil =>
    cases fuel with
    | zero => simp at hfuel
    | succ fuel =>
      unfold Client.readLoop
      simp [hs]
  | cons i file ih =>
    cases fuel with
    | zero => simp at hfuel
    | succ fuel =>
      have hi := hf i (by simp)
      unfold Client.readLoop
      have hl : ¬ (i :: file).flatten.length < size := by
        rw [List.flatten_cons, List.length_append]; omega
      simp only [if_neg hl]
      have e1 : (i :: file).flatten.take size = i := by rw [List.flatten_cons, ← hi, List.take_left']; rfl
      have e2 : (i :: file).flatten.drop size = file.flatten := by rw [List.flatten_cons, ← hi, List.drop_left']; rfl
      have e3 : size - (i :: file).flatten.length = 0 := by omega
      rw [e1, e2, e3, ih (fun j hj => hf j (by simp [hj])) fuel (by simpa using hfuel)]
      simp

/-- C171: with images of 0 bytes the client never stops reading; with a file that cannot be opened there are no images. -/
theorem C171_images_none (bytes : List Nat) (size fuel : Nat) : Client.readImages 0 fuel (some bytes) = none ∧ Client.readImages size fuel none = some [] := by
  refine ⟨?_, rfl⟩
  show Client.readLoop 0 fuel bytes = none
  induction fuel generalizing bytes with
  | zero => rfl
  | succ fuel ih =>
    unfold Client.readLoop
    simp [ih]

/-! ## Frames -/

private theorem threshold_mono (levels : Nat) {j k : Nat} (h : j ≤ k) : Client.threshold levels j ≤ Client.threshold levels k := by
  unfold Client.threshold Store.toDouble
  apply Store.rnd_mono 53 (by decide)
  apply mul_le_mul_of_nonneg_left
  · exact_mod_cast Nat.succ_le_succ h
  · exact Store.rnd_nonneg 53 (by decide) (by positivity)

/-- Pixel `x` is on in frame `k`. -/
def OnIn (frames : List (List Bool)) (k x : Nat) : Prop := ∃ f, frames[k]? = some f ∧ f[x]? = some true

/-- C171, frames of an image: as many as asked for, each with one entry per pixel, except that those from number `levels` on are empty.  A pixel that is on
in a frame is on in all frames before, and so is every pixel at least as bright. -/
theorem C171_frames (buf : List Nat) (levels frames : Nat) : (Client.imageToSpikes buf levels frames).length = frames ∧
    (∀ k < frames, ∃ f, (Client.imageToSpikes buf levels frames)[k]? = some f ∧ f.length = if k < levels then buf.length else 0) ∧
    ∀ k x, OnIn (Client.imageToSpikes buf levels frames) k x → ∀ j ≤ k, ∀ y b c, buf[x]? = some b → buf[y]? = some c → b ≤ c →
      OnIn (Client.imageToSpikes buf levels frames) j y := by
  unfold Client.imageToSpikes
  refine ⟨by simp, fun k hk => ⟨_, by rw [List.getElem?_map, List.getElem?_range hk]; rfl, by
    show (if k < levels then _ else _ : List Bool).length = _
    split <;> simp⟩, ?_⟩
  rintro k x ⟨f, hf, hx⟩ j hj y b c hb hc hbc
  rw [List.getElem?_map, Option.map_eq_some_iff] at hf
  obtain ⟨k', hk', rfl⟩ := hf
  obtain ⟨hlt, hk'⟩ := List.getElem?_eq_some_iff.1 hk'
  simp only [List.getElem_range] at hk'
  subst hk'
  rw [List.length_range] at hlt
  split at hx
  · rename_i hl
    refine ⟨_, by rw [List.getElem?_map, List.getElem?_range (by omega)]; rfl, ?_⟩
    simp only [if_pos (by omega : j < levels)]
    rw [List.getElem?_map, hc]
    rw [List.getElem?_map, hb] at hx
    simp only [Option.map_some, Option.some.injEq, decide_eq_true_eq] at hx ⊢
    have hbc : (b : Rat) ≤ (c : Rat) := by exact_mod_cast hbc
    exact ((threshold_mono levels hj).trans hx).trans hbc
  · cases hx

private theorem ten : ∀ k < 10, Client.threshold 10 k ≤ ((256 * (k + 1) + 9) / 10 : Nat) ∧ ((256 * (k + 1) + 9) / 10 - 1 : Nat) < Client.threshold 10 k := by
  decide +kernel

/-- C171, the client's ten levels: a pixel is on in frame `k` of its image exactly if its brightness is at least `25.6 (k + 1)`, rounding notwithstanding;
so never from frame 9 on. -/
theorem C171_ten_levels (buf : List Nat) (frames k x b : Nat) (hk : k < frames) (hb : buf[x]? = some b) :
    (OnIn (Client.imageToSpikes buf 10 frames) k x ↔ k < 10 ∧ 256 * (k + 1) ≤ 10 * b) ∧ (b ≤ 255 → 9 ≤ k → ¬ OnIn (Client.imageToSpikes buf 10 frames) k x) := by
  have key : OnIn (Client.imageToSpikes buf 10 frames) k x ↔ k < 10 ∧ 256 * (k + 1) ≤ 10 * b := by
    unfold OnIn Client.imageToSpikes
    rw [List.getElem?_map, List.getElem?_range hk]
    simp only [Option.map_some, Option.some.injEq, exists_eq_left']
    by_cases hl : k < 10
    · rw [if_pos hl, List.getElem?_map, hb]
      simp only [Option.map_some, Option.some.injEq, decide_eq_true_eq, hl, true_and]
      obtain ⟨h1, h2⟩ := ten k hl
      constructor
      · intro h
        have : ((((256 * (k + 1) + 9) / 10 - 1 : Nat)) : Rat) < (b : Rat) := h2.trans_le h
        have : (256 * (k + 1) + 9) / 10 - 1 < b := by exact_mod_cast this
        omega
      · intro h
        have : (256 * (k + 1) + 9) / 10 ≤ b := by omega
        exact h1.trans (by exact_mod_cast this)
    · rw [if_neg hl]
      simp [hl]
  exact ⟨key, fun h1 h2 hc => by have := key.1 hc; omega⟩

/-- C171: for other numbers of levels rounding can matter.  With 364 levels a pixel of brightness 192 is off in frame 272, whose threshold is exactly
`256 / 364 * 273 = 192`. -/
theorem C171_levels_refuted : 256 * (272 + 1) ≤ 364 * 192 ∧ ¬ OnIn (Client.imageToSpikes [192] 364 400) 272 0 := by
  refine ⟨by decide, ?_⟩
  unfold OnIn Client.imageToSpikes
  rw [List.getElem?_map, List.getElem?_range (by decide)]
  simp only [Option.map_some, Option.some.injEq, exists_eq_left']
  rw [if_pos (by decide)]
  have : decide (Client.threshold 364 272 ≤ ((192 : Nat) : Rat)) = false := by decide +kernel
  simp only [List.map_cons, List.map_nil, this]
  decide

/-- C171, the generator without `skip`, as the client uses it: in step `t` the pixels on in frame `t`, ascending, nothing after the last frame; always
defined.  With a `skip` it reads past the end of the frames in the last `skip` steps. -/
theorem C171_generator (frames : List (List Bool)) (t : Nat) :
    (∃ l, Client.generated frames 0 t = .ok l ∧ l.Pairwise (· < ·) ∧ ∀ x, x ∈ l ↔ OnIn frames t x) ∧
    ∀ skip, (Client.generated frames skip t = .ub ↔ t < frames.length ∧ frames.length ≤ t + skip) := by
  have hi : ∀ f : List Bool, (Client.indices f).Pairwise (· < ·) ∧ ∀ x, x ∈ Client.indices f ↔ f[x]? = some true := by
    intro f
    unfold Client.indices
    refine ⟨List.Pairwise.filter _ List.pairwise_lt_range, fun x => ?_⟩
    rw [List.mem_filter, List.mem_range, beq_iff_eq]
    exact ⟨fun h => h.2, fun h => ⟨(List.getElem?_eq_some_iff.1 h).1, h⟩⟩
  constructor
  · unfold Client.generated
    by_cases h : frames.length ≤ t
    · rw [if_pos h]
      refine ⟨[], rfl, List.Pairwise.nil, fun x => ⟨(fun hc => by cases hc), ?_⟩⟩
      rintro ⟨f, hf, _⟩
      have := (List.getElem?_eq_some_iff.1 hf).1
      omega
    · rw [if_neg h, Nat.add_zero, List.getElem?_eq_getElem (by omega)]
      refine ⟨_, rfl, (hi _).1, fun x => ?_⟩
      rw [(hi _).2]
      unfold OnIn
      rw [List.getElem?_eq_getElem (by omega : t < frames.length)]
      simp only [Option.some.injEq, exists_eq_left']
  · intro skip
    unfold Client.generated
    by_cases h : frames.length ≤ t
    · rw [if_pos h]
      exact ⟨(fun hc => by cases hc), fun hc => by omega⟩
    · rw [if_neg h]
      by_cases h2 : frames.length ≤ t + skip
      · rw [List.getElem?_eq_none h2]
        exact ⟨fun _ => ⟨by omega, h2⟩, fun _ => rfl⟩
      · rw [List.getElem?_eq_getElem (by omega)]
        exact ⟨(fun hc => by cases hc), fun hc => absurd hc.2 h2⟩

private theorem block {α β : Type} (f : α → List β) (n : Nat) : ∀ (l : List α), (∀ a ∈ l, (f a).length = n) → ∀ (i k : Nat), k < n →
    (l.flatMap f)[n * i + k]? = (l[i]?).bind (fun a => (f a)[k]?)
  | [], _, i, k, _ => by simp
  | a :: l, h, i, k, hk => by
    have ha := h a (by simp)
    rw [List.flatMap_cons]
    cases i with
    | zero =>
      rw [Nat.mul_zero, Nat.zero_add, List.getElem?_append_left (by omega)]
      rfl
    | succ i =>
      rw [List.getElem?_append_right (by rw [ha, Nat.mul_succ]; omega), ha, show n * (i + 1) + k - n = n * i + k by rw [Nat.mul_succ]; omega,
        block f n l (fun b hb => h b (by simp [hb])) i k hk]
      rfl

/-- C171, from the file to the frames, with the client's ten levels: for the `size`-byte images of a file there are `perImage` frames each and `perImage`
more; in frame number `perImage * i + k` exactly those pixels `x` are on for which byte `x` of image `i` is at least `25.6 (k + 1)`. -/
theorem C171_file (size perImage fuel : Nat) (hs : 0 < size) (bytes : List Nat) (hf : bytes.length / size < fuel) :
    ∃ frames, Client.readFrames size perImage 10 0 fuel (some bytes) = some frames ∧ frames.length = perImage * (bytes.length / size + 1) ∧
      ∀ i k x, k < perImage → (OnIn frames (perImage * i + k) x ↔
        k < 10 ∧ x < size ∧ ∃ b, bytes[size * i + x]? = some b ∧ 256 * (k + 1) ≤ 10 * b) := by
  obtain ⟨images, h1, h2, h3, h4, h5⟩ := C171_images size hs fuel bytes hf
  unfold Client.readFrames
  rw [h1, Option.map_some, List.drop_zero]
  refine ⟨_, rfl, ?_, ?_⟩
  · rw [List.length_flatMap, List.map_congr_left (g := fun _ => perImage) (fun i _ => (C171_frames i 10 perImage).1)]
    simp [h2, Nat.mul_comm]
  · intro i k x hk
    have hb := block (fun i => Client.imageToSpikes i 10 perImage) perImage images (fun i _ => (C171_frames i 10 perImage).1) i k hk
    have hon : OnIn (images.flatMap (fun i => Client.imageToSpikes i 10 perImage)) (perImage * i + k) x ↔
        ∃ img, images[i]? = some img ∧ OnIn (Client.imageToSpikes img 10 perImage) k x := by
      unfold OnIn
      rw [hb]
      cases images[i]? with
      | none => simp
      | some img => simp
    rw [hon]
    have hdm := Nat.div_add_mod bytes.length size
    have hmod := Nat.mod_lt bytes.length hs
    -- what is in an image
    have hpix : ∀ img, images[i]? = some img → ∀ x, x < size → ∃ b, img[x]? = some b ∧
        (bytes[size * i + x]? = some b ∨ (bytes[size * i + x]? = none ∧ b = 0)) := by
      intro img himg x hx
      have hi : i < bytes.length / size + 1 := by rw [← h2]; exact (List.getElem?_eq_some_iff.1 himg).1
      rcases Nat.lt_or_ge i (bytes.length / size) with hlt | hge
      · rw [h3 i hlt] at himg
        simp only [Option.some.injEq] at himg
        subst himg
        have hle : size * (i + 1) ≤ size * (bytes.length / size) := Nat.mul_le_mul_left _ hlt
        rw [Nat.mul_succ] at hle
        have hin : size * i + x < bytes.length := by omega
        refine ⟨bytes[size * i + x], ?_, .inl (List.getElem?_eq_getElem hin)⟩
        unfold imageAt
        rw [List.getElem?_take_of_lt hx, List.getElem?_drop, Nat.mul_comm i]
        exact List.getElem?_eq_getElem hin
      · have he : i = bytes.length / size := by omega
        subst he
        rw [h4] at himg
        simp only [Option.some.injEq] at himg
        subst himg
        have hlen : (bytes.drop (bytes.length / size * size)).length = bytes.length % size := by
          rw [List.length_drop, Nat.mul_comm]; omega
        rcases Nat.lt_or_ge x (bytes.length % size) with hx1 | hx1
        · have hin : size * (bytes.length / size) + x < bytes.length := by omega
          refine ⟨bytes[size * (bytes.length / size) + x], ?_, .inl (List.getElem?_eq_getElem hin)⟩
          rw [List.getElem?_append_left (by rw [hlen]; exact hx1), List.getElem?_drop, Nat.mul_comm (bytes.length / size)]
          exact List.getElem?_eq_getElem hin
        · refine ⟨0, ?_, .inr ⟨List.getElem?_eq_none (by omega), rfl⟩⟩
          rw [List.getElem?_append_right (by rw [hlen]; exact hx1), hlen, List.getElem?_replicate, if_pos (by omega)]
    constructor
    · rintro ⟨img, himg, hc⟩
      have hxs : x < size := by
        obtain ⟨f, hf, hx⟩ := hc
        obtain ⟨f', hf', hl⟩ := (C171_frames img 10 perImage).2.1 k hk
        rw [hf] at hf'
        simp only [Option.some.injEq] at hf'
        subst hf'
        have := (List.getElem?_eq_some_iff.1 hx).1
        rw [hl] at this
        split at this
        · rw [h5 img (List.mem_of_getElem? himg)] at this; exact this
        · omega
      obtain ⟨b, hb1, hb2⟩ := hpix img himg x hxs
      obtain ⟨g1, g2⟩ := ((C171_ten_levels img perImage k x b hk hb1).1).1 hc
      refine ⟨g1, hxs, ?_⟩
      rcases hb2 with hb2 | ⟨_, rfl⟩
      · exact ⟨b, hb2, g2⟩
      · omega
    · rintro ⟨g1, hxs, b, hb, g2⟩
      have hin := (List.getElem?_eq_some_iff.1 hb).1
      have hi : i < images.length := by
        rw [h2]
        by_contra hc
        have : size * (bytes.length / size + 1) ≤ size * i := Nat.mul_le_mul_left _ (by omega)
        rw [Nat.mul_succ] at this
        omega
      obtain ⟨b', hb1, hb2⟩ := hpix images[i] (List.getElem?_eq_getElem hi) x hxs
      refine ⟨images[i], List.getElem?_eq_getElem hi, ((C171_ten_levels images[i] perImage k x b' hk hb1).1).2 ⟨g1, ?_⟩⟩
      rcases hb2 with hb2 | ⟨hb2, _⟩
      · rw [hb] at hb2
        simp only [Option.some.injEq] at hb2
        subst hb2
        exact g2
      · rw [hb] at hb2; cases hb2

/-! ## The program -/

section
variable {N B F : Type} [Field F] [LinearOrder F]

/-- A run of the client on any CPU backend, with any network that has projections of the size looked for.  `rest` is what the program does without stepping. -/
structure ClientRun (be : Prog.Backend F) (o : Ops F) (pops : List (Learn.Pop N B F)) (projs : List (Learn.Proj F)) (pixels outs : Nat) (chan : Nat → UID)
    (obs : UID) (frames : List (List Bool)) (ins : List UID) (acts : List (Act (List (Nat × List Nat))))
    (s : Prog.State (List (Nat × List Nat)) (Learn.Pop N B F) (Learn.Proj F) F) (is : List (Iter F)) (rest : List (Item F)) : Prop where
  found : Client.inputProjs pixels projs = .ok ins
  each : ∀ i < ins.length, ∀ j < ins.length, chan i = chan j → i = j
  foreign : ∀ i < ins.length, chan i ∉ pops.map Learn.Pop.uid
  new : ∀ i < ins.length, ∀ j ∈ projs, j.ident.pre ≠ chan i ∧ chan i ∉ trainersOf j.syns
  only : iters rest = []
  quiet : ∀ f, Act.iterate f ∈ acts ∨ Act.halt f ∈ acts → ∀ u, f u = u
  run : ProgRun be o (Client.layout chan obs ins (Client.outputPops outs pops)) (Client.code frames) pops projs (Client.inputs chan ins) [] acts s
    (is.map Item.iter ++ rest)

variable {be : Prog.Backend F} {o : Ops F} {pops : List (Learn.Pop N B F)} {projs : List (Learn.Proj F)} {pixels outs : Nat} {chan : Nat → UID}
  {obs : UID} {frames : List (List Bool)} {ins : List UID} {acts : List (Act (List (Nat × List Nat)))}
  {s : Prog.State (List (Nat × List Nat)) (Learn.Pop N B F) (Learn.Proj F) F} {is : List (Iter F)} {rest : List (Item F)}

private theorem time_at (h : ClientRun be o pops projs pixels outs chan obs frames ins acts s is rest) {T : Nat} (hT : T < is.length) : is[T].time = T := by
  rw [(out_at h.run (split_at hT rest)).1, iters_only, List.length_take]
  omega

omit [Field F] [LinearOrder F] in
/-- C171, inputs: the projections the images are shown to are exactly those with as many synapses as looked for; if there is none, the client throws. -/
theorem C171_inputs (pixels : Nat) (projs : List (Learn.Proj F)) : (∀ ins, Client.inputProjs pixels projs = .ok ins → ins ≠ [] ∧ ∀ r, r ∈ ins ↔
      ∃ j ∈ projs, j.ident.uid = r ∧ (wired j.syns).synapses.length = pixels) ∧
    ((Client.inputProjs pixels projs).isThrow = true ↔ ∀ j ∈ projs, (wired j.syns).synapses.length ≠ pixels) := by
  unfold Client.inputProjs
  simp only [view_wired]
  have hmem : ∀ r, r ∈ (projs.filter (fun j => (wired j.syns).synapses.length == pixels)).map (fun j => j.ident.uid) ↔
      ∃ j ∈ projs, j.ident.uid = r ∧ (wired j.syns).synapses.length = pixels := by
    intro r
    simp only [List.mem_map, List.mem_filter, beq_iff_eq]
    exact ⟨fun ⟨j, ⟨h1, h2⟩, h3⟩ => ⟨j, h1, h3, h2⟩, fun ⟨j, h1, h3, h2⟩ => ⟨j, ⟨h1, h2⟩, h3⟩⟩
  split
  · rename_i hnil
    refine ⟨fun ins hc => (by cases hc), ⟨fun _ j hj hc => ?_, fun _ => rfl⟩⟩
    have := (hmem j.ident.uid).2 ⟨j, hj, rfl, hc⟩
    rw [hnil] at this
    cases this
  · rename_i hne
    refine ⟨fun ins hc => ?_, (fun hc => by cases hc), fun hall => ?_⟩
    · simp only [Outcome.ok.injEq] at hc
      subst hc
      exact ⟨hne, hmem⟩
    · exfalso
      obtain ⟨r, hr⟩ := List.exists_mem_of_ne_nil _ hne
      obtain ⟨j, hj, _, hl⟩ := (hmem r).1 hr
      exact hall j hj hl

omit [Field F] [LinearOrder F] in
/-- C171, outputs: the populations whose spikes are reported are exactly those with as many neurons as looked for, trained or not, in the order of the
network. -/
theorem C171_outputs (outs : Nat) (pops : List (Learn.Pop N B F)) : (Client.outputPops outs pops).Sublist (pops.map (fun p => p.uid)) ∧
    ∀ v, v ∈ Client.outputPops outs pops ↔ ∃ p ∈ pops, p.uid = v ∧ popSize p = outs := by
  have hsize : ∀ p : Learn.Pop N B F, Client.neurons p = popSize p := by rintro (_ | _) <;> rfl
  refine ⟨List.Sublist.map _ List.filter_sublist, fun v => ?_⟩
  simp only [Client.outputPops, hsize, List.mem_map, List.mem_filter, beq_iff_eq]
  exact ⟨fun ⟨p, ⟨h1, h2⟩, h3⟩ => ⟨p, h1, h3, h2⟩, fun ⟨p, h1, h3, h2⟩ => ⟨p, ⟨h1, h2⟩, h3⟩⟩

/-- C171, what the network is shown: in every step, every input projection hears from outside the network exactly the pixels that are on in the frame of
that step. -/
theorem C171_shown (h : ClientRun be o pops projs pixels outs chan obs frames ins acts s is rest) (T : Nat) (hT : T < is.length) (i : Nat) (hi : i < ins.length) :
    ∃ l, l.Pairwise (· < ·) ∧ (∀ x, x ∈ l ↔ OnIn frames T x) ∧
      (heardBy is[T].out ins[i]).filter (fun x => decide (x.header.senderUid ∉ pops.map Learn.Pop.uid)) = message (chan i) T l := by
  obtain ⟨l, h1, h2, h3⟩ := (C171_generator frames T).1
  refine ⟨l, h2, h3, ?_⟩
  obtain ⟨j, hj, hju, _⟩ := (((C171_inputs pixels projs).1 ins h.found).2 ins[i]).1 (List.getElem_mem hi)
  have hmem : ins[i] ∈ projs.map (fun j => j.ident.uid) := List.mem_map.2 ⟨j, hj, hju⟩
  have hnd : ins.Nodup := by
    have hf := h.found
    unfold Client.inputProjs at hf
    simp only at hf
    split at hf
    · cases hf
    · simp only [Outcome.ok.injEq] at hf
      rw [← hf]
      exact List.Nodup.sublist (List.Sublist.map _ List.filter_sublist) h.run.projUids
  have hL : (Client.layout chan obs ins (Client.outputPops outs pops)).inputs = (List.range ins.length).map chan := rfl
  have hH : (Client.layout chan obs ins (Client.outputPops outs pops)).handlerInputs = [] := rfl
  have hall : (heardBy is[T].out ins[i]).filter (fun x => decide (x.header.senderUid ∉ pops.map Learn.Pop.uid)) =
      (heardBy is[T].out ins[i]).filter (fun x => decide (x.header.senderUid = chan i)) := by
    apply List.filter_congr
    intro x hx
    rw [decide_eq_decide]
    constructor
    · intro hn
      rw [heard_at h.run (split_at hT rest) _ hmem] at hx
      obtain ⟨hx1, hx2⟩ := List.mem_filter.1 hx
      have hext : x ∈ external (Client.layout chan obs ins (Client.outputPops outs pops)) ((is.take T).map Item.iter) is[T] := by
        have hsp := fun hs => hn (spikes_at h.run (split_at hT rest) x hs).2
        cases be with
        | single => exact (List.mem_append.1 hx1).resolve_right hsp
        | multi _ _ => exact (List.mem_append.1 hx1).resolve_left hsp
      have hs := ((C119_senders h.run (split_at hT rest)).2 x hext).2
      rcases hs with hs | hs
      · rw [hL] at hs
        obtain ⟨k, hk, hs⟩ := List.mem_map.1 hs
        have hk := List.mem_range.1 hk
        unfold learnHearing at hx2
        simp only [decide_eq_true_eq, hH, List.append_nil] at hx2
        rcases hx2 with ⟨_, j', hj', _, hc⟩ | hx2
        · rw [← hs] at hc
          rcases hc with hc | hc
          · exact absurd hc (h.new k hk j' hj').1
          · exact absurd hc (h.new k hk j' hj').2
        · unfold Client.inputs at hx2
          obtain ⟨m, hm, he⟩ := List.mem_mapIdx.1 hx2
          simp only [Prod.mk.injEq] at he
          have : m = i := (List.Nodup.getElem_inj_iff hnd).1 he.1
          subst this
          exact he.2.symm
      · cases hs
    · intro he
      rw [he]
      exact h.foreign i hi
  rw [hall]
  have hc := (C120_channel (mid := []) h.run (by
      rw [hL]
      exact List.Nodup.map_on (fun x hx y hy hxy => h.each x (List.mem_range.1 hx) y (List.mem_range.1 hy) hxy) List.nodup_range)
    (by rw [List.append_nil]; exact split_at hT rest) rfl (by
      rcases List.eq_nil_or_concat (is.take T) with h0 | ⟨a', i0, h0⟩
      · exact .inl (by rw [h0]; rfl)
      · exact .inr ⟨a'.map Item.iter, i0, by rw [h0]; simp⟩) i (chan i) (by rw [hL]; simp [hi]) (h.foreign i hi) (by simp [Client.layout]) ins[i] hmem
    (by unfold Client.inputs; exact List.mem_mapIdx.2 ⟨i, hi, rfl⟩)).1
  rw [hc]
  have hcode := C122_user_code h.run
  rw [split_at hT rest] at hcode
  have hfed := fed_at (fun _ t => Mnist.given (Client.generated frames 0 t)) (fun _ _ _ => rfl) _ _ _ _ _ _ hcode
  simp only [List.nil_append, List.flatMap_cons, List.flatMap_nil, List.append_nil, fedIn]
  rw [time_at h hT] at hfed ⊢
  rw [hfed, hL]
  simp [h1, Mnist.given, hi]

/-- What the client should report of a step: everything the output populations said. -/
def said (vs : List UID) (i : Iter F) : List SpikeMessage := i.out.spikes.filter (fun x => decide (x.header.senderUid ∈ vs))

/-- C171, what is reported: of every step exactly the first message of the output populations, in the order of the network, if it names a neuron. -/
theorem C171_reported (h : ClientRun be o pops projs pixels outs chan obs frames ins acts s is rest) :
    s.user = is.flatMap (fun i => (((said (Client.outputPops outs pops) i).head?.toList.filter (fun m => decide (m.neuronIndexes ≠ []))).map
      (fun m => (i.time, m.neuronIndexes)))) := by
  have hlog := user_log (L := Client.layout chan obs ins (Client.outputPops outs pops)) (c := Client.code frames) (fun u : List (Nat × List Nat) => u)
    (fun _ ms => (((Sys.spikesIn ms).head?.toList.filter (fun m => decide (m.neuronIndexes ≠ []))).map (fun m => (m.header.sendTime, m.neuronIndexes))))
    (fun _ _ _ => rfl) (fun _ _ _ => rfl) (fun k u ms => by
      show Client.observe u (Sys.spikesIn ms) = _
      cases Sys.spikesIn ms with
      | nil => simp [Client.observe]
      | cons m l =>
        unfold Client.observe
        by_cases hm : m.neuronIndexes = []
        · simp [hm]
        · simp [hm]) acts _ [] s.user h.quiet (C122_user_code h.run)
  rw [hlog, List.nil_append, iters_run h.only]
  have hone : (Client.layout chan obs ins (Client.outputPops outs pops)).observers.length = 1 := rfl
  have hpoint : ∀ i ∈ is, (List.range (Client.layout chan obs ins (Client.outputPops outs pops)).observers.length).flatMap (fun n =>
      (((Sys.spikesIn (i.observed.getD n [])).head?.toList.filter (fun m => decide (m.neuronIndexes ≠ []))).map (fun m => (m.header.sendTime, m.neuronIndexes)))) =
      (((said (Client.outputPops outs pops) i).head?.toList.filter (fun m => decide (m.neuronIndexes ≠ []))).map (fun m => (i.time, m.neuronIndexes))) := by
    intro i hi
    obtain ⟨T, hT, rfl⟩ := List.getElem_of_mem hi
    rw [hone, show List.range 1 = [0] from rfl, List.flatMap_cons, List.flatMap_nil, List.append_nil]
    have hob := (C118_observer h.run (split_at hT rest)).2 0 ⟨obs, .spike, Client.outputPops outs pops⟩ rfl
    have hsaid : Sys.spikesIn (is[T].observed.getD 0 []) = said (Client.outputPops outs pops) is[T] := by
      rw [List.getD_eq_getElem?_getD, hob, Option.getD_some]
      unfold said
      have hnot : ∀ x ∈ external (Client.layout chan obs ins (Client.outputPops outs pops)) ((is.take T).map Item.iter) is[T],
          x.header.senderUid ∉ Client.outputPops outs pops := by
        intro x hx hc
        have hin : x.header.senderUid ∈ pops.map Learn.Pop.uid := by
          unfold Client.outputPops at hc
          obtain ⟨q, hq, he⟩ := List.mem_map.1 hc
          exact List.mem_map.2 ⟨q, (List.mem_filter.1 hq).1, he⟩
        rcases ((C119_senders h.run (split_at hT rest)).2 x hx).2 with hs | hs
        · obtain ⟨k, hk, hs⟩ := List.mem_map.1 hs
          exact h.foreign k (List.mem_range.1 hk) (hs ▸ hin)
        · cases hs
      generalize external (Client.layout chan obs ins (Client.outputPops outs pops)) ((is.take T).map Item.iter) is[T] = ext at hnot
      generalize Client.outputPops outs pops = vs at hnot
      have e1 : ∀ l : List (SynapticImpactMessage F), Sys.spikesIn ((l.map Message.impact).filter (fun x => (x.kind == .spike) && decide (x.sender ∈ vs))) = [] := by
        intro l
        induction l with
        | nil => rfl
        | cons m l ih => simp [Message.kind, Sys.spikesIn]
      have e2 : ∀ l : List SpikeMessage, Sys.spikesIn ((l.map (Message.spike (F := F))).filter (fun x => (x.kind == .spike) && decide (x.sender ∈ vs))) =
          l.filter (fun x => decide (x.header.senderUid ∈ vs)) := by
        intro l
        induction l with
        | nil => rfl
        | cons m l ih =>
          rw [List.map_cons]
          by_cases hm : m.header.senderUid ∈ vs
          · rw [List.filter_cons_of_pos (by exact (Bool.and_eq_true _ _).mpr ⟨rfl, decide_eq_true hm⟩), List.filter_cons_of_pos (by simpa using hm), ← ih]
            rfl
          · rw [List.filter_cons_of_neg (by exact fun hc => hm (of_decide_eq_true ((Bool.and_eq_true _ _).mp hc).2)), List.filter_cons_of_neg (by simpa using hm), ← ih]
      have e3 : ∀ a b : List (Message F), Sys.spikesIn (a ++ b) = Sys.spikesIn a ++ Sys.spikesIn b := by
        intro a b
        unfold Sys.spikesIn
        rw [List.filterMap_append]
      rw [List.filter_append, e3, e1, List.nil_append, e2, List.filter_append]
      have : ext.filter (fun x => decide (x.header.senderUid ∈ vs)) = [] := by
        rw [List.filter_eq_nil_iff]
        intro x hx hc
        exact hnot x hx (of_decide_eq_true hc)
      rw [this, List.append_nil]
    rw [hsaid]
    apply List.map_congr_left
    intro m hm
    have hm1 := (List.mem_filter.1 hm).1
    have hm2 : m ∈ said (Client.outputPops outs pops) is[T] := List.mem_of_mem_head? (by simpa using hm1)
    rw [(spikes_at h.run (split_at hT rest) m (List.mem_filter.1 hm2).1).1]
  rw [List.flatMap_def, List.flatMap_def, List.map_congr_left hpoint]

/-- C171, with one output population: everything it says is reported, step by step (messages that name no neuron, which a population does not send,
aside).  With several see C171_reported and C171_lost_refuted. -/
theorem C171_reported_partial (h : ClientRun be o pops projs pixels outs chan obs frames ins acts s is rest) (v : UID)
    (hv : Client.outputPops outs pops = [v]) :
    s.user = is.flatMap (fun i => ((said [v] i).filter (fun m => decide (m.neuronIndexes ≠ []))).map (fun m => (i.time, m.neuronIndexes))) := by
  rw [C171_reported h, hv]
  have hpoint : ∀ i ∈ is, (((said [v] i).head?.toList.filter (fun m => decide (m.neuronIndexes ≠ []))).map (fun m => (i.time, m.neuronIndexes))) =
      ((said [v] i).filter (fun m => decide (m.neuronIndexes ≠ []))).map (fun m => (i.time, m.neuronIndexes)) := by
    intro i hi
    obtain ⟨T, hT, rfl⟩ := List.getElem_of_mem hi
    have hsub := (C119_senders h.run (split_at hT rest)).1
    have hnd : (is[T].out.spikes.map (fun x => x.header.senderUid)).Nodup := hsub.nodup h.run.popUids
    have hlen : (said [v] is[T]).length ≤ 1 := by
      have h1 : ((said [v] is[T]).map (fun x => x.header.senderUid)).Nodup := List.Nodup.sublist (List.Sublist.map _ List.filter_sublist) hnd
      have h2 : ∀ x ∈ (said [v] is[T]).map (fun x => x.header.senderUid), x = v := by
        intro x hx
        obtain ⟨m, hm, rfl⟩ := List.mem_map.1 hx
        exact List.mem_singleton.1 (of_decide_eq_true (List.mem_filter.1 hm).2)
      match hl : said [v] is[T] with
      | [] => exact Nat.zero_le _
      | [m] => exact Nat.le_refl _
      | a :: b :: l =>
        exfalso
        rw [hl] at h1 h2
        have ha := h2 a.header.senderUid (by simp)
        have hb := h2 b.header.senderUid (by simp)
        rw [List.map_cons, List.map_cons, ha, hb] at h1
        simp at h1
    match hl : said [v] is[T], hlen with
    | [], _ => rfl
    | [m], _ => rfl
  rw [List.flatMap_def, List.flatMap_def, List.map_congr_left hpoint]

/-- C171, the end: on the single-threaded backend, as the client runs, with a network whose parts fit together, `start` returns after exactly as many steps
as there are frames. -/
theorem C171_program (hv : ValidNet (fun w v => v = w) pops projs) (hf : Client.inputProjs pixels projs = .ok ins)
    (each : ∀ i < ins.length, ∀ j < ins.length, chan i = chan j → i = j) (foreign : ∀ i < ins.length, chan i ∉ pops.map Learn.Pop.uid)
    (new : ∀ i < ins.length, ∀ j ∈ projs, j.ident.pre ≠ chan i ∧ chan i ∉ trainersOf j.syns) (o : Ops F) (obs : UID) (outs : Nat)
    (frames : List (List Bool)) :
    ∃ (s : Prog.State (List (Nat × List Nat)) (Learn.Pop N B F) (Learn.Proj F) F) (is : List (Iter F)) (rest : List (Item F))
      (acts : List (Act (List (Nat × List Nat)))),
      Prog.start ((Prog.Backend.single : Prog.Backend F).step o) (Client.layout chan obs ins (Client.outputPops outs pops)) (Client.code frames)
        (Client.pred frames) (frames.length + 1) (Prog.boot (Learn.machine o) (Client.layout chan obs ins (Client.outputPops outs pops)) pops projs
          (Client.inputs chan ins) []) = some (.ok (s, is.map Item.iter ++ rest)) ∧
      is.length = frames.length ∧ ClientRun .single o pops projs pixels outs chan obs frames ins acts s is rest := by
  obtain ⟨s, tr, hrun⟩ := C162_program o (Client.layout chan obs ins (Client.outputPops outs pops)) (Client.code frames) hv (Client.inputs chan ins) []
    ((List.range frames.length).map (fun k => Act.iterate (fun u => (Client.pred frames u (0 + k)).2)) ++
      [.halt (fun u => (Client.pred frames u (0 + frames.length)).2)]) (by
        intro x hx
        rcases List.mem_append.1 hx with hx | hx
        · obtain ⟨k, _, rfl⟩ := List.mem_map.1 hx
          trivial
        · simp only [List.mem_singleton] at hx
          subst hx
          trivial)
  have hstart := C119_start_returns .single o (Client.pred frames) frames.length _ s tr hrun
    (fun k hk u => by
      show decide (0 + k ≠ frames.length) = true
      exact decide_eq_true (by omega))
    (fun u => by
      show decide (0 + frames.length ≠ frames.length) = false
      exact decide_eq_false (by omega))
  obtain ⟨m, is, fed, e1, e2, e3, e4⟩ := C119_start .single o (Client.pred frames) _ _ _ _ hstart
  obtain ⟨e5, _⟩ := e4 (fun t => decide (t ≠ frames.length)) (fun _ _ => rfl)
  have hm : m = frames.length := by
    have : ¬ (0 + m ≠ frames.length) := of_decide_eq_false e5
    omega
  subst hm
  subst e1
  refine ⟨s, is, _, _, hstart, e2, hf, each, foreign, new, rfl, ?_, hv.popUids, hv.projUids, hv.queues, e3⟩
  intro f hf u
  rcases hf with hf | hf
  · rcases List.mem_append.1 hf with hf | hf
    · obtain ⟨k, _, hk⟩ := List.mem_map.1 hf
      rw [Act.iterate.injEq] at hk
      rw [← hk]
      rfl
    · cases List.mem_singleton.1 hf
  · rcases List.mem_append.1 hf with hf | hf
    · obtain ⟨k, _, hk⟩ := List.mem_map.1 hf
      cases hk
    · have hk := List.mem_singleton.1 hf
      rw [Act.halt.injEq] at hk
      rw [hk]
      rfl

end

/-! ## A network with two output populations -/

namespace ClientEx
open LearnEx

/-- Two populations of two neurons that fire on every impact. -/
def pops : List (Learn.Pop (Blifat ℚ) Unit ℚ) := [.plain 1 (@Neurons.blifat ℚ arith) [blifat, blifat], .plain 2 (@Neurons.blifat ℚ arith) [blifat, blifat]]
/-- A synapse of weight 1 and delay 1. -/
def syn (i j : Nat) : Synapse (Mnist.DeltaParams ℚ) := ⟨⟨1, 1, .excitatory⟩, i, j⟩
/-- Projections from the pixels: four synapses each. -/
def projs : List (Learn.Proj ℚ) :=
  [⟨⟨10, 0, 1, true⟩, true, Mnist.deltaSyns [syn 0 0, syn 1 1, syn 2 0, syn 2 1], []⟩,
   ⟨⟨11, 0, 2, true⟩, true, Mnist.deltaSyns [syn 0 1, syn 1 0, syn 2 0, syn 2 1], []⟩]
def chan (i : Nat) : UID := 50 + i
/-- A file with two images of three bytes. -/
def file : List Nat := [30, 0, 0, 255, 60, 26]
def frames : List (List Bool) := ((Client.readFrames 3 3 10 0 9 (some file)).getD [])

/-- C171: the frames; the third image is not in the file. -/
example : frames.map Client.indices = [[0], [], [], [0, 1, 2], [0, 1], [0], [], [], []] := by decide +kernel
example : Client.readImages 3 9 (some file) = some [[30, 0, 0], [255, 60, 26], [0, 0, 0]] := by decide +kernel

/-- C171: the network has inputs and fits together. -/
example : Client.inputProjs 4 projs = .ok [10, 11] := by decide +kernel
example : Client.outputPops 2 pops = [1, 2] := by decide +kernel

theorem valid : ValidNet (fun w v => v = w) pops projs where
  popUids := by decide
  projUids := by decide
  queues := by
    intro j hj
    simp only [projs, List.mem_cons, List.not_mem_nil, or_false] at hj
    rcases hj with rfl | rfl <;> rfl
  sizes := by
    intro p hp
    simp only [pops, List.mem_cons, List.not_mem_nil, or_false] at hp
    rcases hp with rfl | rfl <;> (show 2 ≤ 2 ^ 32; decide)
  targets := by
    have hall : ∀ j ∈ projs, ∀ s ∈ (wired j.syns).synapses, s.target < 2 := by decide +kernel
    intro j hj p hp _ s hs
    simp only [pops, List.mem_cons, List.not_mem_nil, or_false] at hp
    rcases hp with rfl | rfl <;> exact hall j hj s hs
  types := by
    have hall : ∀ j ∈ projs, ∀ s ∈ (wired j.syns).synapses, s.outType = .excitatory := by decide +kernel
    intro j hj p hp _ s hs v _
    rw [hall j hj s hs]
    simp only [pops, List.mem_cons, List.not_mem_nil, or_false] at hp
    have : Takes (@Neurons.blifat ℚ arith) .excitatory v := by
      intro n i forcing h1 _
      show (@blifatImpact ℚ arith n i forcing).isOk = true
      unfold blifatImpact
      rw [h1]
      rfl
    rcases hp with rfl | rfl <;> exact this

/-- The client with this network and this file. -/
def result := Prog.start ((Prog.Backend.single : Prog.Backend ℚ).step StdpEx.o) (Client.layout chan 90 [10, 11] (Client.outputPops 2 pops)) (Client.code frames)
  (Client.pred frames) (frames.length + 1) (Prog.boot (Learn.machine StdpEx.o) (Client.layout chan 90 [10, 11] (Client.outputPops 2 pops)) pops projs
    (Client.inputs chan [10, 11]) [])

/-- What the populations said and what is reported. -/
def shown : List (List (Nat × Nat × List Nat)) × List (Nat × List Nat) :=
  match result with
  | some (.ok (s, tr)) => ((iters tr).map (fun i => (said [1, 2] i).map (fun m => (m.header.senderUid, m.header.sendTime, m.neuronIndexes))), s.user)
  | _ => ([], [])

end ClientEx

/-- C171: with two output populations the client loses what the second one says in a step in which the first one says something.  In step 1 of this run
population 1 says neuron 0 and population 2 says neuron 1; only the former is reported. -/
theorem C171_lost_refuted :
    ∃ (s : Prog.State (List (Nat × List Nat)) (Learn.Pop (Blifat ℚ) Unit ℚ) (Learn.Proj ℚ) ℚ) (is : List (Iter ℚ)) (rest : List (Item ℚ))
      (acts : List (Act (List (Nat × List Nat)))),
      ClientRun .single StdpEx.o ClientEx.pops ClientEx.projs 4 2 ClientEx.chan 90 ClientEx.frames [10, 11] acts s is rest ∧
      (is.map (fun i => (said [1, 2] i).map (fun m => (m.header.senderUid, m.neuronIndexes))))[1]? = some [(1, [0]), (2, [1])] ∧
      (1, [0]) ∈ s.user ∧ (1, [1]) ∉ s.user := by
  obtain ⟨s, is, rest, acts, h1, h2, h3⟩ := C171_program (pixels := 4) (ins := [10, 11]) (chan := ClientEx.chan) ClientEx.valid (by decide +kernel)
    (by decide) (by decide) (by decide +kernel) StdpEx.o 90 2 ClientEx.frames
  refine ⟨s, is, rest, acts, h3, ?_⟩
  have hs : ClientEx.result = some (.ok (s, is.map Item.iter ++ rest)) := h1
  have hsh : ClientEx.shown = (is.map (fun i => (said [1, 2] i).map (fun m => (m.header.senderUid, m.header.sendTime, m.neuronIndexes))), s.user) := by
    unfold ClientEx.shown
    rw [hs]
    simp only [iters_run h3.only]
  have hval : ClientEx.shown = ([[], [(1, 1, [0]), (2, 1, [1])], [], [], [(1, 4, [0, 1]), (2, 4, [0, 1])], [(1, 5, [0, 1]), (2, 5, [0, 1])],
      [(1, 6, [0]), (2, 6, [1])], [], []], [(1, [0]), (4, [0, 1]), (5, [0, 1]), (6, [0])]) := by decide +kernel
  rw [hval] at hsh
  obtain ⟨e1, e2⟩ := Prod.mk.inj hsh
  rw [← e2]
  refine ⟨?_, by decide, by decide⟩
  have : is.map (fun i => (said [1, 2] i).map (fun m => (m.header.senderUid, m.neuronIndexes))) =
      (is.map (fun i => (said [1, 2] i).map (fun m => (m.header.senderUid, m.header.sendTime, m.neuronIndexes)))).map (fun l => l.map (fun x => (x.1, x.2.2))) := by
    simp [Function.comp_def]
  rw [this, ← e1]
  rfl

end Knp.Props
