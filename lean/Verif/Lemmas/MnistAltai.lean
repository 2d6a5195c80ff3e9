import Verif.Spec.MnistAltai
import Verif.Lemmas.Mnist
import Verif.Lemmas.Inference

/-! Lemmas about the network of the MNIST example with AltAI neurons. -/

namespace Knp.Mnist.Altai
open Knp Knp.Neurons Knp.Stdp Knp.Infer Knp.Mnist Knp.Spec Knp.Props

variable {F : Type} [Field F] [LinearOrder F]

/-- The sizes as those of the BLIFAT network, with any neurons and `n` pixels: what the creators give depends on the sizes only. -/
def shape (p : Params F) (n : Nat) : Mnist.Params F :=
  let b : Res (Blifat F) F := ⟨⟨0, 0, 0, 0, 0, 0, 0, 0, 0, 0, 0, 0, 0, 0, 0, 0, 0, 0, 0, 0, 0, 0, 0⟩, ⟨0, 0, 0, 0, 0, 0, 0, 0, 0, 0, .notInPeriod, 0, 0, 0, false⟩⟩
  ⟨p.classes, p.perColumn, n, 1, b, b, 0, p.wMin, p.wMax, p.eps, p.period⟩

omit [LinearOrder F] in
theorem shape_inputs (p : Params F) (n : Nat) : (shape p n).inputs = p.inputs := rfl

/-- Its projections. -/
def projs (p : Params F) (f : Nat) : List (ProjEntity (JBody F)) :=
  [⟨f + 3, 0, f, 1, (false, resourceSyns (every (shape p p.inputSize)
      (⟨theResource (shape p 0), p.wMin, p.wMax, 0, p.period, 0, false, false⟩ : SynRule F)))⟩,
   ⟨f + 4, 0, f, 0, (true, deltaSyns (down (shape p 0) ⟨179376 / 1000, 3, .dopamine⟩))⟩,
   ⟨f + 5, 0, f, 0, (true, deltaSyns (every (shape p p.classes) ⟨-30000, 4, .excitatory⟩))⟩,
   ⟨f + 6, 0, f + 2, 0, (true, deltaSyns (same (shape p 0) ⟨10000, 1, .excitatory⟩))⟩,
   ⟨f + 7, 0, f + 1, 0, (true, deltaSyns (up (shape p 0) ⟨10000, 1, .excitatory⟩))⟩,
   ⟨f + 8, f + 1, f + 2, 0, (true, deltaSyns (same (shape p 0) ⟨-10, 1, .blocking⟩))⟩,
   ⟨f + 9, f + 2, f, 0, (true, deltaSyns (down (shape p 0) ⟨10000, 1, .excitatory⟩))⟩]

/-- Its populations. -/
def pops (p : Params F) (f : Nat) : List (PopEntity (Body F)) :=
  [⟨f, 2, List.replicate p.inputs p.inputNeuron⟩, ⟨f + 1, 2, List.replicate p.classes p.otherNeuron⟩,
   ⟨f + 2, 2, List.replicate p.classes p.otherNeuron⟩]

variable [IsStrictOrderedRing F]

theorem resource_eq (p : Params F) (h : MnistAltai.Fit p) :
    resourceFromWeight p.eps 0 p.wMin p.wMax = .ok (theResource (shape p 0)) := by
  unfold resourceFromWeight
  have h1 : ¬ p.wMax < p.wMin := by have := h.eps; have := h.low; have := h.high; intro; linarith
  rw [if_neg h1]
  simp only
  rw [if_neg]
  · rfl
  · rintro (h2 | h2)
    · have := h.low; linarith
    · have := h.high; linarith

/-- What `construct` gives. -/
theorem construct_eq (p : Params F) (h : MnistAltai.Fit p) (f : Nat) : construct p f = .ok
    { builder :=
        { network := ⟨pops p f, projs p f⟩
          keepPops := [f, f + 1]
          keepProjs := [f + 3, f + 7]
          outputs := [f + 1]
          infos := [⟨true, f⟩, ⟨true, f + 1⟩, ⟨false, f + 2⟩, ⟨true, 0⟩, ⟨false, 0⟩]
          fresh := f + 10 }
      fromRaster := [f + 3]
      fromClasses := [f + 4, f + 5, f + 6]
      wtaData := [([f], [f + 7])]
      wtaBorders := (List.range p.classes).map (fun i => p.perColumn * (i + 1)) } := by
  have d := fun par : DeltaParams F => aligned_down (shape p 0) h.classes h.column par
  have u := fun par : DeltaParams F => aligned_up (shape p 0) h.classes h.column par
  have s := fun par : DeltaParams F => aligned_same (shape p 0) h.classes par
  have hd : ∀ par : DeltaParams F, alignedProj p.classes p.inputs par = .ok (true, deltaSyns (down (shape p 0) par)) := by
    intro par; unfold alignedProj; have := d par; rw [shape_inputs] at this; rw [show p.classes = (shape p 0).classes from rfl, this]; rfl
  have hu : ∀ par : DeltaParams F, alignedProj p.inputs p.classes par = .ok (true, deltaSyns (up (shape p 0) par)) := by
    intro par; unfold alignedProj; have := u par; rw [shape_inputs] at this; rw [show p.classes = (shape p 0).classes from rfl, this]; rfl
  have hs : ∀ par : DeltaParams F, alignedProj p.classes p.classes par = .ok (true, deltaSyns (same (shape p 0) par)) := by
    intro par; unfold alignedProj; rw [show p.classes = (shape p 0).classes from rfl, s par]; rfl
  have hr : rasterProj p = .ok (false, resourceSyns (every (shape p p.inputSize)
      (⟨theResource (shape p 0), p.wMin, p.wMax, 0, p.period, 0, false, false⟩ : SynRule F))) := by
    unfold rasterProj
    rw [resource_eq p h, Outcome.bind, allToAll_eq _ _ _ _ _ h.pixels]
    rfl
  have hz : resetProj p = .ok (true, deltaSyns (every (shape p p.classes) ⟨-30000, 4, .excitatory⟩)) := by
    unfold resetProj
    rw [allToAll_eq _ _ _ _ _ h.labels]
    rfl
  unfold construct calls
  rw [hr, hz, hd, hs, hu, hs, hd]
  simp [Outcome.bind, Builder.run, Builder.new, Builder.step, pops, projs]

omit [LinearOrder F] [IsStrictOrderedRing F] in
/-- Its projections are the arrows of the picture. -/
theorem draws (p : Params F) (f : Nat) :
    List.Forall₂ Draws ((projs p f).map (fun e => (⟨⟨e.uid, e.pre, e.post, e.kind == 0⟩, e.body.1, e.body.2, []⟩ : Learn.Proj F)))
      (MnistAltai.arrows p f) := by
  unfold projs MnistAltai.arrows
  simp only [List.map_cons, List.map_nil]
  refine .cons ?_ (.cons ?_ (.cons ?_ (.cons ?_ (.cons ?_ (.cons ?_ (.cons ?_ .nil))))))
  · exact draws_resource _ _ _ _ _ (every_connects (shape p p.inputSize) _)
  · exact draws_delta _ _ _ _ _ params_map _ (down_connects (shape p 0) _)
  · exact draws_delta _ _ _ _ _ params_map _ (every_connects (shape p p.classes) _)
  · exact draws_delta _ _ _ _ _ params_map _ (same_connects (shape p 0) _)
  · exact draws_delta _ _ _ _ _ params_map _ (up_connects (shape p 0) _)
  · exact draws_delta _ _ _ _ _ params_map _ (same_connects (shape p 0) _)
  · exact draws_delta _ _ _ _ _ params_map _ (down_connects (shape p 0) _)

/-! ## Inference -/

omit [Field F] [LinearOrder F] [IsStrictOrderedRing F] in
theorem map_cons_inv {α β : Type} {g : α → β} {l : List α} {b : β} {bs : List β} (h : l.map g = b :: bs) :
    ∃ a l', l = a :: l' ∧ g a = b ∧ l'.map g = bs := by
  cases l with
  | nil => cases h
  | cons a l => exact ⟨a, l, rfl, (List.cons.inj h).1, (List.cons.inj h).2⟩

omit [IsStrictOrderedRing F] in
/-- What a network with the identities of the built one looks like. -/
theorem identities {P J : Type} (p : Params F) (f : Nat) (t : Network P J) (h : MnistAltai.SameIdentities (⟨pops p f, projs p f⟩ : Network (Body F) (JBody F)) t) :
    ∃ b₀ b₁ b₂ s₃ s₄ s₅ s₆ s₇ s₈ s₉, t = ⟨[⟨f, 2, b₀⟩, ⟨f + 1, 2, b₁⟩, ⟨f + 2, 2, b₂⟩],
      [⟨f + 3, 0, f, 1, s₃⟩, ⟨f + 4, 0, f, 0, s₄⟩, ⟨f + 5, 0, f, 0, s₅⟩, ⟨f + 6, 0, f + 2, 0, s₆⟩, ⟨f + 7, 0, f + 1, 0, s₇⟩,
       ⟨f + 8, f + 1, f + 2, 0, s₈⟩, ⟨f + 9, f + 2, f, 0, s₉⟩]⟩ := by
  obtain ⟨ps, js⟩ := t
  obtain ⟨h1, h2⟩ := h
  simp only [pops, projs, List.map_cons, List.map_nil] at h1 h2
  obtain ⟨⟨_, _, b₀⟩, _, rfl, e0, h1⟩ := map_cons_inv h1
  obtain ⟨⟨_, _, b₁⟩, _, rfl, e1, h1⟩ := map_cons_inv h1
  obtain ⟨⟨_, _, b₂⟩, _, rfl, e2, h1⟩ := map_cons_inv h1
  obtain rfl := List.map_eq_nil_iff.1 h1
  obtain ⟨⟨_, _, _, _, s₃⟩, _, rfl, e3, h2⟩ := map_cons_inv h2
  obtain ⟨⟨_, _, _, _, s₄⟩, _, rfl, e4, h2⟩ := map_cons_inv h2
  obtain ⟨⟨_, _, _, _, s₅⟩, _, rfl, e5, h2⟩ := map_cons_inv h2
  obtain ⟨⟨_, _, _, _, s₆⟩, _, rfl, e6, h2⟩ := map_cons_inv h2
  obtain ⟨⟨_, _, _, _, s₇⟩, _, rfl, e7, h2⟩ := map_cons_inv h2
  obtain ⟨⟨_, _, _, _, s₈⟩, _, rfl, e8, h2⟩ := map_cons_inv h2
  obtain ⟨⟨_, _, _, _, s₉⟩, _, rfl, e9, h2⟩ := map_cons_inv h2
  obtain rfl := List.map_eq_nil_iff.1 h2
  simp only [Prod.mk.injEq] at e0 e1 e2 e3 e4 e5 e6 e7 e8 e9
  refine ⟨b₀, b₁, b₂, s₃, s₄, s₅, s₆, s₇, s₈, s₉, ?_⟩
  rw [e0.1, e0.2, e1.1, e1.2, e2.1, e2.2, e3.1, e3.2.1, e3.2.2.1, e3.2.2.2, e4.1, e4.2.1, e4.2.2.1, e4.2.2.2, e5.1, e5.2.1, e5.2.2.1, e5.2.2.2,
    e6.1, e6.2.1, e6.2.2.1, e6.2.2.2, e7.1, e7.2.1, e7.2.2.1, e7.2.2.2, e8.1, e8.2.1, e8.2.2.1, e8.2.2.2, e9.1, e9.2.1, e9.2.2.1, e9.2.2.2]

omit [Field F] [LinearOrder F] [IsStrictOrderedRing F] in
/-- Restored and connected: the input and the output population, the raster projection, and one from input to output. -/
theorem kept_eq {P J : Type} (f next : Nat) (b₀ b₁ b₂ : P) (s₃ s₄ s₅ s₆ s₇ s₈ s₉ : J) :
    replaceWta [([f], [f + 7])] (restore [f, f + 1] [f + 3, f + 7] ⟨[⟨f, 2, b₀⟩, ⟨f + 1, 2, b₁⟩, ⟨f + 2, 2, b₂⟩],
      [⟨f + 3, 0, f, 1, s₃⟩, ⟨f + 4, 0, f, 0, s₄⟩, ⟨f + 5, 0, f, 0, s₅⟩, ⟨f + 6, 0, f + 2, 0, s₆⟩, ⟨f + 7, 0, f + 1, 0, s₇⟩,
       ⟨f + 8, f + 1, f + 2, 0, s₈⟩, ⟨f + 9, f + 2, f, 0, s₉⟩]⟩, next) =
    .ok (⟨[⟨f, 2, b₀⟩, ⟨f + 1, 2, b₁⟩], [⟨f + 3, 0, f, 1, s₃⟩, ⟨next, f, f + 1, 0, s₇⟩]⟩, next + 1) := by
  have e : restore [f, f + 1] [f + 3, f + 7] (⟨[⟨f, 2, b₀⟩, ⟨f + 1, 2, b₁⟩, ⟨f + 2, 2, b₂⟩],
      [⟨f + 3, 0, f, 1, s₃⟩, ⟨f + 4, 0, f, 0, s₄⟩, ⟨f + 5, 0, f, 0, s₅⟩, ⟨f + 6, 0, f + 2, 0, s₆⟩, ⟨f + 7, 0, f + 1, 0, s₇⟩,
       ⟨f + 8, f + 1, f + 2, 0, s₈⟩, ⟨f + 9, f + 2, f, 0, s₉⟩]⟩ : Network P J) =
      ⟨[⟨f, 2, b₀⟩, ⟨f + 1, 2, b₁⟩], [⟨f + 3, 0, f, 1, s₃⟩, ⟨f + 7, 0, f + 1, 0, s₇⟩]⟩ := by
    simp [restore, List.filter_cons]
  rw [e]
  simp [replaceWta, replaceSenders, replaceReceivers, replaceOne, Network.getProjection, Network.removeProjection, Network.addProjectionVariant,
    findVariant, eraseVariant, Outcome.bind]

variable [FloorRing F] {R S : Type}

theorem rounded (body : List (Infer.Syn F S)) (t : Nat) (h0 : 0 < totalMax body t) :
    MnistAltai.RoundedWeights (255 / totalMax body t) body (scaleSyns (255 / totalMax body t) body) := by
  unfold MnistAltai.RoundedWeights scaleSyns
  rw [List.forall₂_map_right_iff]
  refine List.forall₂_same.2 ?_
  intro s hs
  refine ⟨rfl, ?_, ?_⟩
  · have := Lemmas.Infer.round_near (s.weight * (255 / totalMax body t))
    rw [mul_comm (255 / totalMax body t)]
    exact this
  · have hb := (Lemmas.Infer.totalMax_ge body t).2.2 s hs
    apply Lemmas.Infer.round_int _ 255
    have h255 : (0 : F) < 255 := by norm_num
    rw [abs_mul, abs_div, abs_of_pos h0, abs_of_pos h255]
    have : |s.weight| * (255 / totalMax body t) ≤ totalMax body t * (255 / totalMax body t) :=
      mul_le_mul_of_nonneg_right hb (div_nonneg h255.le h0.le)
    rw [mul_div_cancel₀ _ h0.ne'] at this
    exact_mod_cast this

theorem scaled (c : F) (hc : 0 < c) : ∀ (l l' : List (Neuron F R)), scaleNeurons c l = .ok l' → MnistAltai.ScaledThresholds c l l'
  | [], l', h => by cases h; exact .nil
  | m :: l, l', h => by
    unfold scaleNeurons at h
    cases e1 : toU16 ((m.activation : F) * c) with
    | ok a =>
      rw [e1] at h
      simp only [Outcome.bind] at h
      cases e2 : scaleNeurons c l with
      | ok l₁ =>
        rw [e2] at h
        cases h
        refine .cons ⟨rfl, mul_comm _ _, ?_⟩ (scaled c hc l l₁ e2)
        unfold toU16 at e1
        split at e1
        · rename_i hr
          cases e1
          have h0 : (0 : F) ≤ (m.activation : F) * c := mul_nonneg (Nat.cast_nonneg _) hc.le
          have hfl : (0 : Int) ≤ ⌊(m.activation : F) * c⌋ := Int.floor_nonneg.2 h0
          have hcast : (((⌊(m.activation : F) * c⌋.toNat : Nat) : F)) = ((⌊(m.activation : F) * c⌋ : Int) : F) := by
            have := Int.toNat_of_nonneg hfl
            exact_mod_cast congrArg (fun z : Int => (z : F)) this
          rw [mul_comm c]
          simp only [hcast]
          exact ⟨Int.floor_le _, Int.lt_floor_add_one _⟩
        · cases e1
      | throw w => rw [e2] at h; cases h
      | ub => rw [e2] at h; cases h
    | throw w => rw [e1] at h; cases h
    | ub => rw [e1] at h; cases h

/-- Two layers, one projection into each: each layer is quantised by its own factor. -/
theorem quantize_two (nan : F) (f next : Nat) (b₀ b₁ : List (Neuron F R)) (s₃ s₇ : List (Infer.Syn F S)) (h0 : b₀ ≠ []) (h1 : b₁ ≠ [])
    (n' : Network (List (Neuron F R)) (List (Infer.Syn F S)))
    (h : quantize nan 2 ⟨[⟨f, 2, b₀⟩, ⟨f + 1, 2, b₁⟩], [⟨f + 3, 0, f, 1, s₃⟩, ⟨next, f, f + 1, 0, s₇⟩]⟩ = .ok n') :
    ∃ c₀ c₁ b₀' b₁' s₃' s₇', 0 < c₀ ∧ 0 < c₁ ∧ n' = ⟨[⟨f, 2, b₀'⟩, ⟨f + 1, 2, b₁'⟩], [⟨f + 3, 0, f, 1, s₃'⟩, ⟨next, f, f + 1, 0, s₇'⟩]⟩ ∧
      MnistAltai.RoundedWeights c₀ s₃ s₃' ∧ MnistAltai.ScaledThresholds c₀ b₀ b₀' ∧
      MnistAltai.RoundedWeights c₁ s₇ s₇' ∧ MnistAltai.ScaledThresholds c₁ b₁ b₁' := by
  unfold quantize at h
  simp only [quantizeLoop] at h
  rcases e1 : quantizeOne nan 2 [⟨f, 2, b₀⟩, ⟨f + 1, 2, b₁⟩] (⟨f + 3, 0, f, 1, s₃⟩ : ProjEntity (List (Infer.Syn F S))) with ⟨ps, j⟩ | _ | _
  · rw [e1] at h
    simp only [Outcome.bind] at h
    obtain ⟨q, t, hq, _, _, hz | ⟨hpos, ns, hns, rfl, rfl⟩⟩ := Lemmas.Infer.quantizeOne_ok e1
    · simp [Lemmas.Infer.pick] at hq
      subst hq
      exact absurd hz.2.1 h0
    · simp [Lemmas.Infer.pick] at hq
      subst hq
      simp only [setNeurons, beq_self_eq_true, if_true] at h
      rcases e2 : quantizeOne nan 2 [⟨f, 2, ns⟩, ⟨f + 1, 2, b₁⟩] (⟨next, f, f + 1, 0, s₇⟩ : ProjEntity (List (Infer.Syn F S))) with ⟨ps, j⟩ | _ | _
      · rw [e2] at h
        simp only [Outcome.ok.injEq] at h
        obtain ⟨q, t', hq, _, _, hz | ⟨hpos', ns', hns', rfl, rfl⟩⟩ := Lemmas.Infer.quantizeOne_ok e2
        · simp [Lemmas.Infer.pick] at hq
          subst hq
          exact absurd hz.2.1 h1
        · simp [Lemmas.Infer.pick] at hq
          subst hq
          have h255 : (0 : F) < 255 := by norm_num
          refine ⟨_, _, ns, ns', _, _, div_pos h255 hpos, div_pos h255 hpos', ?_, rounded _ _ hpos, scaled _ (div_pos h255 hpos) _ _ hns,
            rounded _ _ hpos', scaled _ (div_pos h255 hpos') _ _ hns'⟩
          rw [← h]
          simp [setNeurons]
      · rw [e2] at h; cases h
      · rw [e2] at h; cases h
  · rw [e1] at h; cases h
  · rw [e1] at h; cases h

end Knp.Mnist.Altai
