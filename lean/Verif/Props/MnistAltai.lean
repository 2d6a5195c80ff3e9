import Verif.Lemmas.MnistAltai
import Verif.Props.Inference
import Verif.Props.Mnist

/-!
# C179: the MNIST example with AltAI neurons

`construct_network` and `prepare_network_for_inference` of `/repo/examples/mnist-learn/models/altai`.
-/

namespace Knp.Props
open Knp Knp.Spec Knp.Neurons Knp.Stdp Knp.Mnist
open Knp.Infer (resourceFromWeight quantize)

section
variable {F : Type} [Field F] [LinearOrder F] [IsStrictOrderedRing F]

/-- C179, the network.  If the sizes fit the machine, `construct_network` succeeds, and what it builds is the picture of `Spec/MnistAltai.lean`: the
populations with their neurons; the projections, arrow by arrow, with exactly the connections of the picture; output, the projections the images
go to, those the labels go to, the winner-take-all pair and its borders, which divide the input neurons into the columns of the classes. -/
theorem C179_network (p : Altai.Params F) (h : MnistAltai.Fit p) (fresh : Nat) :
    ∃ a, Altai.construct p fresh = .ok a ∧
      a.builder.network.populations = [⟨fresh, 2, List.replicate (p.perColumn * p.classes) p.inputNeuron⟩,
        ⟨fresh + 1, 2, List.replicate p.classes p.otherNeuron⟩, ⟨fresh + 2, 2, List.replicate p.classes p.otherNeuron⟩] ∧
      List.Forall₂ Draws (Altai.loadProjs a.builder.network) (MnistAltai.arrows p fresh) ∧
      a.builder.outputs = [fresh + 1] ∧ a.fromRaster = [fresh + 3] ∧ a.fromClasses = [fresh + 4, fresh + 5, fresh + 6] ∧
      a.wtaData = [([fresh], [fresh + 7])] ∧
      a.wtaBorders.length = p.classes ∧ ∀ i < p.perColumn * p.classes, groupOf a.wtaBorders i = i / p.perColumn :=
  ⟨_, Altai.construct_eq p h fresh, rfl, Altai.draws p fresh, rfl, rfl, rfl, rfl, by simp,
    fun i hi => border_group (Altai.shape p 0) i hi⟩

/-- C179, what learns: every synapse of the trained projection starts with the same learning rule: the limits and the dopamine period of the parameters, no
bonus, no history, and a resource that is not negative and for which the weight is 0. -/
theorem C179_learning (p : Altai.Params F) (h : MnistAltai.Fit p) (fresh : Nat) (a : Altai.Annotated (Altai.Body F) (JBody F))
    (ha : Altai.construct p fresh = .ok a) (o : Ops F) :
    ∀ j ∈ Altai.loadProjs a.builder.network, ∀ l ss x y, j.syns = .resource l ss x y → ∀ r ∈ ss, ∃ w, 0 ≤ w ∧
      r.rule = ⟨w, p.wMin, p.wMax, 0, p.period, 0, false, false⟩ ∧ weightOf o r.rule = 0 := by
  rw [Altai.construct_eq p h fresh] at ha
  simp only [Outcome.ok.injEq] at ha
  subst ha
  intro j hj l ss x y hs r hr
  obtain ⟨e, he, rfl⟩ := List.mem_map.1 hj
  simp only [Altai.projs, List.mem_cons, List.not_mem_nil, or_false] at he
  rcases he with rfl | rfl | rfl | rfl | rfl | rfl | rfl <;> simp only [deltaSyns, reduceCtorEq] at hs
  simp only [resourceSyns, Learn.Syns.resource.injEq] at hs
  obtain ⟨_, rfl, _⟩ := hs
  obtain ⟨y, hy, rfl⟩ := List.mem_map.1 hr
  simp only [every, List.mem_map] at hy
  obtain ⟨i, _, rfl⟩ := hy
  obtain ⟨w, hw, h0, h1, _⟩ := (C158_inverse_partial o ⟨0, p.wMin, p.wMax, 0, p.period, 0, false, false⟩ p.eps 0 h.eps
    (by have := h.low; have := h.high; have := h.eps; show p.wMin ≤ p.wMax; linarith)).1 h.low (by have := h.high; simpa using this)
  have hr : resourceFromWeight p.eps 0 p.wMin p.wMax = .ok (theResource (Altai.shape p 0)) := Altai.resource_eq p h
  rw [hr] at hw
  simp only [Outcome.ok.injEq] at hw
  subst hw
  exact ⟨_, h0, rfl, h1⟩

variable [FloorRing F] {R S : Type}

/-- C179, the network for inference.  After any training that changed only what is in populations and projections, if preparing succeeds, what is left is two
layers: the images into the input population as before, and instead of winner-take-all a projection with a new UID from the input population into the
output population, with the synapses that heard the winners.  All weights are whole numbers from -255 to 255, and within a layer – the projection into
a population and the thresholds of its neurons – everything was scaled by one factor, so (C157) sums of weights compare to thresholds as before
up to rounding.  Everything else of neurons and synapses is as trained. -/
theorem C179_inference (p : Altai.Params F) (h : MnistAltai.Fit p) (fresh : Nat) (a : Altai.Annotated (Altai.Body F) (JBody F))
    (ha : Altai.construct p fresh = .ok a) (trained : Network (List (Infer.Neuron F R)) (List (Infer.Syn F S)))
    (ht : MnistAltai.SameIdentities a.builder.network trained) (hne : ∀ q ∈ trained.populations, q.body ≠ [])
    (nan : F) (next : Nat) (n' : Network (List (Infer.Neuron F R)) (List (Infer.Syn F S))) (hn : Altai.prepare a nan next trained = .ok n') :
    ∃ inputs outputs raster winners, ⟨fresh, 2, inputs⟩ ∈ trained.populations ∧ ⟨fresh + 1, 2, outputs⟩ ∈ trained.populations ∧
      ⟨fresh + 3, 0, fresh, 1, raster⟩ ∈ trained.projections ∧ ⟨fresh + 7, 0, fresh + 1, 0, winners⟩ ∈ trained.projections ∧
      ∃ c₀ c₁ inputs' outputs' raster' winners', 0 < c₀ ∧ 0 < c₁ ∧
        n' = ⟨[⟨fresh, 2, inputs'⟩, ⟨fresh + 1, 2, outputs'⟩],
              [⟨fresh + 3, 0, fresh, 1, raster'⟩, ⟨next, fresh, fresh + 1, 0, winners'⟩]⟩ ∧
        MnistAltai.RoundedWeights c₀ raster raster' ∧ MnistAltai.ScaledThresholds c₀ inputs inputs' ∧
        MnistAltai.RoundedWeights c₁ winners winners' ∧ MnistAltai.ScaledThresholds c₁ outputs outputs' := by
  rw [Altai.construct_eq p h fresh] at ha
  simp only [Outcome.ok.injEq] at ha
  subst ha
  obtain ⟨b₀, b₁, b₂, s₃, s₄, s₅, s₆, s₇, s₈, s₉, rfl⟩ := Altai.identities p fresh trained ht
  unfold Altai.prepare at hn
  simp only [Altai.kept_eq] at hn
  rw [Outcome.bind] at hn
  refine ⟨b₀, b₁, s₃, s₇, by simp, by simp, by simp, by simp, ?_⟩
  exact Altai.quantize_two nan fresh next b₀ b₁ s₃ s₇ (hne ⟨fresh, 2, b₀⟩ (by simp)) (hne ⟨fresh + 1, 2, b₁⟩ (by simp)) n' hn

/-- C179: preparing does succeed if the thresholds fit and there are no additional ones, and the kept projections have a weight other than zero. -/
theorem C179_prepares (p : Altai.Params F) (h : MnistAltai.Fit p) (fresh : Nat) (a : Altai.Annotated (Altai.Body F) (JBody F))
    (ha : Altai.construct p fresh = .ok a) (trained : Network (List (Infer.Neuron F R)) (List (Infer.Syn F S)))
    (ht : MnistAltai.SameIdentities a.builder.network trained)
    (hpop : ∀ q ∈ trained.populations, ∀ m ∈ q.body, m.activation < 65536 ∧ m.additional = 0)
    (hproj : ∀ j ∈ trained.projections, j.uid = fresh + 3 ∨ j.uid = fresh + 7 → ∃ s ∈ j.body, s.weight ≠ 0)
    (nan : F) (next : Nat) : ∃ n', Altai.prepare a nan next trained = .ok n' := by
  rw [Altai.construct_eq p h fresh] at ha
  simp only [Outcome.ok.injEq] at ha
  subst ha
  obtain ⟨b₀, b₁, b₂, s₃, s₄, s₅, s₆, s₇, s₈, s₉, rfl⟩ := Altai.identities p fresh trained ht
  unfold Altai.prepare
  simp only [Altai.kept_eq]
  rw [Outcome.bind]
  apply C156_defined
  · intro q hq
    simp only [List.mem_cons, List.not_mem_nil, or_false] at hq
    rcases hq with rfl | rfl
    · exact ⟨rfl, hpop _ (by simp)⟩
    · exact ⟨rfl, hpop ⟨fresh + 1, 2, b₁⟩ (by simp)⟩
  · intro j hj
    simp only [List.mem_cons, List.not_mem_nil, or_false] at hj
    rcases hj with rfl | rfl
    · exact ⟨hproj ⟨fresh + 3, 0, fresh, 1, s₃⟩ (by simp) (.inl rfl), ⟨fresh, 2, b₀⟩, by simp, rfl⟩
    · exact ⟨hproj ⟨fresh + 7, 0, fresh + 1, 0, s₇⟩ (by simp) (.inr rfl), ⟨fresh + 1, 2, b₁⟩, by simp, rfl⟩

end

/-! ## It is not empty -/

namespace AltaiEx
def base (t : Nat) : AltAi ℚ := ⟨true, true, false, true, false, 0, 0, t, 0, 0, 0, 0, 0, 0⟩
def neuron (t : Nat) : Res (AltAi ℚ) ℚ := ⟨base t, StdpEx.rule 0⟩
/-- Two classes, two neurons per column, three pixels; the limits of the repository. -/
def p : Altai.Params ℚ := ⟨2, 2, 3, neuron 8531, neuron 8531, -253122 / 1000, 923957 / 10000, 1 / 1000000, 10⟩
/-- The sizes of the repository. -/
def repository : Altai.Params ℚ := { p with classes := 10, perColumn := 20, inputSize := 784 }
example : MnistAltai.Fit p := ⟨by decide, by decide, by decide, by decide, by decide +kernel, by decide +kernel, by decide +kernel⟩
example : MnistAltai.Fit repository := ⟨by decide, by decide, by decide, by decide, by decide +kernel, by decide +kernel, by decide +kernel⟩
/-- A trained network in the view of quantisation: one neuron or synapse each is enough to see it. -/
def trained : Network (List (Infer.Neuron ℚ Unit)) (List (Infer.Syn ℚ Unit)) :=
  ⟨[⟨10, 2, [⟨8531, 0, ()⟩]⟩, ⟨11, 2, [⟨8531, 0, ()⟩]⟩, ⟨12, 2, [⟨8531, 0, ()⟩]⟩],
   [⟨13, 0, 10, 1, [⟨50, ()⟩, ⟨-100, ()⟩]⟩, ⟨14, 0, 10, 0, []⟩, ⟨15, 0, 10, 0, []⟩, ⟨16, 0, 12, 0, []⟩, ⟨17, 0, 11, 0, [⟨10000, ()⟩]⟩,
    ⟨18, 11, 12, 0, []⟩, ⟨19, 12, 10, 0, []⟩]⟩
example : ∃ a, Altai.construct p 10 = .ok a ∧ MnistAltai.SameIdentities a.builder.network trained :=
  ⟨_, Altai.construct_eq p ⟨by decide, by decide, by decide, by decide, by decide +kernel, by decide +kernel, by decide +kernel⟩ 10, by decide, by decide⟩
/-- The thresholds of the input neurons are so much larger than the weights of the raster that a weight of 50 becomes 1, and one of 16 would become 0. -/
example : quantize (F := ℚ) 0 2 ⟨trained.populations.take 2, [⟨13, 0, 10, 1, [⟨50, ()⟩, ⟨-100, ()⟩, ⟨16, ()⟩]⟩, ⟨30, 10, 11, 0, [⟨10000, ()⟩]⟩]⟩ =
    .ok ⟨[⟨10, 2, [⟨255, 0, ()⟩]⟩, ⟨11, 2, [⟨217, 0, ()⟩]⟩], [⟨13, 0, 10, 1, [⟨1, ()⟩, ⟨-3, ()⟩, ⟨0, ()⟩]⟩, ⟨30, 10, 11, 0, [⟨255, ()⟩]⟩]⟩ := by decide +kernel
end AltaiEx

end Knp.Props
