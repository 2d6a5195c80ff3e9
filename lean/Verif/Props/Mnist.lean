import Verif.Lemmas.Mnist
import Verif.Props.Validation
import Verif.Props.Inference
import Verif.Props.Valid
import Verif.Props.Wta
import Verif.Props.Dataset

/-!
# C166: the MNIST example builds the network it describes and trains it without failing

`construct_network` and `train_network` of `/repo/examples/mnist-learn` (BLIFAT).
-/

namespace Knp.Props
open Knp Knp.Spec Knp.Neurons Knp.Stdp Knp.Mnist Knp.Validation
open Knp.Infer (resourceFromWeight)

section
variable {F : Type} [Field F] [LinearOrder F] [IsStrictOrderedRing F]

omit [Field F] [LinearOrder F] [IsStrictOrderedRing F] in
private theorem forall2_flat {α β γ : Type} {R : β → γ → Prop} {f : α → List β} {g : α → List γ} (h : ∀ x, List.Forall₂ R (f x) (g x)) :
    ∀ l : List α, List.Forall₂ R (l.flatMap f) (l.flatMap g)
  | [] => .nil
  | x :: l => by
    simp only [List.flatMap_cons]
    exact List.rel_append (h x) (forall2_flat h l)

/-- C166, the network.  If the sizes fit the machine, `construct_network` succeeds, and what it builds is the picture of `Spec/Mnist.lean`, once
for every subnetwork: the populations with their sizes; the projections, arrow by arrow, with exactly the connections of the picture;
outputs, the projections the images go to, those the labels go to, and the winner-take-all pairs from the input population to the projection
into the output population.  The borders of winner-take-all divide the input neurons into the columns of the classes. -/
theorem C166_network (p : Params F) (h : Fit p) (fresh : Nat) :
    ∃ a, construct p fresh = .ok a ∧
      a.builder.network.populations.map (fun e => (e.uid, e.body.length)) = (List.range p.subnetworks).flatMap (fun s =>
        [(fresh + 10 * s, p.inputs), (fresh + 10 * s + 1, p.classes), (fresh + 10 * s + 2, p.classes)]) ∧
      List.Forall₂ Draws (loadProjs a.builder.network) ((List.range p.subnetworks).flatMap (fun s => arrows p (fresh + 10 * s))) ∧
      a.builder.outputs = (List.range p.subnetworks).map (fun s => fresh + 10 * s + 1) ∧
      a.fromRaster = (List.range p.subnetworks).map (fun s => fresh + 10 * s + 3) ∧
      a.fromClasses = (List.range p.subnetworks).flatMap (fun s => [fresh + 10 * s + 4, fresh + 10 * s + 7, fresh + 10 * s + 9]) ∧
      a.wtaData = (List.range p.subnetworks).map (fun s => ([fresh + 10 * s], [fresh + 10 * s + 5])) ∧
      a.wtaBorders.length = p.classes ∧ ∀ i < p.inputs, groupOf a.wtaBorders i = i / p.perColumn := by
  obtain ⟨infos, hc⟩ := construct_eq p h fresh
  refine ⟨_, hc, ?_, ?_, rfl, rfl, rfl, rfl, by simp, fun i hi => border_group p i hi⟩
  · rw [List.map_flatMap]
    simp [subPops]
  · unfold loadProjs
    rw [List.map_flatMap]
    exact forall2_flat (fun s => sub_draws p _) _

/-- C166, what learns and with what: every neuron of the input populations is a copy of the input neuron, every other one of the other neuron;
every synapse of the trained projections starts with the same learning rule: the limits and the dopamine period of the parameters, no
bonus, no history, and the one resource that is not negative and for which the weight (C158) is the base weight.  The populations kept for
inference are the input and output ones, the projections kept are those from the images and into the output. -/
theorem C166_learning (p : Params F) (h : Fit p) (fresh : Nat) (a : Annotated F) (ha : construct p fresh = .ok a) (o : Ops F) :
    (∀ e ∈ a.builder.network.populations, e.body = List.replicate p.inputs p.inputNeuron ∧ (∃ s, e.uid = fresh + 10 * s) ∨
      e.body = List.replicate p.classes p.otherNeuron ∧ ∃ s, e.uid = fresh + 10 * s + 1 ∨ e.uid = fresh + 10 * s + 2) ∧
    (∀ j ∈ loadProjs a.builder.network, ∀ l ss x y, j.syns = .resource l ss x y → ∀ r ∈ ss, ∃ w, 0 ≤ w ∧
      r.rule = ⟨w, p.wMin, p.wMax, 0, p.period, 0, false, false⟩ ∧ weightOf o r.rule = p.base) ∧
    a.builder.keepPops = (List.range p.subnetworks).flatMap (fun s => [fresh + 10 * s, fresh + 10 * s + 1]) ∧
    a.builder.keepProjs = (List.range p.subnetworks).flatMap (fun s => [fresh + 10 * s + 3, fresh + 10 * s + 5]) := by
  obtain ⟨infos, hc⟩ := construct_eq p h fresh
  rw [hc] at ha
  simp only [Outcome.ok.injEq] at ha
  subst ha
  refine ⟨?_, ?_, rfl, rfl⟩
  · intro e he
    obtain ⟨s, _, he⟩ := List.mem_flatMap.1 he
    simp only [subPops, List.mem_cons, List.not_mem_nil, or_false] at he
    rcases he with rfl | rfl | rfl
    · exact .inl ⟨rfl, s, rfl⟩
    · exact .inr ⟨rfl, s, .inl rfl⟩
    · exact .inr ⟨rfl, s, .inr rfl⟩
  · intro j hj l ss x y hs r hr
    obtain ⟨e, he, rfl⟩ := List.mem_map.1 hj
    obtain ⟨s, _, he⟩ := List.mem_flatMap.1 he
    simp only [subProjs, List.mem_cons, List.not_mem_nil, or_false] at he
    rcases he with rfl | rfl | rfl | rfl | rfl | rfl | rfl <;> simp only [deltaSyns, reduceCtorEq] at hs
    simp only [resourceSyns, Learn.Syns.resource.injEq] at hs
    obtain ⟨_, rfl, _⟩ := hs
    obtain ⟨y, hy, rfl⟩ := List.mem_map.1 hr
    simp only [bodies, every, List.mem_map] at hy
    obtain ⟨i, _, rfl⟩ := hy
    obtain ⟨w, hw, h0, h1, _⟩ := (C158_inverse_partial o ⟨0, p.wMin, p.wMax, 0, p.period, 0, false, false⟩ p.eps p.base h.eps
      (by have := h.low; have := h.high; have := h.eps; show p.wMin ≤ p.wMax; linarith)).1 h.low h.high
    have hr : resourceFromWeight p.eps p.base p.wMin p.wMax = .ok (theResource p) := the_resource p h
    rw [hr] at hw
    simp only [Outcome.ok.injEq] at hw
    subst hw
    exact ⟨_, h0, rfl, h1⟩

omit [Field F] [LinearOrder F] [IsStrictOrderedRing F] in
private theorem not_reported {P J : Type} {n : Network P J} (h1 : ∀ u, ConnIssue.populationNotConnected u ∉ connectivity n)
    (h2 : ∀ u, ConnIssue.projectionNotConnected u ∉ connectivity n) : connectivity n = [] := by
  rcases hl : connectivity n with _ | ⟨x, l⟩
  · rfl
  · exfalso
    cases x with
    | populationNotConnected u => exact h1 u (by rw [hl]; simp)
    | projectionNotConnected u => exact h2 u (by rw [hl]; simp)

/-- C166: the connectivity check of the framework has nothing to say about this network. -/
theorem C166_connected (p : Params F) (h : Fit p) (fresh : Nat) (hf : 0 < fresh) (a : Annotated F) (ha : construct p fresh = .ok a) :
    connectivity a.builder.network = [] := by
  obtain ⟨infos, hc⟩ := construct_eq p h fresh
  rw [hc] at ha
  simp only [Outcome.ok.injEq] at ha
  subst ha
  apply not_reported
  · intro u hu
    rw [(C40_populations _ _).1] at hu
    obtain ⟨⟨e, he, rfl⟩, hn⟩ := hu
    obtain ⟨s, hs, he⟩ := List.mem_flatMap.1 he
    apply hn
    have key : ∀ j ∈ subProjs (bodies p) (fresh + 10 * s), j ∈ (List.range p.subnetworks).flatMap (fun s => subProjs (bodies p) (fresh + 10 * s)) :=
      fun j hj => List.mem_flatMap.2 ⟨s, hs, hj⟩
    simp only [subPops, List.mem_cons, List.not_mem_nil, or_false] at he
    rcases he with rfl | rfl | rfl
    · exact ⟨by show fresh + 10 * s ≠ 0; omega, _, key _ (by simp only [subProjs]; exact List.mem_cons_self), .inr rfl⟩
    · exact ⟨by show fresh + 10 * s + 1 ≠ 0; omega, _, key _ (by simp only [subProjs]; exact .tail _ (.tail _ List.mem_cons_self)), .inr rfl⟩
    · exact ⟨by show fresh + 10 * s + 2 ≠ 0; omega, _, key _ (by simp only [subProjs]; exact .tail _ (.tail _ (.tail _ List.mem_cons_self))), .inr rfl⟩
  · intro u hu
    rw [(C40_projections_partial _ _).2] at hu
    obtain ⟨j, hj, _, _, h0⟩ := hu
    obtain ⟨s, hs, hj⟩ := List.mem_flatMap.1 hj
    simp only [subProjs, List.mem_cons, List.not_mem_nil, or_false] at hj
    have h10 : ∀ k : Nat, (fresh + 10 * s + k : Nat) ≠ 0 := fun k => by omega
    rcases hj with rfl | rfl | rfl | rfl | rfl | rfl | rfl
    · exact h10 0 h0
    · exact h10 0 h0
    · exact h10 1 h0
    · exact h10 2 h0
    · exact h10 2 h0
    · exact h10 0 h0
    · exact h10 0 h0

/-! ## It is a valid network -/

omit [Field F] [LinearOrder F] [IsStrictOrderedRing F] in
private theorem arrow_target {j : Learn.Proj F} {a : Arrow F} (h : Draws j a) {y : Delta.Syn F} (hy : y ∈ (wired j.syns).synapses) :
    a.connects y.source y.target := by
  by_contra hn
  exact h.only _ _ hn (List.mem_map.2 ⟨y, hy, rfl⟩)

omit [Field F] [LinearOrder F] [IsStrictOrderedRing F] in
private theorem column_lt {p : Params F} (hc : 0 < p.perColumn) {c i : Nat} (h : InColumn p c i) : c < p.classes := by
  obtain ⟨h1, rfl⟩ := h
  exact (Nat.div_lt_iff_lt_mul hc).2 (by rw [Nat.mul_comm]; exact h1)

/-- C166: it is a network whose parts fit together (C162), if the arithmetic can convert -10 to an integer. -/
theorem C166_valid {N : Type} (arith : Arith F) (hb : (arith.toI64 (-10)).isSome = true) (p : Params F) (h : Fit p) (fresh : Nat) (a : Annotated F)
    (ha : construct p fresh = .ok a) :
    ValidNet (fun w v => v = w) (loadPops (N := N) arith a.builder.network) (loadProjs a.builder.network) := by
  obtain ⟨infos, hc⟩ := construct_eq p h fresh
  obtain ⟨a', ha', _, hdraw, _⟩ := C166_network p h fresh
  rw [ha] at ha'
  simp only [Outcome.ok.injEq] at ha'
  subst ha'
  rw [hc] at ha
  simp only [Outcome.ok.injEq] at ha
  have hcl : p.classes ≤ p.inputs := Nat.le_mul_of_pos_left _ h.column
  -- every population is one of a subnetwork
  have hpop : ∀ q ∈ loadPops (N := N) arith a.builder.network, ∃ (s k n : Nat) (ns : List (Res (Blifat F) F)), q = .trained (fresh + 10 * s + k) (@resBlifat F arith) blifatOps ns ∧
      ns.length = n ∧ ((k = 0 ∧ n = p.inputs) ∨ (k = 1 ∧ n = p.classes) ∨ (k = 2 ∧ n = p.classes)) := by
    intro q hq
    obtain ⟨e, he, rfl⟩ := List.mem_map.1 hq
    rw [← ha] at he
    obtain ⟨s, _, he⟩ := List.mem_flatMap.1 he
    simp only [subPops, List.mem_cons, List.not_mem_nil, or_false] at he
    rcases he with rfl | rfl | rfl
    · exact ⟨s, 0, _, _, rfl, by simp, .inl ⟨rfl, rfl⟩⟩
    · exact ⟨s, 1, _, _, rfl, by simp, .inr (.inl ⟨rfl, rfl⟩)⟩
    · exact ⟨s, 2, _, _, rfl, by simp, .inr (.inr ⟨rfl, rfl⟩)⟩
  have harrow : ∀ j ∈ loadProjs a.builder.network, ∃ (s : Nat) (ar : Arrow F), ar ∈ arrows p (fresh + 10 * s) ∧ Draws j ar := by
    intro j hj
    obtain ⟨n, hn, rfl⟩ := List.getElem_of_mem hj
    have hn' := hn
    rw [hdraw.length_eq] at hn'
    have := hdraw.get hn hn'
    obtain ⟨s, _, hs⟩ := List.mem_flatMap.1 (List.getElem_mem hn')
    exact ⟨s, _, hs, by simpa using this⟩
  constructor
  · have : (loadPops (N := N) arith a.builder.network).map Learn.Pop.uid =
        (List.range p.subnetworks).flatMap (fun s => [0, 1, 2].map (fun k => fresh + 10 * s + k)) := by
      unfold loadPops
      rw [← ha, List.map_map, List.map_flatMap]
      simp [subPops, Learn.Pop.uid]
    rw [this]
    exact nodup_block fresh _ _ (by decide) (by decide)
  · have : (loadProjs a.builder.network).map (fun j => j.ident.uid) =
        (List.range p.subnetworks).flatMap (fun s => [3, 4, 5, 6, 7, 8, 9].map (fun k => fresh + 10 * s + k)) := by
      unfold loadProjs
      rw [← ha, List.map_map, List.map_flatMap]
      simp [subProjs]
    rw [this]
    exact nodup_block fresh _ _ (by decide) (by decide)
  · intro j hj
    obtain ⟨s, ar, _, hd⟩ := harrow j hj
    exact hd.fresh
  · intro q hq
    obtain ⟨s, k, n, ns, rfl, hl, hk⟩ := hpop q hq
    show ns.length ≤ 2 ^ 32
    have := h.small
    rcases hk with ⟨_, hn⟩ | ⟨_, hn⟩ | ⟨_, hn⟩ <;> omega
  · intro j hj q hq hpost y hy
    obtain ⟨s, ar, har, hd⟩ := harrow j hj
    obtain ⟨s', k, n, ns, rfl, hl, hk⟩ := hpop q hq
    have hcon := arrow_target hd hy
    rw [hd.post] at hpost
    change fresh + 10 * s' + k = ar.post at hpost
    show y.target < ns.length
    rw [hl]
    simp only [arrows, List.mem_cons, List.not_mem_nil, or_false] at har
    rcases har with rfl | rfl | rfl | rfl | rfl | rfl | rfl
    · have hpost : (fresh + 10 * s' + k : Nat) = fresh + 10 * s := hpost
      have hcon : _ ∧ _ := hcon
      rcases hk with ⟨_, hn⟩ | ⟨_, hn⟩ | ⟨_, hn⟩ <;> omega
    · have hpost : (fresh + 10 * s' + k : Nat) = fresh + 10 * s := hpost
      have hcon : _ ∧ _ := hcon
      rcases hk with ⟨_, hn⟩ | ⟨_, hn⟩ | ⟨_, hn⟩ <;> omega
    · have hpost : (fresh + 10 * s' + k : Nat) = fresh + 10 * s + 1 := hpost
      have := column_lt h.column hcon
      rcases hk with ⟨_, hn⟩ | ⟨_, hn⟩ | ⟨_, hn⟩ <;> omega
    · have hpost : (fresh + 10 * s' + k : Nat) = fresh + 10 * s + 2 := hpost
      have hcon : _ ∧ _ := hcon
      rcases hk with ⟨_, hn⟩ | ⟨_, hn⟩ | ⟨_, hn⟩ <;> omega
    · have hpost : (fresh + 10 * s' + k : Nat) = fresh + 10 * s + 2 := hpost
      have hcon : _ ∧ _ := hcon
      rcases hk with ⟨_, hn⟩ | ⟨_, hn⟩ | ⟨_, hn⟩ <;> omega
    · have hpost : (fresh + 10 * s' + k : Nat) = fresh + 10 * s := hpost
      have hcon : _ ∧ _ := hcon
      rcases hk with ⟨_, hn⟩ | ⟨_, hn⟩ | ⟨_, hn⟩ <;> omega
    · have hpost : (fresh + 10 * s' + k : Nat) = fresh + 10 * s := hpost
      have hcon : _ ∧ _ := hcon
      rcases hk with ⟨_, hn⟩ | ⟨_, hn⟩ | ⟨_, hn⟩ <;> omega
  · intro j hj q hq hpost y hy v hv
    obtain ⟨s, ar, har, hd⟩ := harrow j hj
    obtain ⟨s', k, n, ns, rfl, hl, hk⟩ := hpop q hq
    show Takes (@resBlifat F arith) y.outType v
    rw [(@C162_resource F arith _ _).1, @C162_blifat F arith]
    intro hty
    obtain ⟨hw, _, ht⟩ := hd.alike y hy
    rw [hty] at ht
    simp only [arrows, List.mem_cons, List.not_mem_nil, or_false] at har
    rcases har with rfl | rfl | rfl | rfl | rfl | rfl | rfl <;> try cases ht
    obtain ⟨d, hs⟩ := hd.plain rfl
    have hv' : v = y.weight := by rw [hs] at hv; exact hv
    rw [hv', hw]
    exact hb

end

/-! ## Training -/

section
open Knp.Prog
variable {σ N F : Type} [Field F] [LinearOrder F]

/-- C166, the generators of the training program are defined in every step of the training and in the last call that ends it: the images are those
of C70; the label of the frame is sent once per frame, in sub-step `labelStep`. -/
theorem C166_generators (d : Data.Dataset) (h : WellFormed d) (ha : 1 ≤ d.trainN) (labelStep : Nat) (hl : 0 < labelStep) (t : Nat)
    (ht : t ≤ d.stepsTraining) :
    (∃ l, d.trainingImages t = .ok l) ∧
    labelSpikes d labelStep t = .ok (if t % d.stepsPerFrame = labelStep then [(d.frames.getD (t / d.stepsPerFrame) (0, [])).1] else []) := by
  obtain ⟨_, _, l, _, _, _, h1, _⟩ := C70_training d h ha t
  refine ⟨⟨l, h1⟩, ?_⟩
  have hs := h.steps
  unfold labelSpikes
  rw [if_neg (by omega)]
  by_cases hm : t % d.stepsPerFrame = labelStep
  · rw [if_pos hm, if_pos hm]
    have hlt : t / d.stepsPerFrame < d.frames.length := by
      have hne : t ≠ d.stepsTraining := by
        intro he
        rw [he] at hm
        unfold Data.Dataset.stepsTraining at hm
        rw [Nat.mul_mod_left] at hm
        omega
      have : t < d.trainN * d.stepsPerFrame := by unfold Data.Dataset.stepsTraining at ht hne; omega
      have := (Nat.div_lt_iff_lt_mul (by omega : 0 < d.stepsPerFrame)).2 this
      have := h.parts
      omega
    rw [List.getElem?_eq_getElem hlt, List.getD_eq_getElem?_getD, List.getElem?_eq_getElem hlt]
    rfl
  · rw [if_neg hm, if_neg hm]

omit [Field F] [LinearOrder F] in
private theorem halts_only (L : Layout) (n : Nat) (f : Nat → σ → σ) (g : σ → σ) :
    ∀ a ∈ (List.range n).map (fun k => Act.iterate (f k)) ++ [.halt g], CanRead L a := by
  intro a ha
  rcases List.mem_append.1 ha with ha | ha
  · obtain ⟨k, _, rfl⟩ := List.mem_map.1 ha
    trivial
  · simp only [List.mem_singleton] at ha
    subst ha
    trivial

/-- C166, training.  `train_network` on the single-threaded backend returns: whatever the images, the draws of winner-take-all and the loggers, no
step throws or is undefined, and it makes exactly as many steps as the dataset says, and then one last pre-step call.  The run is one of those
C111-C122 are about. -/
theorem C166_training [IsStrictOrderedRing F] (arith : Arith F) (hb : (arith.toI64 (-10)).isSome = true) (p : Params F) (h : Fit p)
    (fresh : Nat) (a : Annotated F) (ha : construct p fresh = .ok a) (o : Ops F) (d : Data.Dataset) (labelStep winners maxSize : Nat) (u : Uids)
    (loggers : List Observer) (observe : Nat → σ → List (Message F) → σ) (draw : Nat → σ → Nat → Nat → Nat) (advance : Nat → σ → σ) (u0 : σ) :
    ∃ (s : Prog.State σ (Learn.Pop N (Blifat F) F) (Learn.Proj F) F) (is : List (Iter F)) (fed : List (List Nat)) (acts : List (Act σ)),
      Prog.start ((Prog.Backend.single : Prog.Backend F).step o) (trainLayout a u loggers)
        (trainCode p a d labelStep winners maxSize observe draw advance) (trainPred d) (d.stepsTraining + 1)
        (Prog.boot (Learn.machine o) (trainLayout a u loggers) (loadPops arith a.builder.network) (loadProjs a.builder.network) (trainInputs a u) u0) =
          some (.ok (s, is.map Item.iter ++ [.halt d.stepsTraining fed])) ∧
      is.length = d.stepsTraining ∧
      ProgRun .single o (trainLayout a u loggers) (trainCode p a d labelStep winners maxSize observe draw advance)
        (loadPops arith a.builder.network) (loadProjs a.builder.network) (trainInputs a u) u0 acts s
        (is.map Item.iter ++ [.halt d.stepsTraining fed]) := by
  have hv := C166_valid (N := N) arith hb p h fresh a ha
  obtain ⟨s, tr, hrun⟩ := C162_program o (trainLayout a u loggers) (trainCode p a d labelStep winners maxSize observe draw advance) hv
    (trainInputs a u) u0 ((List.range d.stepsTraining).map (fun k => Act.iterate (fun u => (trainPred d u (0 + k)).2)) ++
      [.halt (fun u => (trainPred d u (0 + d.stepsTraining)).2)]) (halts_only _ _ _ _)
  have hstart := C119_start_returns .single o (trainPred d) d.stepsTraining _ s tr hrun
    (fun k hk u => by
      show decide (0 + k ≠ d.stepsTraining) = true
      exact decide_eq_true (by omega))
    (fun u => by
      show decide (0 + d.stepsTraining ≠ d.stepsTraining) = false
      exact decide_eq_false (by omega))
  obtain ⟨n, is, fed, e1, e2, e3, e4⟩ := C119_start .single o (trainPred d) _ _ _ _ hstart
  have hn := (e4 (fun t => decide (t ≠ d.stepsTraining)) (fun _ _ => rfl)).1
  have hn' : 0 + n = d.stepsTraining := by
    have : ¬ (0 + n ≠ d.stepsTraining) := of_decide_eq_false hn
    omega
  have hz : (Prog.boot (Learn.machine (N := N) (B := Blifat F) o) (trainLayout a u loggers) (loadPops arith a.builder.network)
    (loadProjs a.builder.network) (trainInputs a u) u0).core.step + n = d.stepsTraining := hn'
  rw [hz] at e1
  subst e1
  exact ⟨s, is, fed, _, hstart, by omega, ⟨hv.popUids, hv.projUids, hv.queues, hrun⟩⟩

end

namespace MnistEx

/-- Exact rational arithmetic; fractions are cut off when an integer is needed. -/
@[reducible] def arith : Arith ℚ := { LearnEx.arith with toI64 := fun a => some a.floor }
/-- A neuron with threshold 8. -/
def neuron : Res (Blifat ℚ) ℚ := ⟨{ LearnEx.blifat with activation := 8 }, StdpEx.rule 0⟩
/-- Two classes with columns of two neurons, three pixels, two subnetworks; input neurons have threshold 1. -/
def p : Params ℚ := ⟨2, 2, 3, 2, ⟨LearnEx.blifat, StdpEx.rule 0⟩, neuron, 2, 0, 4, 1/1000000, 10⟩
/-- The sizes and weights of the repository (hyperparameters.h, global_config.h). -/
def repository (n m : Res (Blifat ℚ) ℚ) : Params ℚ := ⟨10, 20, 784, 1, n, m, 0, -253/1000, 924/10000, 1/1000000, 10⟩

theorem fit : Fit p := ⟨by decide, by decide, by decide, by decide, by decide, by decide +kernel, by decide +kernel, by decide +kernel⟩
example (n m : Res (Blifat ℚ) ℚ) : Fit (repository n m) := by
  refine ⟨?_, ?_, ?_, ?_, ?_, ?_, ?_, ?_⟩ <;> simp only [repository, Params.inputs] <;> first | decide | decide +kernel
example : (arith.toI64 (-10)).isSome = true := rfl

/-- The connections of the first subnetwork. -/
example : (match construct p 5 with
    | .ok a => ((loadProjs a.builder.network).take 7).map (fun j => (j.ident.uid, j.ident.pre, j.ident.post,
        ((wired j.syns).synapses.map (fun y => (y.source, y.target)))))
    | _ => []) =
    [(8, 0, 5, [(0, 0), (1, 0), (2, 0), (0, 1), (1, 1), (2, 1), (0, 2), (1, 2), (2, 2), (0, 3), (1, 3), (2, 3)]),
     (9, 0, 5, [(0, 0), (0, 1), (1, 2), (1, 3)]), (10, 0, 6, [(0, 0), (1, 0), (2, 1), (3, 1)]), (11, 6, 7, [(0, 0), (1, 1)]),
     (12, 0, 7, [(0, 0), (1, 1)]), (13, 7, 5, [(0, 0), (0, 1), (1, 2), (1, 3)]), (14, 0, 5, [(0, 0), (0, 1), (1, 2), (1, 3)])] := by
  decide +kernel

/-- Two frames of three pixels and five steps. -/
def d : Data.Dataset := ⟨[(1, [true, false, true, true, true, true, false, false, true, true, true, false, false, false, false]),
  (0, List.replicate 15 true)], 2, 0, 5, 2, 3⟩

theorem data : WellFormed d := ⟨by decide, by decide, by decide⟩
example : (List.range 11).map (labelSpikes d 3) =
    [.ok [], .ok [], .ok [], .ok [1], .ok [], .ok [], .ok [], .ok [], .ok [0], .ok [], .ok []] := by decide +kernel

end MnistEx

end Knp.Props
