import Verif.Spec.Mnist
import Verif.Props.Generators
import Verif.Props.Delta
import Verif.Props.Handlers
import Mathlib.Data.List.Flatten
import Mathlib.Data.List.Nodup
import Mathlib.Tactic.Linarith

/-! Lemmas about the network of the MNIST example. -/

namespace Knp.Mnist
open Knp Knp.Neurons Knp.Stdp Knp.Infer Knp.Spec Knp.Props

variable {F : Type} [Field F] [LinearOrder F]

/-- The bodies of the seven projections. -/
structure Bodies (F : Type) where
  raster : List (Synapse (SynRule F))
  reward : List (Synapse (DeltaParams F))
  toOutput : List (Synapse (DeltaParams F))
  toGate : List (Synapse (DeltaParams F))
  labelToGate : List (Synapse (DeltaParams F))
  gateToInput : List (Synapse (DeltaParams F))
  reset : List (Synapse (DeltaParams F))

/-- The calls of the constructor with these bodies. -/
def opsOf (p : Params F) (b : Bodies F) : List (Infer.Op (PBody F) (JBody F)) :=
  [.population false true 1 (List.replicate p.inputs p.inputNeuron),
   .population true true 1 (List.replicate p.classes p.otherNeuron),
   .population false false 1 (List.replicate p.classes p.otherNeuron),
   .channeled true,
   .channeled false,
   .projection 3 0 1 (false, resourceSyns b.raster) false,
   .projection 4 0 0 (true, deltaSyns b.reward) false,
   .projection 0 1 0 (true, deltaSyns b.toOutput) true,
   .projection 1 2 0 (true, deltaSyns b.toGate) false,
   .projection 4 2 0 (true, deltaSyns b.labelToGate) false,
   .projection 2 0 0 (true, deltaSyns b.gateToInput) false,
   .projection 4 0 0 (true, deltaSyns b.reset) false]

/-- Column-wise synapses from classes to input neurons. -/
def down {P : Type} (p : Params F) (par : P) : List (Synapse P) := (List.range p.inputs).map (fun i => ⟨par, i / p.perColumn, i⟩)
/-- Column-wise synapses from input neurons to classes. -/
def up {P : Type} (p : Params F) (par : P) : List (Synapse P) := (List.range p.inputs).map (fun i => ⟨par, i, i / p.perColumn⟩)
/-- One to one. -/
def same {P : Type} (p : Params F) (par : P) : List (Synapse P) := (List.range p.classes).map (fun i => ⟨par, i, i⟩)
/-- All to all. -/
def every {P : Type} (p : Params F) (par : P) : List (Synapse P) :=
  (List.range (p.inputSize * p.inputs)).map (fun i => ⟨par, i % p.inputSize, i / p.inputSize⟩)

omit [LinearOrder F] [Field F] in
theorem aligned_down {P : Type} (p : Params F) (h1 : 0 < p.classes) (h2 : 0 < p.perColumn) (par : P) :
    Gen.aligned 0 0 p.classes p.inputs (fun _ _ => par) = .ok ⟨0, 0, down p par⟩ := by
  have hdiv : p.inputs / p.classes = p.perColumn := Nat.mul_div_cancel _ h1
  by_cases h : p.inputs ≤ p.classes
  · have hc : p.perColumn = 1 := by
      have : p.perColumn * p.classes ≤ 1 * p.classes := by rw [Nat.one_mul]; exact h
      have := Nat.le_of_mul_le_mul_right this h1
      omega
    have hi : p.inputs = p.classes := by unfold Params.inputs; rw [hc, Nat.one_mul]
    rw [hi, aligned_ge_eq _ _ _ _ _ h1 (Nat.le_refl _), Nat.div_self h1]
    unfold down
    rw [hi, hc]
    simp
  · rw [aligned_lt_eq _ _ _ _ _ h1 (Nat.lt_of_not_le h), hdiv]
    rfl

omit [LinearOrder F] [Field F] in
theorem aligned_up {P : Type} (p : Params F) (h1 : 0 < p.classes) (h2 : 0 < p.perColumn) (par : P) :
    Gen.aligned 0 0 p.inputs p.classes (fun _ _ => par) = .ok ⟨0, 0, up p par⟩ := by
  have hdiv : p.inputs / p.classes = p.perColumn := Nat.mul_div_cancel _ h1
  have hle : p.classes ≤ p.inputs := Nat.le_mul_of_pos_left _ h2
  rw [aligned_ge_eq _ _ _ _ _ h1 hle, hdiv]
  rfl

omit [LinearOrder F] [Field F] in
theorem aligned_same {P : Type} (p : Params F) (h1 : 0 < p.classes) (par : P) :
    Gen.aligned 0 0 p.classes p.classes (fun _ _ => par) = .ok ⟨0, 0, same p par⟩ := by
  rw [aligned_ge_eq _ _ _ _ _ h1 (Nat.le_refl _), Nat.div_self h1]
  simp [same]

/-- The resource of the trained synapses. -/
def theResource (p : Params F) : F := (p.base - p.wMin) * (p.wMax - p.wMin) / ((p.wMax - p.wMin) - (p.base - p.wMin))

/-- The bodies `subnetwork` computes. -/
def bodies (p : Params F) : Bodies F where
  raster := every p ⟨theResource p, p.wMin, p.wMax, 0, p.period, 0, false, false⟩
  reward := down p ⟨18 / 100, 3, .dopamine⟩
  toOutput := up p ⟨10, 1, .excitatory⟩
  toGate := same p ⟨-10, 1, .blocking⟩
  labelToGate := same p ⟨10, 1, .excitatory⟩
  gateToInput := down p ⟨10, 1, .excitatory⟩
  reset := down p ⟨-30, 4, .excitatory⟩

variable [IsStrictOrderedRing F]

theorem the_resource (p : Params F) (h : Fit p) : resourceFromWeight p.eps p.base p.wMin p.wMax = .ok (theResource p) := by
  unfold resourceFromWeight
  have h1 : ¬ p.wMax < p.wMin := by have := h.eps; have := h.low; have := h.high; intro; linarith
  rw [if_neg h1]
  simp only
  rw [if_neg]
  · rfl
  · rintro (h2 | h2)
    · have := h.low; linarith
    · have := h.high; linarith

theorem subnetwork_eq (p : Params F) (h : Fit p) : subnetwork p = .ok (opsOf p (bodies p)) := by
  have e1 := the_resource p h
  unfold subnetwork rasterProj alignedProj
  rw [e1, aligned_up p h.classes h.column, aligned_same p h.classes, aligned_same p h.classes, aligned_down p h.classes h.column,
    aligned_down p h.classes h.column, aligned_down p h.classes h.column, Outcome.bind]
  rw [allToAll_eq _ _ _ _ _ h.pairs]
  rfl

/-- The populations of the subnetwork whose UIDs start with `f`. -/
def subPops (p : Params F) (f : Nat) : List (PopEntity (PBody F)) :=
  [⟨f, 1, List.replicate p.inputs p.inputNeuron⟩, ⟨f + 1, 1, List.replicate p.classes p.otherNeuron⟩,
   ⟨f + 2, 1, List.replicate p.classes p.otherNeuron⟩]

/-- Its projections. -/
def subProjs (b : Bodies F) (f : Nat) : List (ProjEntity (JBody F)) :=
  [⟨f + 3, 0, f, 1, (false, resourceSyns b.raster)⟩, ⟨f + 4, 0, f, 0, (true, deltaSyns b.reward)⟩,
   ⟨f + 5, 0, f + 1, 0, (true, deltaSyns b.toOutput)⟩, ⟨f + 6, f + 1, f + 2, 0, (true, deltaSyns b.toGate)⟩,
   ⟨f + 7, 0, f + 2, 0, (true, deltaSyns b.labelToGate)⟩, ⟨f + 8, f + 2, f, 0, (true, deltaSyns b.gateToInput)⟩,
   ⟨f + 9, 0, f, 0, (true, deltaSyns b.reset)⟩]

omit [LinearOrder F] [IsStrictOrderedRing F] in
theorem run_sub (p : Params F) (b : Bodies F) (x : Builder (PBody F) (JBody F)) :
    { x with infos := [] }.run (opsOf p b) =
      { network := ⟨x.network.populations ++ subPops p x.fresh, x.network.projections ++ subProjs b x.fresh⟩
        keepPops := x.keepPops ++ [x.fresh, x.fresh + 1]
        keepProjs := x.keepProjs ++ [x.fresh + 3, x.fresh + 5]
        outputs := x.outputs ++ [x.fresh + 1]
        infos := [⟨true, x.fresh⟩, ⟨true, x.fresh + 1⟩, ⟨false, x.fresh + 2⟩, ⟨true, 0⟩, ⟨false, 0⟩]
        fresh := x.fresh + 10 } := by
  simp [Builder.run, opsOf, Builder.step, subPops, subProjs]

omit [LinearOrder F] [IsStrictOrderedRing F] in
theorem add_sub (p : Params F) (b : Bodies F) (a : Annotated F) :
    addSubnetwork (opsOf p b) a =
      { a with
        builder :=
          { network := ⟨a.builder.network.populations ++ subPops p a.builder.fresh, a.builder.network.projections ++ subProjs b a.builder.fresh⟩
            keepPops := a.builder.keepPops ++ [a.builder.fresh, a.builder.fresh + 1]
            keepProjs := a.builder.keepProjs ++ [a.builder.fresh + 3, a.builder.fresh + 5]
            outputs := a.builder.outputs ++ [a.builder.fresh + 1]
            infos := [⟨true, a.builder.fresh⟩, ⟨true, a.builder.fresh + 1⟩, ⟨false, a.builder.fresh + 2⟩, ⟨true, 0⟩, ⟨false, 0⟩]
            fresh := a.builder.fresh + 10 }
        fromRaster := a.fromRaster ++ [a.builder.fresh + 3]
        fromClasses := a.fromClasses ++ [a.builder.fresh + 4, a.builder.fresh + 7, a.builder.fresh + 9]
        wtaData := a.wtaData ++ [([a.builder.fresh], [a.builder.fresh + 5])] } := by
  unfold addSubnetwork
  rw [run_sub]

omit [LinearOrder F] [IsStrictOrderedRing F] in
/-- What the construction gives after `n` subnetworks. -/
theorem fold_sub (p : Params F) (b : Bodies F) (fresh : Nat) (borders : List Nat) : ∀ n : Nat, ∃ infos,
    (List.range n).foldl (fun a _ => addSubnetwork (opsOf p b) a) ⟨Builder.new fresh, [], [], [], borders⟩ =
      { builder :=
          { network := ⟨(List.range n).flatMap (fun s => subPops p (fresh + 10 * s)), (List.range n).flatMap (fun s => subProjs b (fresh + 10 * s))⟩
            keepPops := (List.range n).flatMap (fun s => [fresh + 10 * s, fresh + 10 * s + 1])
            keepProjs := (List.range n).flatMap (fun s => [fresh + 10 * s + 3, fresh + 10 * s + 5])
            outputs := (List.range n).map (fun s => fresh + 10 * s + 1)
            infos := infos
            fresh := fresh + 10 * n }
        fromRaster := (List.range n).map (fun s => fresh + 10 * s + 3)
        fromClasses := (List.range n).flatMap (fun s => [fresh + 10 * s + 4, fresh + 10 * s + 7, fresh + 10 * s + 9])
        wtaData := (List.range n).map (fun s => ([fresh + 10 * s], [fresh + 10 * s + 5]))
        wtaBorders := borders }
  | 0 => ⟨[], rfl⟩
  | n + 1 => by
    obtain ⟨infos, ih⟩ := fold_sub p b fresh borders n
    refine ⟨[⟨true, fresh + 10 * n⟩, ⟨true, fresh + 10 * n + 1⟩, ⟨false, fresh + 10 * n + 2⟩, ⟨true, 0⟩, ⟨false, 0⟩], ?_⟩
    rw [List.range_succ, List.foldl_append, ih]
    rw [List.foldl_cons, List.foldl_nil, add_sub]
    simp [List.flatMap_append, Nat.mul_add, Nat.add_assoc]

/-! ## What the synapses connect -/

omit [LinearOrder F] [IsStrictOrderedRing F] [Field F] in
theorem down_connects {P : Type} (p : Params F) (par : P) : ConnectsExactly (down p par) (InColumn p) := by
  apply connects_map
  · intro a b _ _ _ h; exact h
  · intro a ha; exact ⟨ha, rfl⟩
  · rintro i j ⟨h, rfl⟩; exact ⟨j, h, rfl, rfl⟩

omit [LinearOrder F] [IsStrictOrderedRing F] [Field F] in
theorem up_connects {P : Type} (p : Params F) (par : P) : ConnectsExactly (up p par) (fun i c => InColumn p c i) := by
  apply connects_map
  · intro a b _ _ h _; exact h
  · intro a ha; exact ⟨ha, rfl⟩
  · rintro i j ⟨h, rfl⟩; exact ⟨i, h, rfl, rfl⟩

omit [LinearOrder F] [IsStrictOrderedRing F] [Field F] in
theorem same_connects {P : Type} (p : Params F) (par : P) : ConnectsExactly (same p par) (fun a b => a = b ∧ a < p.classes) := by
  apply connects_map
  · intro a b _ _ h _; exact h
  · intro a ha; exact ⟨rfl, ha⟩
  · rintro i j ⟨rfl, h⟩; exact ⟨i, h, rfl, rfl⟩

omit [LinearOrder F] [IsStrictOrderedRing F] [Field F] in
theorem every_connects {P : Type} (p : Params F) (par : P) :
    ConnectsExactly (every p par) (fun a i => a < p.inputSize ∧ i < p.inputs) := by
  have hall : ∀ l : List (Synapse P), l = every p par → ConnectsExactly l (fun a i => a < p.inputSize ∧ i < p.inputs) := by
    rintro l rfl
    apply connects_map
    · intro a b _ _ h1 h2
      exact eq_of_mod_div h1 h2
    · intro a ha
      have hn : 0 < p.inputSize := by
        rcases Nat.eq_zero_or_pos p.inputSize with h | h
        · rw [h, Nat.zero_mul] at ha; omega
        · exact h
      refine ⟨Nat.mod_lt _ hn, ?_⟩
      exact (Nat.div_lt_iff_lt_mul hn).2 (by rw [Nat.mul_comm]; exact ha)
    · rintro i j ⟨hi, hj⟩
      have hn : 0 < p.inputSize := by omega
      refine ⟨p.inputSize * j + i, ?_, ?_, ?_⟩
      · have : p.inputSize * (j + 1) ≤ p.inputSize * p.inputs := Nat.mul_le_mul_left _ hj
        rw [Nat.mul_add, Nat.mul_one] at this
        omega
      · simp [Nat.mod_eq_of_lt hi]
      · simp [Nat.mul_add_div hn, Nat.div_eq_of_lt hi]
  exact hall _ rfl

omit [Field F] [LinearOrder F] [IsStrictOrderedRing F] in
theorem draws_delta (u pre post : UID) (l : List (Synapse (DeltaParams F))) (par : DeltaParams F) (hpar : ∀ s ∈ l, s.params = par)
    (S : Nat → Nat → Prop) (hS : ConnectsExactly l S) :
    Draws ⟨⟨u, pre, post, true⟩, true, deltaSyns l, []⟩ (⟨u, pre, post, false, par.weight, par.delay, par.outType, S⟩ : Arrow F) := by
  have e : (wired (deltaSyns l)).synapses.map (fun y => (y.source, y.target)) = ends l := by
    simp [wired, deltaSyns, ends]
  refine ⟨rfl, rfl, rfl, rfl, rfl, fun _ => ⟨_, rfl⟩, (fun h => by cases h), rfl, ?_, ?_, ?_⟩
  · intro y hy
    obtain ⟨s, hs, rfl⟩ := List.mem_map.1 hy
    have := hpar s hs
    subst this
    exact ⟨rfl, rfl, rfl⟩
  · intro m n h
    rw [e]
    exact (hS m n).1 h
  · intro m n h
    rw [e]
    exact List.count_eq_zero.1 ((hS m n).2 h)

omit [LinearOrder F] [IsStrictOrderedRing F] in
theorem draws_resource (u pre post : UID) (l : List (Synapse (SynRule F))) (S : Nat → Nat → Prop) (hS : ConnectsExactly l S) :
    Draws ⟨⟨u, pre, post, false⟩, false, resourceSyns l, []⟩ (⟨u, pre, post, true, 0, 1, .excitatory, S⟩ : Arrow F) := by
  have e : (wired (resourceSyns l)).synapses.map (fun y => (y.source, y.target)) = ends l := by
    simp [wired, resourceSyns, ends]
  refine ⟨rfl, rfl, rfl, rfl, rfl, (fun h => by cases h), fun _ => ⟨_, _, _, rfl⟩, rfl, ?_, ?_, ?_⟩
  · intro y hy
    simp only [wired, resourceSyns, List.map_map] at hy
    obtain ⟨s, hs, rfl⟩ := List.mem_map.1 hy
    exact ⟨rfl, rfl, rfl⟩
  · intro m n h
    rw [e]
    exact (hS m n).1 h
  · intro m n h
    rw [e]
    exact List.count_eq_zero.1 ((hS m n).2 h)

omit [LinearOrder F] [IsStrictOrderedRing F] in
theorem params_map {P : Type} {par : P} {n : Nat} {f g : Nat → Nat} :
    ∀ s ∈ (List.range n).map (fun i => (⟨par, f i, g i⟩ : Synapse P)), s.params = par := by
  intro s hs
  obtain ⟨i, _, rfl⟩ := List.mem_map.1 hs
  rfl

omit [LinearOrder F] [IsStrictOrderedRing F] in
/-- The projections of one subnetwork are the arrows of the picture. -/
theorem sub_draws (p : Params F) (f : Nat) :
    List.Forall₂ Draws ((subProjs (bodies p) f).map (fun e => (⟨⟨e.uid, e.pre, e.post, e.kind == 0⟩, e.body.1, e.body.2, []⟩ : Learn.Proj F)))
      (arrows p f) := by
  unfold subProjs arrows
  simp only [List.map_cons, List.map_nil]
  refine .cons ?_ (.cons ?_ (.cons ?_ (.cons ?_ (.cons ?_ (.cons ?_ (.cons ?_ .nil))))))
  · exact draws_resource _ _ _ _ _ (every_connects p _)
  · exact draws_delta _ _ _ _ _ params_map _ (down_connects p _)
  · exact draws_delta _ _ _ _ _ params_map _ (up_connects p _)
  · exact draws_delta _ _ _ _ _ params_map _ (same_connects p _)
  · exact draws_delta _ _ _ _ _ params_map _ (same_connects p _)
  · exact draws_delta _ _ _ _ _ params_map _ (down_connects p _)
  · exact draws_delta _ _ _ _ _ params_map _ (down_connects p _)

/-! ## Lookup -/

omit [Field F] [LinearOrder F] [IsStrictOrderedRing F] in
theorem places_spec (l : List Nat) (n : Nat) : (places l n).Nodup ∧ ∀ k, k ∈ places l n ↔ l[k]? = some n := by
  refine ⟨List.Nodup.filter _ List.nodup_range, fun k => ?_⟩
  unfold places
  rw [List.mem_filter, List.mem_range]
  constructor
  · rintro ⟨_, h⟩
    exact eq_of_beq h
  · intro h
    refine ⟨(List.getElem?_eq_some_iff.1 h).1, ?_⟩
    rw [h]; exact beq_self_eq_true _

omit [Field F] [LinearOrder F] [IsStrictOrderedRing F] in
theorem delta_find (l : List (Synapse (DeltaParams F))) : Props.ExactFind (wired (deltaSyns l)) := by
  intro n
  obtain ⟨h1, h2⟩ := places_spec (l.map (fun s => s.src)) n
  refine ⟨h1, fun k => (h2 k).trans ?_⟩
  simp only [wired, deltaSyns, List.getElem?_map]
  cases l[k]? with
  | none => simp
  | some s => simp

omit [LinearOrder F] [IsStrictOrderedRing F] in
theorem resource_find (l : List (Synapse (SynRule F))) : Props.ExactFind (wired (resourceSyns l)) := by
  intro n
  obtain ⟨h1, h2⟩ := places_spec (l.map (fun s => s.src)) n
  refine ⟨h1, fun k => (h2 k).trans ?_⟩
  simp only [wired, resourceSyns, List.getElem?_map]
  cases l[k]? with
  | none => simp
  | some s => simp

/-! ## The whole network -/

/-- What `construct` gives. -/
theorem construct_eq (p : Params F) (h : Fit p) (fresh : Nat) : ∃ infos, construct p fresh = .ok
      { builder :=
          { network := ⟨(List.range p.subnetworks).flatMap (fun s => subPops p (fresh + 10 * s)),
              (List.range p.subnetworks).flatMap (fun s => subProjs (bodies p) (fresh + 10 * s))⟩
            keepPops := (List.range p.subnetworks).flatMap (fun s => [fresh + 10 * s, fresh + 10 * s + 1])
            keepProjs := (List.range p.subnetworks).flatMap (fun s => [fresh + 10 * s + 3, fresh + 10 * s + 5])
            outputs := (List.range p.subnetworks).map (fun s => fresh + 10 * s + 1)
            infos := infos
            fresh := fresh + 10 * p.subnetworks }
        fromRaster := (List.range p.subnetworks).map (fun s => fresh + 10 * s + 3)
        fromClasses := (List.range p.subnetworks).flatMap (fun s => [fresh + 10 * s + 4, fresh + 10 * s + 7, fresh + 10 * s + 9])
        wtaData := (List.range p.subnetworks).map (fun s => ([fresh + 10 * s], [fresh + 10 * s + 5]))
        wtaBorders := (List.range p.classes).map (fun i => p.perColumn * (i + 1)) } := by
  obtain ⟨infos, hf⟩ := fold_sub p (bodies p) fresh ((List.range p.classes).map (fun i => p.perColumn * (i + 1))) p.subnetworks
  refine ⟨infos, ?_⟩
  unfold construct
  rw [subnetwork_eq p h, Outcome.bind, hf]

omit [Field F] [LinearOrder F] [IsStrictOrderedRing F] in
theorem nodup_block (fresh n : Nat) (l : List Nat) (hl : l.Nodup) (h10 : ∀ k ∈ l, k < 10) :
    ((List.range n).flatMap (fun s => l.map (fun k => fresh + 10 * s + k))).Nodup := by
  rw [List.nodup_flatMap]
  refine ⟨fun s _ => List.Nodup.map_on (fun a _ b _ h => by omega) hl, ?_⟩
  refine List.Pairwise.imp ?_ (List.nodup_range (n := n))
  intro a b hab
  simp only [Function.onFun, List.disjoint_left, List.mem_map]
  rintro x ⟨k, hk, rfl⟩ ⟨k', hk', he⟩
  have := h10 k hk
  have := h10 k' hk'
  omega

omit [Field F] [LinearOrder F] [IsStrictOrderedRing F] in
/-- The borders divide the input neurons into the columns. -/
theorem border_group (p : Params F) (i : Nat) (hi : i < p.inputs) :
    groupOf ((List.range p.classes).map (fun i => p.perColumn * (i + 1))) i = i / p.perColumn := by
  have hc : 0 < p.perColumn := by
    rcases Nat.eq_zero_or_pos p.perColumn with h | h
    · unfold Params.inputs at hi; rw [h, Nat.zero_mul] at hi; omega
    · exact h
  have hlt : i / p.perColumn < p.classes := (Nat.div_lt_iff_lt_mul hc).2 (by rw [Nat.mul_comm]; exact hi)
  have key : ∀ n m : Nat, (List.range n).countP (fun k => decide (k < m)) = min n m := by
    intro n m
    induction n with
    | zero => simp
    | succ n ih =>
      rw [List.range_succ, List.countP_append, ih]
      by_cases h : n < m
      · simp [h]; omega
      · simp [h]; omega
  unfold groupOf
  rw [List.countP_map]
  have he : ((fun b => decide (b ≤ i)) ∘ fun k => p.perColumn * (k + 1)) = fun k => decide (k < i / p.perColumn) := by
    funext k
    simp only [Function.comp]
    have : p.perColumn * (k + 1) ≤ i ↔ k < i / p.perColumn := by
      rw [Nat.lt_iff_add_one_le, Nat.le_div_iff_mul_le hc, Nat.mul_comm]
    simp only [this]
  rw [he, key]
  omega

end Knp.Mnist
