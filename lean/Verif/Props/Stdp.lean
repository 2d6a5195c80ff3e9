import Verif.Lemmas.Stdp
import Mathlib.Algebra.Order.Field.Rat
import Mathlib.Tactic.FieldSimp
import Mathlib.Tactic.Positivity
import Mathlib.Tactic.NormNum

/-!
# C56-C59, C84-C89: training
-/

namespace Knp.Props
open Knp Knp.Neurons Knp.Stdp Knp.Spec Knp.Lemmas.Stdp

namespace StdpEx

/-- Concrete operations for examples. -/
def o : Ops ℚ := ⟨fun _ => 1, fun _ => 1, fun _ => 7⟩
/-- A base neuron that is only its dopamine value and additional threshold. -/
def bo : BaseOps (ℚ × ℚ) ℚ := ⟨fun b => b.1, fun b => b.2, fun b x => (b.1, x)⟩
/-- A synapse from neuron 0. -/
def syn (t : Nat) (res : ℚ) : RSyn ℚ := ⟨0, t, 0, 1, .excitatory, ⟨res, 0, 1, 1/4, 3, 5, false, false⟩⟩
/-- A projection into population 1 with two synapses. -/
def proj (locked : Bool) : RProj ℚ :=
  ⟨9, 1, locked, [syn 0 2, syn 0 3], fun n => if n = 0 then [0, 1] else []⟩
/-- A neuron with 4 units of free resource. -/
def rule (d : Nat) : Rule ℚ := ⟨0, 3, 4, 1, d, 0, 1, 0, 2, 1/2, .notInPeriod, 0, 0, 0, false⟩
/-- The training state. -/
def st (locked : Bool) (d : Nat) : Stdp.State (ℚ × ℚ) ℚ := ⟨[⟨(1, 0), rule d⟩], [proj locked]⟩

theorem findOk (b : Bool) : ∀ p ∈ (st b 0).projs, FindOk p := by
  intro p hp n
  simp only [st, List.mem_singleton] at hp
  subst hp
  by_cases hn : n = 0
  · subst hn
    refine ⟨by simp [proj], fun k => ?_⟩
    rcases k with _ | _ | k <;> simp [proj, syn]
  · refine ⟨by simp [proj, hn], fun k => ?_⟩
    rcases k with _ | _ | k <;> simp [proj, syn, hn, Ne.symm hn]

/-- The state after a successful step. -/
def get (x : Outcome (Stdp.State (ℚ × ℚ) ℚ)) : Stdp.State (ℚ × ℚ) ℚ :=
  match x with
  | .ok s => s
  | _ => ⟨[], []⟩
/-- After a training step with a spike. -/
def a := get (train o bo 1 [0] 6 (st false 0))
/-- The dopamine disappears. -/
def b : Stdp.State (ℚ × ℚ) ℚ := ⟨a.neurons.map (fun n => { n with base := (0, 0) }), a.projs⟩
/-- A later training step renormalises. -/
def c := get (train o bo 1 [] 20 b)

end StdpEx

section
variable {B F : Type} [Field F] [LinearOrder F] [IsStrictOrderedRing F]

/-! ## C56: conservation of resource -/

omit [IsStrictOrderedRing F] in
private theorem total_set {uid : UID} {i : Nat} {s : Stdp.State B F} {n n' : Res B F} {ps' : List (RProj F)}
    (hn : s.neurons[i]? = some n)
    (h1 : n'.rule.free + held uid ps' i = n.rule.free + held uid s.projs i)
    (h2 : ∀ j, j ≠ i → held uid ps' j = held uid s.projs j) (j : Nat) :
    Spec.total uid ⟨s.neurons.set i n', ps'⟩ j = Spec.total uid s j := by
  obtain ⟨hi, _⟩ := List.getElem?_eq_some_iff.1 hn
  unfold Spec.total freeOf
  by_cases hj : j = i
  · subst hj
    simp only [List.getElem?_set_self hi, hn]
    exact h1
  · simp only [List.getElem?_set_ne (Ne.symm hj)]
    rw [h2 j hj]

/-- C56. A training step moves resource between a neuron and its trainable synapses: for every neuron the sum is
unchanged, whatever the spikes, dopamine values and learning states, provided no neuron drains (coefficient 0) and
every neuron has a trainable synapse to give its resource to. -/
theorem C56_conserved_partial {o : Ops F} {bo : BaseOps B F} {uid : UID} {spikes : List Nat} {step : Nat}
    {st st' : Stdp.State B F} (hf : ∀ p ∈ st.projs, FindOk p)
    (hd : ∀ i n, st.neurons[i]? = some n → n.rule.drain = 0 ∧ 0 < fanIn uid st.projs i)
    (h : train o bo uid spikes step st = .ok st') (i : Nat) :
    Spec.total uid st' i = Spec.total uid st i := by
  have inv := train_ind (P := fun s => (∀ j, Spec.total uid s j = Spec.total uid st j) ∧
      (∀ j n, s.neurons[j]? = some n → n.rule.drain = 0 ∧ 0 < fanIn uid st.projs j) ∧
      ∀ j, ∀ r ∈ connected uid st.projs j, Hits uid j s.projs r) ?_
    ⟨fun _ => rfl, hd, fun j r hr => hits_connected hf hr⟩ h
  · exact inv.1 i
  · rintro s k n g v hn ⟨p1, p2, p3⟩
    have hk := p2 k n hn
    obtain ⟨t1, t2⟩ := v.total (uid := uid) (n, s.projs) (p3 k) hk.1 (by rw [fanIn_eq hf]; exact hk.2)
    refine ⟨fun j => (total_set hn t1 t2 j).trans (p1 j), ?_, ?_⟩
    · intro j m hm
      by_cases hj : k = j
      · subst hj
        obtain ⟨hlt, _⟩ := List.getElem?_eq_some_iff.1 hn
        rw [List.getElem?_set_self hlt] at hm
        cases hm
        exact ⟨(v.drain _).trans hk.1, hk.2⟩
      · rw [List.getElem?_set_ne hj] at hm
        exact p2 j m hm
    · intro j r hr
      exact (v.frame (n, s.projs)).hits (p3 j r hr)

/-- Non-vacuity: the example state satisfies the hypotheses, training succeeds and moves resource. -/
example : (∀ p ∈ (StdpEx.st false 0).projs, FindOk p) ∧
    (∀ i n, (StdpEx.st false 0).neurons[i]? = some n → n.rule.drain = 0 ∧ 0 < fanIn 1 (StdpEx.st false 0).projs i) ∧
    ∃ st', train StdpEx.o StdpEx.bo 1 [0] 6 (StdpEx.st false 0) = .ok st' ∧
      freeOf st'.neurons 0 = 3/2 ∧ held 1 st'.projs 0 = 15/2 ∧ Spec.total 1 (StdpEx.st false 0) 0 = 9 := by
  refine ⟨StdpEx.findOk false, ?_, ?_⟩
  · intro i n hn
    rcases i with _ | i
    · cases hn; exact ⟨rfl, by decide⟩
    · simp [StdpEx.st] at hn
  · refine ⟨_, rfl, ?_, ?_, ?_⟩ <;> decide +kernel

/-- C56, the drain: renormalising a neuron with drain coefficient `d` and `k` synapses leaves it
`free * k / (k + d)` of its free resource, all of it in the synapses. -/
theorem C56_drain {o : Ops F} {step : Nat} {uid : UID} {ps : List (RProj F)} (hf : ∀ p ∈ ps, FindOk p) {i : Nat}
    {n : Res B F} (hrun : ¬ renormSkips step n.rule) (hk : 0 < fanIn uid ps i) :
    (renormNeuron o step (connected uid ps i) (n, ps)).1.rule.free = 0 ∧
    held uid (renormNeuron o step (connected uid ps i) (n, ps)).2 i =
      held uid ps i + n.rule.free * (fanIn uid ps i : F) / ((fanIn uid ps i : F) + (n.rule.drain : F)) := by
  obtain ⟨h1, _⟩ := renormNeuron_total (B := B) o step (uid := uid) (i := i) (refs := connected uid ps i) (n, ps)
    (fun r hr => hits_connected hf hr)
  have hfree : (renormNeuron o step (connected uid ps i) (n, ps)).1.rule.free = 0 := by
    unfold renormNeuron
    dsimp only
    rw [if_neg hrun]
    exact each_fst (R := fun m : Res B F => m.rule.free = 0) (fun m s h => h) _ (_, _) rfl
  refine ⟨hfree, ?_⟩
  dsimp only at h1
  rw [hfree, zero_add, if_neg hrun, fanIn_eq hf] at h1
  rw [h1]
  have hne : ((fanIn uid ps i + n.rule.drain : Nat) : F) ≠ 0 := by
    have : fanIn uid ps i + n.rule.drain ≠ 0 := by omega
    exact_mod_cast this
  unfold divF
  rw [if_neg hne]
  push_cast
  ring

example : ¬ renormSkips 6 (StdpEx.rule 2) ∧ 0 < fanIn 1 (StdpEx.st false 2).projs 0 := by
  constructor <;> decide +kernel

/-- C56 is false in general: a neuron without trainable synapses loses its free resource, even with drain 0. -/
theorem C56_refuted : ∃ (o : Ops ℚ) (bo : BaseOps (ℚ × ℚ) ℚ) (st st' : Stdp.State (ℚ × ℚ) ℚ),
    (∀ p ∈ st.projs, FindOk p) ∧ (∀ (i : Nat) n, st.neurons[i]? = some n → n.rule.drain = 0) ∧
    train o bo 1 [] 6 st = .ok st' ∧ Spec.total 1 st' 0 ≠ Spec.total 1 st 0 := by
  refine ⟨StdpEx.o, StdpEx.bo, ⟨[⟨(0, 0), StdpEx.rule 0⟩], []⟩, _, by simp, ?_, rfl, ?_⟩
  · intro i n hn
    rcases i with _ | i
    · cases hn; rfl
    · simp at hn
  · decide +kernel

/-- What may happen between two training steps of population `uid`: the neurons and synapses change, but neither the free
resource, the drain and the number of neurons, nor the resource and end points of the synapses that are trained with this
population, and lookups stay exact.  Input processing and spikes only write potentials, dopamine values, spike times and the
like; the training of other populations writes projections that do not end here. -/
structure Between (uid : UID) (st st' : Stdp.State B F) : Prop where
  free : ∀ i : Nat, freeOf st'.neurons i = freeOf st.neurons i
  drain : ∀ i : Nat, (st'.neurons[i]?).map (fun n : Res B F => n.rule.drain) = (st.neurons[i]?).map (fun n : Res B F => n.rule.drain)
  projs : (st'.projs.filter (fun p => decide (Trains uid p))).map (fun p => p.syns.map (fun s => (s.target, s.rule.resource))) =
    (st.projs.filter (fun p => decide (Trains uid p))).map (fun p => p.syns.map (fun s => (s.target, s.rule.resource)))
  lookup : (∀ p ∈ st.projs, FindOk p) → ∀ p ∈ st'.projs, FindOk p

/-- A history: training steps and changes in between, in any order. -/
inductive History (o : Ops F) (bo : BaseOps B F) (uid : UID) : Stdp.State B F → Stdp.State B F → Prop
  | start (st : Stdp.State B F) : History o bo uid st st
  | train {a b c : Stdp.State B F} {spikes : List Nat} {step : Nat} : History o bo uid a b → Stdp.train o bo uid spikes step b = .ok c → History o bo uid a c
  | between {a b c : Stdp.State B F} : History o bo uid a b → Between uid b c → History o bo uid a c

omit [LinearOrder F] [IsStrictOrderedRing F] in
private theorem sum_filter {α M : Type} [AddMonoid M] (P : α → Prop) [DecidablePred P] (f : α → M) : ∀ l : List α,
    (l.map (fun p => if P p then f p else 0)).sum = ((l.filter (fun p => decide (P p))).map f).sum := by
  intro l
  induction l with
  | nil => rfl
  | cons a l ih =>
    by_cases h : P a
    · simp [h, ih]
    · simp [h, ih]

omit [LinearOrder F] [IsStrictOrderedRing F] in
private theorem between_held {uid : UID} {st st' : Stdp.State B F} (h : Between uid st st') (i : Nat) :
    held uid st'.projs i = held uid st.projs i ∧ fanIn uid st'.projs i = fanIn uid st.projs i := by
  have e : ∀ ps : List (RProj F), held uid ps i = (((ps.filter (fun p => decide (Trains uid p))).map
      (fun p => p.syns.map (fun s => (s.target, s.rule.resource)))).map
        (fun q => (q.map (fun t => if t.1 = i then t.2 else 0)).sum)).sum := by
    intro ps
    rw [held, sum_filter, List.map_map]
    congr 1
    apply List.map_congr_left
    intro p _
    simp only [Function.comp, heldBy]
    rw [List.map_map]
    rfl
  have e2 : ∀ ps : List (RProj F), fanIn uid ps i = (((ps.filter (fun p => decide (Trains uid p))).map
      (fun p => p.syns.map (fun s => (s.target, s.rule.resource)))).map
        (fun q => (q.filter (fun t => t.1 == i)).length)).sum := by
    intro ps
    rw [fanIn, sum_filter, List.map_map]
    congr 1
    apply List.map_congr_left
    intro p _
    simp only [Function.comp]
    rw [List.filter_map, List.length_map]
    rfl
  rw [e, e, e2, e2, h.projs]
  exact ⟨rfl, rfl⟩

/-- C56 over whole histories of any length. -/
theorem C56_history_partial {o : Ops F} {bo : BaseOps B F} {uid : UID} {st st' : Stdp.State B F}
    (hf : ∀ p ∈ st.projs, FindOk p)
    (hd : ∀ i n, st.neurons[i]? = some n → n.rule.drain = 0 ∧ 0 < fanIn uid st.projs i)
    (h : History o bo uid st st') (i : Nat) : Spec.total uid st' i = Spec.total uid st i := by
  have inv : (∀ p ∈ st'.projs, FindOk p) ∧
      (∀ i n, st'.neurons[i]? = some n → n.rule.drain = 0 ∧ 0 < fanIn uid st'.projs i) ∧
      Spec.total uid st' i = Spec.total uid st i := by
    induction h with
    | start => exact ⟨hf, hd, rfl⟩
    | @train b c spikes step _ ht ih =>
      obtain ⟨h1, h2, h3⟩ := ih
      have fr := train_frame ht
      have ffr : Frame ((List.range b.projs.length).flatMap (fun i => (List.range ((b.projs[i]?).elim 0 (fun p => p.syns.length))).map
          (fun k => (i, k)))) b.projs c.projs := by
        refine ⟨fr.1, ?_, fr.2.2.1⟩
        intro r hr
        rcases hx : getAt b.projs r with _ | x
        · rcases hp : b.projs[r.1]? with _ | p
          · exact (fr.2.1 r (by rintro ⟨p, hp', _⟩; rw [hp] at hp'; cases hp')).trans hx
          · obtain ⟨p', hp', _, _, _, _, hl⟩ := shape_get fr.1 hp
            simp only [getAt, hp, hp', Option.bind_some] at hx ⊢
            rw [List.getElem?_eq_none_iff] at hx ⊢
            omega
        · exfalso
          apply hr
          simp only [getAt] at hx
          rcases hp : b.projs[r.1]? with _ | p
          · rw [hp] at hx; cases hx
          · rw [hp, Option.bind_some] at hx
            obtain ⟨hk, _⟩ := List.getElem?_eq_some_iff.1 hx
            obtain ⟨hi, _⟩ := List.getElem?_eq_some_iff.1 hp
            refine List.mem_flatMap.2 ⟨r.1, List.mem_range.2 hi, List.mem_map.2 ⟨r.2, ?_, rfl⟩⟩
            rw [hp]
            exact List.mem_range.2 hk
      have hf' := frame_findOk ffr h1
      refine ⟨hf', ?_, (C56_conserved_partial h1 h2 ht i).trans h3⟩
      have hfan : ∀ j, fanIn uid c.projs j = fanIn uid b.projs j := by
        intro j
        rw [← fanIn_eq hf', ← fanIn_eq h1, connected_shape fr.1]
      have dinv := train_ind (P := fun s => ∀ j n, s.neurons[j]? = some n → n.rule.drain = 0 ∧ 0 < fanIn uid b.projs j)
        ?_ h2 ht
      · intro j n hn
        rw [hfan]
        exact dinv j n hn
      · intro s k n g v hn hp j m hm
        by_cases hj : k = j
        · subst hj
          obtain ⟨hlt, _⟩ := List.getElem?_eq_some_iff.1 hn
          rw [List.getElem?_set_self hlt] at hm
          cases hm
          exact ⟨(v.drain _).trans (hp k n hn).1, (hp k n hn).2⟩
        · rw [List.getElem?_set_ne hj] at hm
          exact hp j m hm
    | @between b c _ hb ih =>
      obtain ⟨h1, h2, h3⟩ := ih
      refine ⟨hb.lookup h1, ?_, ?_⟩
      · intro j n hn
        rw [(between_held hb j).2]
        have := hb.drain j
        rw [hn] at this
        rcases hm : b.neurons[j]? with _ | m
        · rw [hm] at this; cases this
        · rw [hm] at this
          simp only [Option.map_some, Option.some.injEq] at this
          rw [this]
          exact h2 j m hm
      · rw [← h3]
        unfold Spec.total
        rw [hb.free i, (between_held hb i).1]
  exact inv.2.2

/-- Non-vacuity: two training steps with a dopamine change in between form a history. -/
example : Between 1 StdpEx.a StdpEx.b ∧ History StdpEx.o StdpEx.bo 1 (StdpEx.st false 0) StdpEx.c ∧
    freeOf StdpEx.b.neurons 0 = 3/2 ∧ freeOf StdpEx.c.neurons 0 = 0 ∧ held 1 StdpEx.c.projs 0 = 9 := by
  have hb : Between 1 StdpEx.a StdpEx.b := by
    refine ⟨fun i => ?_, fun i => ?_, rfl, fun h => h⟩
    · simp only [StdpEx.b, freeOf, List.getElem?_map]
      rcases StdpEx.a.neurons[i]? with _ | n <;> rfl
    · simp only [StdpEx.b, List.getElem?_map]
      rcases StdpEx.a.neurons[i]? with _ | n <;> rfl
  exact ⟨hb, .train (spikes := []) (step := 20) (.between (.train (spikes := [0]) (step := 6) (.start _) rfl) hb) rfl,
    by decide +kernel, by decide +kernel, by decide +kernel⟩

/-! ## C57: weights -/

/-- C57. The recalculated weight lies in `[w_min, w_max)` whatever the resource, and the division is by a positive
number. -/
theorem C57_bounds (o : Ops F) (r : SynRule F) (h : r.wMin < r.wMax) :
    r.wMin ≤ weightOf o r ∧ weightOf o r < r.wMax ∧ 0 < (r.wMax - r.wMin) + max r.resource 0 := by
  have hd : 0 < r.wMax - r.wMin := sub_pos.2 h
  have hs : (0 : F) ≤ max r.resource 0 := le_max_right _ _
  have hden : 0 < (r.wMax - r.wMin) + max r.resource 0 := by linarith
  unfold weightOf divF
  rw [if_neg (ne_of_gt hden)]
  refine ⟨?_, ?_, hden⟩
  · have : 0 ≤ (r.wMax - r.wMin) * max r.resource 0 / ((r.wMax - r.wMin) + max r.resource 0) :=
      div_nonneg (mul_nonneg hd.le hs) hden.le
    linarith
  · have : (r.wMax - r.wMin) * max r.resource 0 / ((r.wMax - r.wMin) + max r.resource 0) < r.wMax - r.wMin := by
      rw [div_lt_iff₀ hden]
      nlinarith
    linarith

example : (StdpEx.syn 0 2).rule.wMin < (StdpEx.syn 0 2).rule.wMax := by decide +kernel

/-- C57. More resource never means less weight, and strictly more above zero. -/
theorem C57_monotone (o : Ops F) (r r' : SynRule F) (h : r.wMin < r.wMax) (h1 : r'.wMin = r.wMin)
    (h2 : r'.wMax = r.wMax) (hr : r.resource ≤ r'.resource) :
    weightOf o r ≤ weightOf o r' ∧ (r.resource < r'.resource → 0 < r'.resource → weightOf o r < weightOf o r') := by
  have hd : 0 < r.wMax - r.wMin := sub_pos.2 h
  have hs : (0 : F) ≤ max r.resource 0 := le_max_right _ _
  have hs' : (0 : F) ≤ max r'.resource 0 := le_max_right _ _
  have hden : 0 < (r.wMax - r.wMin) + max r.resource 0 := by linarith
  have hden' : 0 < (r.wMax - r.wMin) + max r'.resource 0 := by linarith
  have hm : max r.resource 0 ≤ max r'.resource 0 := max_le_max hr le_rfl
  unfold weightOf divF
  rw [h1, h2, if_neg (ne_of_gt hden), if_neg (ne_of_gt hden')]
  constructor
  · have : (r.wMax - r.wMin) * max r.resource 0 / ((r.wMax - r.wMin) + max r.resource 0) ≤
        (r.wMax - r.wMin) * max r'.resource 0 / ((r.wMax - r.wMin) + max r'.resource 0) := by
      rw [div_le_div_iff₀ hden hden']
      nlinarith [mul_le_mul_of_nonneg_left hm (mul_nonneg hd.le hd.le)]
    linarith
  · intro hlt hpos
    have hm' : max r.resource 0 < max r'.resource 0 := by
      rw [max_eq_left hpos.le]
      exact max_lt hlt hpos
    have : (r.wMax - r.wMin) * max r.resource 0 / ((r.wMax - r.wMin) + max r.resource 0) <
        (r.wMax - r.wMin) * max r'.resource 0 / ((r.wMax - r.wMin) + max r'.resource 0) := by
      rw [div_lt_div_iff₀ hden hden']
      nlinarith [mul_lt_mul_of_pos_left hm' (mul_pos hd hd)]
    linarith

example : weightOf StdpEx.o (StdpEx.syn 0 2).rule = 2/3 ∧ weightOf StdpEx.o (StdpEx.syn 0 3).rule = 3/4 := by
  constructor <;> decide +kernel

/-- C57 for whole training steps: every synapse either keeps weight and resource, or its weight is recalculated from
its final resource and lies in `[w_min, w_max)` (if `w_min < w_max`). -/
theorem C57_training {o : Ops F} {bo : BaseOps B F} {uid : UID} {spikes : List Nat} {step : Nat}
    {st st' : Stdp.State B F} (h : train o bo uid spikes step st = .ok st') (i k : Nat) (p p' : RProj F)
    (s s' : RSyn F) (hp : st.projs[i]? = some p) (hs : p.syns[k]? = some s) (hp' : st'.projs[i]? = some p')
    (hs' : p'.syns[k]? = some s') :
    (s'.weight = s.weight ∧ s'.rule.resource = s.rule.resource) ∨
    (s'.weight = weightOf o s'.rule ∧
      (s.rule.wMin < s.rule.wMax → s.rule.wMin ≤ s'.weight ∧ s'.weight < s.rule.wMax)) := by
  have inv := train_ind (P := fun t => RecalcOn o st.projs t.projs ∧
      ∀ r x, getAt st.projs r = some x → ∃ x', getAt t.projs r = some x' ∧ SameWiring x x') ?_
    ⟨RecalcOn.refl _ _, fun r x hx => ⟨x, hx, SameWiring.refl x⟩⟩ h
  · have g : getAt st.projs (i, k) = some s := by simp [getAt, hp, hs]
    have g' : getAt st'.projs (i, k) = some s' := by simp [getAt, hp', hs']
    rcases inv.1 (i, k) s s' g g' with hsame | hw
    · exact Or.inl hsame
    · right
      refine ⟨hw, fun hlt => ?_⟩
      obtain ⟨s2, hs2, w⟩ := inv.2 (i, k) s g
      obtain rfl : s2 = s' := Option.some.inj (hs2.symm.trans g')
      obtain ⟨_, _, _, _, w5, w6, _, _, _⟩ := w
      have b := C57_bounds o s2.rule (by rw [w5, w6]; exact hlt)
      rw [w5, w6] at b
      rw [hw]
      exact ⟨b.1, b.2.1⟩
  · rintro t j n g v _ ⟨p1, p2⟩
    have f := v.frame (n, t.projs)
    have rc := v.recalc (n, t.projs)
    constructor
    · intro r x x2 hx hx2
      obtain ⟨x1, hx1, _⟩ := p2 r x hx
      obtain ⟨x2', hx2', w⟩ := f.wiring r x1 hx1
      obtain rfl : x2' = x2 := Option.some.inj (hx2'.symm.trans hx2)
      exact (p1 r x x1 hx hx1).trans (rc r x1 x2' hx1 hx2') w
    · intro r x hx
      obtain ⟨x1, hx1, w1⟩ := p2 r x hx
      obtain ⟨x2, hx2, w2⟩ := f.wiring r x1 hx1
      exact ⟨x2, hx2, SameWiring.trans w1 w2⟩

/-- Non-vacuity: in the example both synapses are recalculated. -/
example : ∃ p', StdpEx.a.projs[0]? = some p' ∧ p'.syns.map (fun s => s.weight) = [13/17, 17/21] := by
  refine ⟨_, rfl, ?_⟩; decide +kernel

/-- C57 needs `w_min < w_max`: with equal bounds and no resource the code divides zero by zero, and the weight is
whatever that yields (NaN for floats) instead of the common bound. -/
theorem C57_equal_bounds_refuted : ∃ (o : Ops ℚ) (r : SynRule ℚ), r.wMin = r.wMax ∧ weightOf o r ≠ r.wMin := by
  refine ⟨StdpEx.o, ⟨0, 1, 1, 0, 0, 0, false, false⟩, rfl, ?_⟩
  decide +kernel

/-! ## C86, C58: what training may touch -/

omit [IsStrictOrderedRing F] in
/-- C86. A projection that does not end in the trained population, or is locked, is exactly as before. -/
theorem C86_other_projections {o : Ops F} {bo : BaseOps B F} {uid : UID} {spikes : List Nat} {step : Nat}
    {st st' : Stdp.State B F} (h : train o bo uid spikes step st = .ok st') (i : Nat) (p : RProj F)
    (hp : st.projs[i]? = some p) (hno : ¬ Trains uid p) : st'.projs[i]? = some p := by
  obtain ⟨f1, f2, f3, _⟩ := train_frame h
  have hout : ∀ r : Ref, r.1 = i → getAt st'.projs r = getAt st.projs r := by
    intro r hr
    apply f2
    rintro ⟨q, hq, ht⟩
    rw [hr, hp] at hq
    cases hq
    exact hno ht
  obtain ⟨p', hp', h1, h2, h3, h4, h5⟩ := shape_get f1 hp
  rw [hp']
  have hs : p'.syns = p.syns := by
    apply List.ext_getElem?
    intro k
    have := hout (i, k) rfl
    simpa [getAt, hp, hp'] using this
  cases p; cases p'
  simp_all

example : ¬ Trains 1 (StdpEx.proj true) ∧ ¬ Trains 2 (StdpEx.proj false) ∧
    (∃ st', train StdpEx.o StdpEx.bo 1 [0] 6 (StdpEx.st true 0) = .ok st') := by
  exact ⟨by decide, by decide, ⟨_, rfl⟩⟩

omit [IsStrictOrderedRing F] in
/-- C86. In every projection the number of projections and synapses, end points, delays, output types, weight bounds,
decay constants and spike times stay as they were. -/
theorem C86_wiring {o : Ops F} {bo : BaseOps B F} {uid : UID} {spikes : List Nat} {step : Nat}
    {st st' : Stdp.State B F} (h : train o bo uid spikes step st = .ok st') :
    st'.neurons.length = st.neurons.length ∧ st'.projs.length = st.projs.length ∧
    ∀ (i : Nat) (p : RProj F), st.projs[i]? = some p → ∃ p', st'.projs[i]? = some p' ∧ p'.uid = p.uid ∧
      p'.post = p.post ∧ p'.locked = p.locked ∧ p'.syns.length = p.syns.length ∧
      ∀ (k : Nat) (s : RSyn F), p.syns[k]? = some s → ∃ s', p'.syns[k]? = some s' ∧ SameWiring s s' := by
  obtain ⟨f1, f2, f3, f4⟩ := train_frame h
  refine ⟨f4, ?_, ?_⟩
  · have := congrArg List.length f1
    simpa [shapeOf] using this
  · intro i p hp
    obtain ⟨p', hp', h1, h2, h3, _, h5⟩ := shape_get f1 hp
    refine ⟨p', hp', h1, h2, h3, h5, ?_⟩
    intro k s hs
    obtain ⟨s', hs', w⟩ := f3 (i, k) s (by simp [getAt, hp, hs])
    exact ⟨s', by simpa [getAt, hp'] using hs', w⟩

/-- C86. A synapse that does not end in the population's neurons cannot be reached: only synapses the lookup lists for
some neuron of the population change. -/
theorem C86_unconnected {o : Ops F} {bo : BaseOps B F} {uid : UID} {spikes : List Nat} {step : Nat}
    {st st' : Stdp.State B F} (hf : ∀ p ∈ st.projs, FindOk p) (h : train o bo uid spikes step st = .ok st')
    (i k : Nat) (p : RProj F) (s : RSyn F) (hp : st.projs[i]? = some p) (hs : p.syns[k]? = some s)
    (ht : st.neurons.length ≤ s.target) : ∃ p', st'.projs[i]? = some p' ∧ p'.syns[k]? = some s := by
  have inv := train_ind (P := fun t => t.neurons.length = st.neurons.length ∧
      getAt t.projs (i, k) = some s) ?_ ⟨rfl, by simp [getAt, hp, hs]⟩ h
  · have g := inv.2
    simp only [getAt] at g
    rcases hq : st'.projs[i]? with _ | p'
    · rw [hq] at g; cases g
    · rw [hq] at g
      exact ⟨p', rfl, g⟩
  · rintro t j n g v hn ⟨p1, p2⟩
    refine ⟨by simpa using p1, ?_⟩
    have f := v.frame (n, t.projs)
    refine (f.outside (i, k) ?_).trans p2
    intro hm
    obtain ⟨q, s0, hq, _, hs0, ht0⟩ := hits_connected hf hm
    rw [hp] at hq; cases hq
    dsimp only at hs0
    rw [hs] at hs0; cases hs0
    obtain ⟨hlt, _⟩ := List.getElem?_eq_some_iff.1 hn
    omega

omit [IsStrictOrderedRing F] in
/-- C58 for resource-STDP synapses. Whatever training calls are made for whatever populations, in whatever order, a
locked projection does not change. -/
theorem C58_locked_partial {o : Ops F} {bo : BaseOps B F} {step : Nat} {spikes : Nat → List Nat} {order : List Nat}
    {be be' : Stdp.Backend B F} (h : trainAll o bo step spikes order be = .ok be') (i : Nat) (p : RProj F)
    (hp : be.projs[i]? = some p) (hl : p.locked = true) : be'.projs[i]? = some p := by
  unfold trainAll at h
  induction order generalizing be with
  | nil =>
    simp only [List.foldlM_nil] at h
    cases h; exact hp
  | cons k ks ih =>
    simp only [List.foldlM_cons] at h
    rcases h1 : trainPop o bo step spikes be k with be1 | _ | _
    · rw [h1, Outcome.bind_ok] at h
      refine ih h ?_
      unfold trainPop at h1
      rcases hk : be.pops[k]? with _ | ⟨uid, ns⟩
      · rw [hk] at h1; cases h1; exact hp
      · rw [hk] at h1
        dsimp only at h1
        rcases ht : train o bo uid (spikes k) step ⟨ns, be.projs⟩ with st1 | _ | _
        · rw [ht, Outcome.bind_ok] at h1
          cases h1
          exact C86_other_projections ht i p hp (by rintro ⟨_, hf⟩; rw [hl] at hf; cases hf)
        · rw [ht] at h1; cases h1
        · rw [ht] at h1; cases h1
    · rw [h1] at h; cases h
    · rw [h1] at h; cases h

example : ∃ be', trainAll StdpEx.o StdpEx.bo 6 (fun _ => [0]) [0] ⟨[(1, (StdpEx.st true 0).neurons)],
    [StdpEx.proj true, StdpEx.proj false]⟩ = .ok be' ∧ (StdpEx.proj true).locked = true := ⟨_, rfl, rfl⟩

/-! ## C87: independence of the order of the populations -/

omit [IsStrictOrderedRing F] in
private theorem trainPop_inv {o : Ops F} {bo : BaseOps B F} {step : Nat} {spikes : Nat → List Nat} {k : Nat}
    {be be' : Stdp.Backend B F} (h : trainPop o bo step spikes be k = .ok be') :
    be'.pops.map (fun q => (q.1, q.2.length)) = be.pops.map (fun q => (q.1, q.2.length)) := by
  unfold trainPop at h
  rcases hk : be.pops[k]? with _ | ⟨uid, ns⟩
  · rw [hk] at h; cases h; rfl
  · rw [hk] at h
    dsimp only at h
    rcases ht : train o bo uid (spikes k) step ⟨ns, be.projs⟩ with st1 | _ | _
    · rw [ht, Outcome.bind_ok] at h
      cases h
      have hl := (train_frame ht).2.2.2
      dsimp only at hl ⊢
      rw [List.map_set, hl]
      apply List.ext_getElem?
      intro i
      rw [List.getElem?_set, List.length_map, List.getElem?_map]
      by_cases hi : k = i
      · subst hi
        obtain ⟨hlt, _⟩ := List.getElem?_eq_some_iff.1 hk
        simp [hlt, hk]
        rw [List.getElem?_eq_getElem hlt] at hk
        rw [Option.some.inj hk]
        exact ⟨rfl, rfl⟩
      · simp [hi]
    · rw [ht] at h; cases h
    · rw [ht] at h; cases h

omit [IsStrictOrderedRing F] in
private theorem train_ok {o : Ops F} {bo : BaseOps B F} {uid : UID} {spikes : List Nat} {step : Nat}
    {st : Stdp.State B F} (hs : ∀ i ∈ spikes, i < st.neurons.length) :
    ∃ st', train o bo uid spikes step st = .ok st' := by
  unfold train processSpikes allNeurons
  dsimp only
  obtain ⟨s1, h1, l1⟩ := foldNeurons_ok (g := fun i => processNeuron o bo step (connected uid st.projs i)) spikes st hs
  rw [h1, Outcome.bind_ok]
  obtain ⟨s2, h2, _⟩ := foldNeurons_ok (g := fun i => dopNeuron o bo step (connected uid st.projs i))
    (List.range s1.neurons.length) s1 (fun i hi => List.mem_range.1 hi)
  rw [h2, Outcome.bind_ok]
  obtain ⟨s3, h3, _⟩ := foldNeurons_ok (g := fun i => renormNeuron o step (connected uid st.projs i))
    (List.range s2.neurons.length) s2 (fun i hi => List.mem_range.1 hi)
  exact ⟨s3, h3⟩

omit [IsStrictOrderedRing F] in
/-- Training a population keeps everything another population sees. -/
private theorem alike_after {o : Ops F} {bo : BaseOps B F} {uid uid' : UID} (hne : uid ≠ uid') {spikes : List Nat}
    {step : Nat} {st st' : Stdp.State B F} (h : train o bo uid spikes step st = .ok st') :
    Alike uid' st.projs st'.projs := by
  obtain ⟨f1, f2, _, _⟩ := train_frame h
  refine ⟨f1, ?_⟩
  intro r p hp ht
  apply f2
  rintro ⟨q, hq, htq⟩
  rw [hp] at hq; cases hq
  exact hne (htq.1.symm.trans ht.1)

omit [IsStrictOrderedRing F] in
private theorem train_commute {o : Ops F} {bo : BaseOps B F} {u v : UID} (hne : u ≠ v) {su sv : List Nat} {step : Nat}
    {nu nv : List (Res B F)} {ps : List (RProj F)} (hu : ∀ i ∈ su, i < nu.length) (hv : ∀ i ∈ sv, i < nv.length) :
    ∃ a b c d, train o bo u su step ⟨nu, ps⟩ = .ok a ∧ train o bo v sv step ⟨nv, a.projs⟩ = .ok b ∧
      train o bo v sv step ⟨nv, ps⟩ = .ok c ∧ train o bo u su step ⟨nu, c.projs⟩ = .ok d ∧
      a.neurons = d.neurons ∧ b.neurons = c.neurons ∧ b.projs = d.projs := by
  obtain ⟨a, ha⟩ := train_ok (o := o) (bo := bo) (uid := u) (step := step) (st := ⟨nu, ps⟩) hu
  obtain ⟨b, hb⟩ := train_ok (o := o) (bo := bo) (uid := v) (step := step) (st := ⟨nv, a.projs⟩) hv
  obtain ⟨c, hc⟩ := train_ok (o := o) (bo := bo) (uid := v) (step := step) (st := ⟨nv, ps⟩) hv
  obtain ⟨d, hd⟩ := train_ok (o := o) (bo := bo) (uid := u) (step := step) (st := ⟨nu, c.projs⟩) hu
  have e1 : Alike v ps a.projs := alike_after hne ha
  have e2 : Alike u ps c.projs := alike_after (Ne.symm hne) hc
  have l1 := train_local (o := o) (bo := bo) (uid := v) (spikes := sv) (step := step) (st := ⟨nv, ps⟩)
    (st' := ⟨nv, a.projs⟩) rfl e1
  rw [hc, hb] at l1
  have l2 := train_local (o := o) (bo := bo) (uid := u) (spikes := su) (step := step) (st := ⟨nu, ps⟩)
    (st' := ⟨nu, c.projs⟩) rfl e2
  rw [ha, hd] at l2
  obtain ⟨n1, k1⟩ := l1
  obtain ⟨n2, k2⟩ := l2
  refine ⟨a, b, c, d, ha, hb, hc, hd, n2.symm, n1, ?_⟩
  have sb : shapeOf b.projs = shapeOf ps := (train_frame hb).1.trans (train_frame ha).1
  have sd : shapeOf d.projs = shapeOf ps := (train_frame hd).1.trans (train_frame hc).1
  apply eq_of_getAt (sb.trans sd.symm)
  intro r
  by_cases hru : Into u ps r
  · -- population u's synapse: both orders agree with `a`
    have hab : Alike u a.projs b.projs := alike_after (st := ⟨nv, a.projs⟩) (Ne.symm hne) hb
    obtain ⟨p, hp, ht⟩ := into_shape (train_frame ha).1 hru
    exact (hab.same r p hp ht).trans (k2.same r p hp ht).symm
  · by_cases hrv : Into v ps r
    · have hcd : Alike v c.projs d.projs := alike_after (st := ⟨nu, c.projs⟩) hne hd
      obtain ⟨p, hp, ht⟩ := into_shape (train_frame hc).1 hrv
      exact (k1.same r p hp ht).trans (hcd.same r p hp ht).symm
    · have h1 : getAt a.projs r = getAt ps r := (train_frame ha).2.1 r hru
      have h2 : getAt b.projs r = getAt a.projs r :=
        (train_frame hb).2.1 r (fun h => hrv (into_shape (train_frame ha).1.symm h))
      have h3 : getAt c.projs r = getAt ps r := (train_frame hc).2.1 r hrv
      have h4 : getAt d.projs r = getAt c.projs r :=
        (train_frame hd).2.1 r (fun h => hru (into_shape (train_frame hc).1.symm h))
      rw [h2, h1, h4, h3]

/-- What C87 assumes of the backend: population UIDs are distinct and spiked indexes are inside the populations. -/
def TrainInv (spikes : Nat → List Nat) (be : Stdp.Backend B F) : Prop :=
  (be.pops.map (fun q => q.1)).Nodup ∧
  ∀ (k : Nat) (q : UID × List (Res B F)), be.pops[k]? = some q → ∀ i ∈ spikes k, i < q.2.length

omit [IsStrictOrderedRing F] in
private theorem trainInv_keep {o : Ops F} {bo : BaseOps B F} {step : Nat} {spikes : Nat → List Nat} {k : Nat}
    {be be' : Stdp.Backend B F} (h : trainPop o bo step spikes be k = .ok be') (hi : TrainInv spikes be) :
    TrainInv spikes be' := by
  have hm := trainPop_inv h
  obtain ⟨h1, h2⟩ := hi
  constructor
  · have : be'.pops.map (fun q => q.1) = be.pops.map (fun q => q.1) := by
      have := congrArg (List.map Prod.fst) hm
      simpa [List.map_map, Function.comp_def] using this
    rw [this]; exact h1
  · intro j q hq
    have := congrArg (fun l => l[j]?) hm
    simp only [List.getElem?_map, hq, Option.map_some] at this
    rcases hj : be.pops[j]? with _ | q0
    · rw [hj] at this; cases this
    · rw [hj] at this
      simp only [Option.map_some, Option.some.injEq, Prod.mk.injEq] at this
      rw [this.2]
      exact h2 j q0 hj

omit [IsStrictOrderedRing F] in
private theorem trainPop_commute {o : Ops F} {bo : BaseOps B F} {step : Nat} {spikes : Nat → List Nat}
    {be : Stdp.Backend B F} (hi : TrainInv spikes be) (i j : Nat) :
    (trainPop o bo step spikes be i >>= fun b => trainPop o bo step spikes b j) =
    (trainPop o bo step spikes be j >>= fun b => trainPop o bo step spikes b i) := by
  by_cases hij : i = j
  · subst hij; rfl
  rcases hqi : be.pops[i]? with _ | ⟨u, nu⟩
  · have e : ∀ b : Stdp.Backend B F, b.pops.map (fun q => (q.1, q.2.length)) = be.pops.map (fun q => (q.1, q.2.length)) →
        trainPop o bo step spikes b i = .ok b := by
      intro b hb
      have : b.pops[i]? = none := by
        have h := congrArg List.length hb
        simp only [List.length_map] at h
        rw [List.getElem?_eq_none_iff] at hqi ⊢
        omega
      simp [trainPop, this]
    rw [e be rfl, Outcome.bind_ok]
    rcases hj : trainPop o bo step spikes be j with b | _ | _
    · rw [Outcome.bind_ok, e b (trainPop_inv hj)]
    · rfl
    · rfl
  · rcases hqj : be.pops[j]? with _ | ⟨v, nv⟩
    · have e : ∀ b : Stdp.Backend B F, b.pops.map (fun q => (q.1, q.2.length)) = be.pops.map (fun q => (q.1, q.2.length)) →
          trainPop o bo step spikes b j = .ok b := by
        intro b hb
        have : b.pops[j]? = none := by
          have h := congrArg List.length hb
          simp only [List.length_map] at h
          rw [List.getElem?_eq_none_iff] at hqj ⊢
          omega
        simp [trainPop, this]
      rw [e be rfl, Outcome.bind_ok]
      rcases hj : trainPop o bo step spikes be i with b | _ | _
      · rw [Outcome.bind_ok, e b (trainPop_inv hj)]
      · rfl
      · rfl
    · obtain ⟨hn, hs⟩ := hi
      have hne : u ≠ v := by
        intro huv
        obtain ⟨li, gi⟩ := List.getElem?_eq_some_iff.1 hqi
        obtain ⟨lj, gj⟩ := List.getElem?_eq_some_iff.1 hqj
        apply hij
        have := (List.Nodup.getElem_inj_iff hn (hi := by simpa using li) (hj := by simpa using lj)).1 (by simp [gi, gj, huv])
        exact this
      obtain ⟨a, b, c, d, ha, hb, hc, hd, e1, e2, e3⟩ := train_commute (o := o) (bo := bo) (step := step) (ps := be.projs)
        hne (hs i _ hqi) (hs j _ hqj)
      have p1 : trainPop o bo step spikes be i = .ok ⟨be.pops.set i (u, a.neurons), a.projs⟩ := by
        simp [trainPop, hqi, ha]
      have p2 : trainPop o bo step spikes be j = .ok ⟨be.pops.set j (v, c.neurons), c.projs⟩ := by
        simp [trainPop, hqj, hc]
      have p3 : trainPop o bo step spikes ⟨be.pops.set i (u, a.neurons), a.projs⟩ j =
          .ok ⟨(be.pops.set i (u, a.neurons)).set j (v, b.neurons), b.projs⟩ := by
        simp [trainPop, List.getElem?_set_ne hij, hqj, hb]
      have p4 : trainPop o bo step spikes ⟨be.pops.set j (v, c.neurons), c.projs⟩ i =
          .ok ⟨(be.pops.set j (v, c.neurons)).set i (u, d.neurons), d.projs⟩ := by
        simp [trainPop, List.getElem?_set_ne (Ne.symm hij), hqi, hd]
      rw [p1, p2, Outcome.bind_ok, Outcome.bind_ok, p3, p4, e1, e2, e3, List.set_comm _ _ hij]

omit [IsStrictOrderedRing F] in
/-- C87. The order in which the populations of a backend are trained (the schedule of the thread pool) does not
matter: all orders of the same tasks give the same neurons and the same synapses. -/
theorem C87_order_independent {o : Ops F} {bo : BaseOps B F} {step : Nat} {spikes : Nat → List Nat}
    {order order' : List Nat} (hp : order.Perm order') {be : Stdp.Backend B F} (hi : TrainInv spikes be) :
    trainAll o bo step spikes order be = trainAll o bo step spikes order' be := by
  unfold trainAll
  induction hp generalizing be with
  | nil => rfl
  | cons k _ ih =>
    simp only [List.foldlM_cons]
    rcases h : trainPop o bo step spikes be k with b | _ | _
    · rw [Outcome.bind_ok, Outcome.bind_ok]
      exact ih (trainInv_keep h hi)
    · rfl
    · rfl
  | swap i j l =>
    simp only [List.foldlM_cons]
    have h := trainPop_commute (o := o) (bo := bo) (step := step) hi j i
    rw [← bind_assoc, ← bind_assoc, h]
  | trans _ _ ih1 ih2 => exact (ih1 hi).trans (ih2 hi)

/-- Non-vacuity: two populations, one projection each. -/
example : TrainInv (fun _ => [0]) (⟨[(1, (StdpEx.st false 0).neurons), (2, (StdpEx.st false 0).neurons)],
    [StdpEx.proj false, { StdpEx.proj false with post := 2 }]⟩ : Stdp.Backend (ℚ × ℚ) ℚ) := by
  refine ⟨by decide, ?_⟩
  intro k q hq i hi
  rcases k with _ | _ | k
  · cases hq; simp at hi; subst hi; decide
  · cases hq; simp at hi; subst hi; decide
  · simp at hq

end
end Knp.Props
