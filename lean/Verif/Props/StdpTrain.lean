import Verif.Spec.StdpRule
import Verif.Lemmas.Stdp
import Verif.Props.Stdp
import Mathlib.Tactic.Ring

/-!
# C173: training, neuron by neuron

The whole training of a population - loops over spikes, neurons, projections and synapses, reading and writing through references - does to every
neuron and to the synapses that end in it what one formula says.
-/

namespace Knp.Props
open Knp Knp.Neurons Knp.Stdp Knp.Spec Knp.Spec.OneNeuron Knp.Lemmas.Stdp

variable {B F N : Type}

/-! ## One loop -/

/-- The synapses at some references. -/
private def at' (refs : List Ref) (ps : List (RProj F)) : List (RSyn F) := refs.filterMap (getAt ps)

private theorem eachStep_at (f : N → RSyn F → N × RSyn F) (st : N × List (RProj F)) (r : Ref) (refs : List Ref) (h : r ∉ refs) :
    at' refs (eachStep f st r).2 = at' refs st.2 := by
  unfold at'
  apply List.filterMap_congr
  intro r' hr'
  unfold eachStep
  cases getAt st.2 r with
  | none => rfl
  | some y =>
    dsimp only
    rw [getAt_setAt, if_neg (fun e : r = r' => h (e ▸ hr'))]

private theorem each_outside (f : N → RSyn F → N × RSyn F) (r : Ref) : ∀ (refs : List Ref) (st : N × List (RProj F)), r ∉ refs →
    getAt (each f refs st).2 r = getAt st.2 r := by
  intro refs
  induction refs with
  | nil => intro st _; rfl
  | cons r0 rs ih =>
    intro st hn
    show getAt (each f rs (eachStep f st r0)).2 r = _
    rw [ih _ (fun h => hn (by simp [h]))]
    unfold eachStep
    cases getAt st.2 r0 with
    | none => rfl
    | some y =>
      dsimp only
      rw [getAt_setAt, if_neg (fun h => hn (by simp [h]))]

/-- A loop over different references folds over the synapses as they were; a synapse changes by a function of itself if the neuron keeps what
the function reads. -/
private theorem each_closed (f : N → RSyn F → N × RSyn F) (R : N → Prop) (hR : ∀ m s, R m → R (f m s).1) (g : RSyn F → RSyn F)
    (hg : ∀ m s, R m → (f m s).2 = g s) : ∀ (refs : List Ref) (st : N × List (RProj F)), refs.Nodup → R st.1 →
    (each f refs st).1 = (at' refs st.2).foldl (fun m s => (f m s).1) st.1 ∧ at' refs (each f refs st).2 = (at' refs st.2).map g := by
  intro refs
  induction refs with
  | nil => intro st _ _; exact ⟨rfl, rfl⟩
  | cons r rs ih =>
    intro st hnd hst
    rw [List.nodup_cons] at hnd
    have hstep : R (eachStep f st r).1 := by
      unfold eachStep
      cases getAt st.2 r with
      | none => exact hst
      | some y => exact hR _ _ hst
    obtain ⟨h1, h2⟩ := ih (eachStep f st r) hnd.2 hstep
    rw [eachStep_at f st r rs hnd.1] at h1 h2
    have hr : getAt (each f rs (eachStep f st r)).2 r = (getAt st.2 r).map g := by
      rw [each_outside f r rs _ hnd.1]
      unfold eachStep
      cases hy : getAt st.2 r with
      | none => exact hy
      | some y =>
        dsimp only
        rw [getAt_setAt, if_pos rfl, hy, hg _ _ hst]
        rfl
    show (each f rs (eachStep f st r)).1 = _ ∧ at' (r :: rs) (each f rs (eachStep f st r)).2 = _
    unfold at' at h1 h2 ⊢
    rw [List.filterMap_cons, List.filterMap_cons, hr]
    cases hy : getAt st.2 r with
    | none =>
      have e : eachStep f st r = st := by unfold eachStep; rw [hy]
      rw [e] at h1 h2
      simp only [Option.map_none]
      rw [e]
      exact ⟨h1, h2⟩
    | some y =>
      have e : (eachStep f st r).1 = (f st.1 y).1 := by unfold eachStep; rw [hy]
      simp only [Option.map_some, List.foldl_cons, List.map_cons]
      rw [h1, h2, e]
      exact ⟨rfl, rfl⟩

/-! ## The three stages -/

variable [Field F] [LinearOrder F]

private theorem head_eq (bo : BaseOps B F) (step : Nat) (n : Res B F) :
    spikeHead bo step n = ⟨bo.setAdditional n.base 0, headRule (bo.dopamine n.base) step n.rule⟩ := by
  unfold spikeHead headRule
  rfl

private theorem head_sum (d : F) (step : Nat) (r : Rule F) : (headRule d step r).sumCoefficient = r.sumCoefficient := by
  have : ∀ r : Rule F, (updateIsi d r step).sumCoefficient = r.sumCoefficient := by
    intro r
    unfold updateIsi
    generalize subU64 r.lastStep step = x
    repeat' split
    all_goals rfl
  unfold headRule
  dsimp only
  have h := this { r with lastSpikeStep := step }
  generalize updateIsi d { r with lastSpikeStep := step } step = q at h ⊢
  split <;> exact h

private theorem recalc_closed (o : Ops F) (refs : List Ref) (hnd : refs.Nodup) (st : Res B F × List (RProj F)) :
    (each (recalc o) refs st).1 = st.1 ∧ at' refs (each (recalc o) refs st).2 = (at' refs st.2).map (fun s => { s with weight := weightOf o s.rule }) := by
  obtain ⟨h1, h2⟩ := each_closed (recalc (N := Res B F) o) (fun _ => True) (fun _ _ _ => trivial) (fun s => { s with weight := weightOf o s.rule })
    (fun _ _ _ => rfl) refs st hnd trivial
  refine ⟨?_, h2⟩
  rw [h1]
  generalize at' refs st.2 = l
  induction l generalizing st with
  | nil => rfl
  | cons a l ih => exact ih st (by simpa [recalc] using (each_closed (recalc (N := Res B F) o) (fun _ => True) (fun _ _ _ => trivial) (fun s => { s with weight := weightOf o s.rule })
    (fun _ _ _ => rfl) refs st hnd trivial).1) (by assumption)

private theorem mark_fold (bo : BaseOps B F) (hb : Lawful bo) (step : Nat) (r : Rule F) : ∀ (l : List (RSyn F)) (b : B) (a : F),
    l.foldl (fun m s => (markSyn bo step m s).1) (⟨bo.setAdditional b a, r⟩ : Res B F) =
      ⟨bo.setAdditional b (a + (l.map (fun s => max s.weight 0)).sum), r⟩ := by
  intro l
  induction l with
  | nil => intro b a; simp
  | cons s l ih =>
    intro b a
    rw [List.foldl_cons]
    have e : (markSyn bo step (⟨bo.setAdditional b a, r⟩ : Res B F) s).1 = ⟨bo.setAdditional b (a + max s.weight 0), r⟩ := by
      unfold markSyn
      dsimp only
      rw [hb.getSet, hb.setSet]
      have : (if s.weight > 0 then s.weight else 0) = max s.weight 0 := by
        split
        · rename_i h; exact (max_eq_left h.le).symm
        · rename_i h; exact (max_eq_right (not_lt.1 h)).symm
      rw [this]
    rw [e, ih, List.map_cons, List.sum_cons, add_assoc]

/-- What the plastic pass does to a synapse. -/
private def plasticSyn (o : Ops F) (h : Rule F) (s : RSyn F) : RSyn F :=
  if h.isi = .isForced then s
  else if s.rule.hasContributed = true ∧ s.rule.hadHebbian = false then
    { s with rule := { s.rule with resource := s.rule.resource - s.rule.dU + h.dH * min (o.pow2neg h.stability) 1, hadHebbian := true } }
  else { s with rule := { s.rule with resource := s.rule.resource - s.rule.dU } }

/-- What it takes from the synapses. -/
private def plasticGain (o : Ops F) (h : Rule F) (s : RSyn F) : F :=
  if s.rule.hasContributed = true ∧ s.rule.hadHebbian = false then h.dH * min (o.pow2neg h.stability) 1 else 0

private theorem plastic_fold (o : Ops F) (h : Rule F) : ∀ (l : List (RSyn F)) (b : B) (x : F),
    l.foldl (fun m s => (plastic o m s).1) (⟨b, { h with free := x }⟩ : Res B F) =
      ⟨b, { h with free := if h.isi = .isForced then x else x + (l.map (fun s => s.rule.dU - plasticGain o h s)).sum }⟩ := by
  intro l
  induction l with
  | nil => intro b x; simp
  | cons s l ih =>
    intro b x
    rw [List.foldl_cons]
    by_cases hi : h.isi = .isForced
    · have e : (plastic o (⟨b, { h with free := x }⟩ : Res B F) s).1 = ⟨b, { h with free := x }⟩ := by
        unfold plastic
        dsimp only
        rw [if_neg (by simp [hi])]
      rw [e, ih, if_pos hi, if_pos hi]
    · have e : (plastic o (⟨b, { h with free := x }⟩ : Res B F) s).1 = ⟨b, { h with free := x + (s.rule.dU - plasticGain o h s) }⟩ := by
        unfold plastic
        dsimp only
        rw [if_pos hi]
        unfold hebb decay plasticGain
        dsimp only
        by_cases hc : s.rule.hasContributed = true ∧ s.rule.hadHebbian = false
        · rw [if_pos hc, if_pos hc]
          unfold move damping
          dsimp only
          congr 2
          ring
        · rw [if_neg hc, if_neg hc, sub_zero]
      rw [e, ih, if_neg hi, if_neg hi, List.map_cons, List.sum_cons, add_assoc]

private theorem plastic_syn (o : Ops F) (h : Rule F) (m : Res B F) (s : RSyn F) (h1 : m.rule.isi = h.isi) (h2 : m.rule.dH = h.dH)
    (h3 : m.rule.stability = h.stability) : (plastic o m s).2 = plasticSyn o h s := by
  unfold plastic plasticSyn
  dsimp only
  rw [h1]
  by_cases hi : h.isi = .isForced
  · rw [if_neg (by simp [hi]), if_pos hi]
  · rw [if_pos hi, if_neg hi]
    unfold hebb decay
    dsimp only
    by_cases hc : s.rule.hasContributed = true ∧ s.rule.hadHebbian = false
    · rw [if_pos hc, if_pos hc]
      unfold move damping
      dsimp only
      rw [h2, h3]
    · rw [if_neg hc, if_neg hc]

omit [Field F] [LinearOrder F] in
private theorem contribute_eq (h : Rule F) (s : RSyn F) (hd : Bool) :
    contribute h.isi hd s = { s with rule := { s.rule with hasContributed := (hd || (decide (h.isi = .periodContinued) && s.rule.hasContributed)) } } := by
  unfold contribute
  cases hd <;> cases hi : h.isi <;> simp

/-- The synapse before the plastic pass. -/
private def marked (h : Rule F) (c : Bool) (s : RSyn F) : RSyn F :=
  { s with rule := { s.rule with hasContributed := c, hadHebbian := if h.isi ≠ .periodContinued then false else s.rule.hadHebbian } }

/-- `gain` and `spikedSyn` as functions of the contribution. -/
private def gainOf (o : Ops F) (h : Rule F) (c : Bool) (s : RSyn F) : F :=
  if c = true ∧ updated h s = false then h.dH * min (o.pow2neg h.stability) 1 else 0

private def synOf (o : Ops F) (h : Rule F) (c : Bool) (s : RSyn F) : RSyn F :=
  let x := if h.isi = .isForced then s.rule.resource else s.rule.resource - s.rule.dU + gainOf o h c s
  { withResource o s x with
    rule := { s.rule with
      resource := x
      hasContributed := c
      hadHebbian := if h.isi = .isForced then false else updated h s || c } }

private theorem passes (o : Ops F) (h : Rule F) (c : Bool) (s : RSyn F) :
    ({ plasticSyn o h (marked h c s) with weight := weightOf o (plasticSyn o h (marked h c s)).rule } : RSyn F) = synOf o h c s ∧
    plasticGain o h (marked h c s) = gainOf o h c s := by
  unfold synOf gainOf marked plasticSyn plasticGain withResource updated weightOf
  dsimp only
  cases hi : h.isi <;> cases c <;> cases s.rule.hadHebbian <;> simp

/-- The three passes for given marks `had`. -/
private theorem three_passes (o : Ops F) (bo : BaseOps B F) (hb : Lawful bo) (h : Rule F) (had : RSyn F → Bool) (mark : Res B F → RSyn F → Res B F × RSyn F)
    (hm1 : ∀ m s, (mark m s).2 = contribute m.rule.isi (had s) s) (hmr : ∀ m s, (mark m s).1.rule = m.rule)
    (hmf : ∀ (l : List (RSyn F)) (b : B) (a : F), l.foldl (fun m s => (mark m s).1) (⟨bo.setAdditional b a, h⟩ : Res B F) =
      ⟨bo.setAdditional b (a + (l.map (fun s => max s.weight 0)).sum), h⟩)
    (refs : List Ref) (hnd : refs.Nodup) (b : B) (ps : List (RProj F)) :
    let st1 := each mark refs (⟨bo.setAdditional b 0, h⟩, ps)
    let st2 := each resetHebb refs (scaleAdditional bo st1.1, st1.2)
    let st3 := each (plastic o) refs st2
    let st4 := each (recalc o) refs st3
    let c := fun s => (had s || (decide (h.isi = .periodContinued) && s.rule.hasContributed))
    st4.1 = ⟨bo.setAdditional b (((at' refs ps).map (fun s => max s.weight 0)).sum * h.sumCoefficient),
      { h with free := if h.isi = .isForced then h.free else h.free + ((at' refs ps).map (fun s => s.rule.dU - gainOf o h (c s) s)).sum }⟩ ∧
    at' refs st4.2 = (at' refs ps).map (fun s => synOf o h (c s) s) := by
  intro st1 st2 st3 st4 c
  obtain ⟨a1, a2⟩ := each_closed mark (fun m => m.rule = h) (fun m s hm => (hmr m s).trans hm) (fun s => contribute h.isi (had s) s)
    (fun m s (hm : m.rule = h) => by rw [hm1, hm]) refs (⟨bo.setAdditional b 0, h⟩, ps) hnd rfl
  rw [hmf, zero_add] at a1
  have a1 : st1.1 = _ := a1
  have a2 : at' refs st1.2 = _ := a2
  have hsc : scaleAdditional bo st1.1 = ⟨bo.setAdditional b (((at' refs ps).map (fun s => max s.weight 0)).sum * h.sumCoefficient), h⟩ := by
    rw [a1]
    unfold scaleAdditional
    dsimp only
    rw [hb.getSet, hb.setSet]
  obtain ⟨b1, b2⟩ := each_closed (resetHebb (B := B)) (fun m => m.rule = h) (fun m s hm => hm)
    (fun s => { s with rule := { s.rule with hadHebbian := if h.isi ≠ .periodContinued then false else s.rule.hadHebbian } })
    (fun m s (hm : m.rule = h) => by
      unfold resetHebb
      dsimp only
      rw [hm]
      by_cases hi : h.isi ≠ .periodContinued
      · rw [if_pos hi, if_pos hi]
      · rw [if_neg hi, if_neg hi]) refs (scaleAdditional bo st1.1, st1.2) hnd (by rw [hsc])
  have b1' : st2.1 = scaleAdditional bo st1.1 := by
    refine b1.trans ?_
    dsimp only
    generalize at' refs st1.2 = l
    induction l with
    | nil => rfl
    | cons a l ih => exact ih
  have b2 : at' refs st2.2 = (at' refs ps).map (fun s => marked h (c s) s) := by
    refine b2.trans ?_
    dsimp only
    rw [a2, List.map_map]
    apply List.map_congr_left
    intro s _
    simp only [Function.comp, contribute_eq]
    rfl
  rw [hsc] at b1'
  obtain ⟨c1, c2⟩ := each_closed (plastic (B := B) o) (fun m => m.rule.isi = h.isi ∧ m.rule.dH = h.dH ∧ m.rule.stability = h.stability)
    (fun m s hm => by
      unfold plastic hebb
      dsimp only
      split
      · split <;> exact hm
      · exact hm) (plasticSyn o h) (fun m s hm => plastic_syn o h m s hm.1 hm.2.1 hm.2.2) refs st2 hnd (by rw [b1']; exact ⟨rfl, rfl, rfl⟩)
  rw [b1', b2] at c1
  have c1 : st3.1 = _ := c1.trans (plastic_fold o h _ _ h.free)
  have c2 : at' refs st3.2 = _ := c2
  rw [b2] at c2
  obtain ⟨d1, d2⟩ := recalc_closed o refs hnd st3
  refine ⟨d1.trans (c1.trans ?_), d2.trans ?_⟩
  · simp only [List.map_map]
    have : (fun s => s.rule.dU - plasticGain o h s) ∘ (fun s => marked h (c s) s) = fun s => s.rule.dU - gainOf o h (c s) s := by
      funext s
      simp only [Function.comp, (passes o h (c s) s).2]
      rfl
    rw [this]
  · rw [c2, List.map_map, List.map_map]
    apply List.map_congr_left
    intro s _
    exact (passes o h (c s) s).1

private theorem spike_closed (o : Ops F) (bo : BaseOps B F) (hb : Lawful bo) (step : Nat) (refs : List Ref) (hnd : refs.Nodup) (n : Res B F)
    (ps : List (RProj F)) :
    (processNeuron o bo step refs (n, ps)).1 = (spiked o bo step (n, at' refs ps)).1 ∧
    at' refs (processNeuron o bo step refs (n, ps)).2 = (spiked o bo step (n, at' refs ps)).2 := by
  have hsum := head_sum (bo.dopamine n.base) step n.rule
  obtain ⟨h1, h2⟩ := three_passes o bo hb (headRule (bo.dopamine n.base) step n.rule) (hadSpike step) (markSyn bo step) (fun _ _ => rfl) (fun _ _ => rfl)
    (fun l b a => mark_fold bo hb step _ l b a) refs hnd n.base ps
  unfold processNeuron spiked
  dsimp only
  rw [head_eq, ← hsum]
  exact ⟨h1, h2⟩

omit [LinearOrder F] in
private theorem dop_passes (n : Res B F) (E : RSyn F → Prop) [DecidablePred E] (X : F) (f : Res B F → RSyn F → Res B F × RSyn F)
    (hf : ∀ (y : F) (s : RSyn F), f { n with rule := { n.rule with free := y } } s =
      if E s then move X { n with rule := { n.rule with free := y } } s else ({ n with rule := { n.rule with free := y } }, s))
    (refs : List Ref) (hnd : refs.Nodup) (ps : List (RProj F)) :
    (each f refs (n, ps)).1 = { n with rule := { n.rule with free := n.rule.free - ((at' refs ps).map (fun s => if E s then X else 0)).sum } } ∧
    at' refs (each f refs (n, ps)).2 =
      (at' refs ps).map (fun s => { s with rule := { s.rule with resource := s.rule.resource + if E s then X else 0 } }) := by
  obtain ⟨h1, h2⟩ := each_closed f (fun m => ∃ y, m = { n with rule := { n.rule with free := y } })
    (by
      rintro m s ⟨y, rfl⟩
      rw [hf]
      by_cases hE : E s
      · rw [if_pos hE]; exact ⟨_, rfl⟩
      · rw [if_neg hE]; exact ⟨_, rfl⟩)
    (fun s => { s with rule := { s.rule with resource := s.rule.resource + if E s then X else 0 } })
    (by
      rintro m s ⟨y, rfl⟩
      rw [hf]
      by_cases hE : E s
      · rw [if_pos hE, if_pos hE]; rfl
      · rw [if_neg hE, if_neg hE, add_zero]) refs (n, ps) hnd ⟨n.rule.free, rfl⟩
  refine ⟨h1.trans ?_, h2⟩
  have key : ∀ (l : List (RSyn F)) (y : F), l.foldl (fun m s => (f m s).1) { n with rule := { n.rule with free := y } } =
      { n with rule := { n.rule with free := y - (l.map (fun s => if E s then X else 0)).sum } } := by
    intro l
    induction l with
    | nil => intro y; simp
    | cons s l ih =>
      intro y
      rw [List.foldl_cons, hf]
      by_cases hE : E s
      · rw [if_pos hE]
        refine (ih (y - X)).trans ?_
        rw [List.map_cons, List.sum_cons, if_pos hE, sub_sub]
      · rw [if_neg hE, ih, List.map_cons, List.sum_cons, if_neg hE, zero_add]
  exact key _ n.rule.free

private theorem reward_closed (o : Ops F) (bo : BaseOps B F) (step : Nat) (refs : List Ref) (hnd : refs.Nodup) (n : Res B F) (ps : List (RProj F)) :
    (dopNeuron o bo step refs (n, ps)).1 = (rewarded o bo step (n, at' refs ps)).1 ∧
    at' refs (dopNeuron o bo step refs (n, ps)).2 = (rewarded o bo step (n, at' refs ps)).2 := by
  obtain ⟨h1, h2⟩ := dop_passes n (eligible step n.rule) (bo.dopamine n.base * min (o.pow2neg n.rule.stability) 1) (dopSyn o bo step)
    (fun y s => by
      unfold dopSyn
      dsimp only
      by_cases hE : eligible step n.rule s
      · rw [if_pos (show _ ∧ _ from hE), if_pos hE]; rfl
      · rw [if_neg (show ¬ (_ ∧ _) from hE), if_neg hE]) refs hnd ps
  unfold dopNeuron rewarded
  dsimp only
  by_cases hc : bo.dopamine n.base > 0 ∨ (bo.dopamine n.base < 0 ∧ n.rule.isi ≠ .isForced)
  · rw [if_pos hc, if_pos hc]
    obtain ⟨d1, d2⟩ := recalc_closed o refs hnd (dopStability o bo step (each (dopSyn o bo step) refs (n, ps)).1, (each (dopSyn o bo step) refs (n, ps)).2)
    refine ⟨d1.trans ?_, d2.trans ?_⟩
    · dsimp only
      rw [h1]
      unfold dopStability
      dsimp only
      by_cases hd : n.rule.forced = true ∨ bo.dopamine n.base < 0
      · rw [if_pos hd, if_pos hd]
      · rw [if_neg hd, if_neg hd]
    · dsimp only
      rw [h2, List.map_map]
      apply List.map_congr_left
      intro s _
      simp only [Function.comp, withResource]
  · rw [if_neg hc, if_neg hc]
    exact ⟨rfl, rfl⟩

private theorem share_some (o : Ops F) (step : Nat) (refs : List Ref) (n : Res B F) (ps : List (RProj F)) (hc : ¬ renormSkips step n.rule) :
    renormNeuron o step refs (n, ps) =
      each (recalc o) refs
        ({ (each (addResource (B := B) (divF o n.rule.free ((refs.length + n.rule.drain : Nat) : F))) refs (n, ps)).1 with
          rule := { (each (addResource (B := B) (divF o n.rule.free ((refs.length + n.rule.drain : Nat) : F))) refs (n, ps)).1.rule with free := 0 } },
         (each (addResource (B := B) (divF o n.rule.free ((refs.length + n.rule.drain : Nat) : F))) refs (n, ps)).2) := by
  unfold renormNeuron
  exact if_neg hc

private theorem shared_some (o : Ops F) (step : Nat) (c : Cell B F) (hc : ¬ renormSkips step c.1.rule) :
    shared o step c = ({ c.1 with rule := { c.1.rule with free := 0 } },
     c.2.map (fun s => withResource o s (s.rule.resource + divF o c.1.rule.free ((c.2.length + c.1.rule.drain : Nat) : F)))) := by
  unfold renormSkips at hc
  unfold shared
  exact if_neg hc

private theorem share_closed (o : Ops F) (step : Nat) (refs : List Ref) (hnd : refs.Nodup) (n : Res B F) (ps : List (RProj F))
    (hv : ∀ r ∈ refs, (getAt ps r).isSome = true) :
    (renormNeuron o step refs (n, ps)).1 = (shared o step (n, at' refs ps)).1 ∧
    at' refs (renormNeuron o step refs (n, ps)).2 = (shared o step (n, at' refs ps)).2 := by
  have hl : (at' refs ps).length = refs.length := by
    unfold at'
    clear hnd
    induction refs with
    | nil => rfl
    | cons r rs ih =>
      have h1 := hv r (by simp)
      rw [List.filterMap_cons]
      cases hg : getAt ps r with
      | none => rw [hg] at h1; cases h1
      | some s => simp [ih (fun r hr => hv r (by simp [hr]))]
  by_cases hc : renormSkips step n.rule
  · have e1 : renormNeuron o step refs (n, ps) = (n, ps) := by unfold renormNeuron; exact if_pos hc
    have e2 : shared o step (n, at' refs ps) = (n, at' refs ps) := by unfold renormSkips at hc; unfold shared; exact if_pos hc
    rw [e1, e2]
    exact ⟨rfl, rfl⟩
  · have e1 := share_some o step refs n ps hc
    have e2 := shared_some o step (n, at' refs ps) hc
    rw [e1, e2]
    dsimp only
    rw [hl]
    generalize divF o n.rule.free ((refs.length + n.rule.drain : Nat) : F) = x
    obtain ⟨h1, h2⟩ := each_closed (addResource (B := B) x) (fun _ => True) (fun _ _ _ => trivial)
      (fun s => { s with rule := { s.rule with resource := s.rule.resource + x } }) (fun _ _ _ => rfl) refs (n, ps) hnd trivial
    have h1 : (each (addResource (B := B) x) refs (n, ps)).1 = n := by
      refine h1.trans ?_
      dsimp only
      generalize at' refs ps = l
      induction l with
      | nil => rfl
      | cons a l ih => exact ih
    obtain ⟨d1, d2⟩ := recalc_closed o refs hnd
      ({ (each (addResource (B := B) x) refs (n, ps)).1 with
        rule := { (each (addResource (B := B) x) refs (n, ps)).1.rule with free := 0 } }, (each (addResource (B := B) x) refs (n, ps)).2)
    refine ⟨d1.trans ?_, d2.trans ?_⟩
    · dsimp only
      rw [h1]
    · dsimp only
      rw [h2, List.map_map]
      apply List.map_congr_left
      intro s _
      simp only [Function.comp, withResource]

/-! ## The loops over neurons -/

omit [Field F] [LinearOrder F] in
private theorem working_nodup (uid : UID) (ps : List (RProj F)) : (working uid ps).Nodup := List.Nodup.filter _ List.nodup_range

omit [Field F] [LinearOrder F] in
private theorem connected_nodup {uid : UID} {ps : List (RProj F)} (hf : ∀ p ∈ ps, FindOk p) (i : Nat) : (connected uid ps i).Nodup := by
  unfold connected
  rw [List.nodup_flatMap]
  refine ⟨?_, ?_⟩
  · intro j _
    cases hp : ps[j]? with
    | none => exact List.nodup_nil
    | some p => exact List.Nodup.map (fun a b h => (Prod.mk.inj h).2) (hf p (List.mem_of_getElem? hp) i).1
  · refine List.Pairwise.imp ?_ (working_nodup uid ps)
    intro a b hab
    simp only [Function.onFun, List.disjoint_left]
    intro r h1 h2
    cases hpa : ps[a]? with
    | none => rw [hpa] at h1; cases h1
    | some p =>
      cases hpb : ps[b]? with
      | none => rw [hpb] at h2; cases h2
      | some q =>
        rw [hpa] at h1
        rw [hpb] at h2
        obtain ⟨_, _, rfl⟩ := List.mem_map.1 h1
        obtain ⟨_, _, he⟩ := List.mem_map.1 h2
        exact hab (Prod.mk.inj he).1.symm

omit [Field F] [LinearOrder F] in
private theorem connected_disjoint {uid : UID} {ps : List (RProj F)} (hf : ∀ p ∈ ps, FindOk p) {i j : Nat} (hij : i ≠ j) {r : Ref}
    (h1 : r ∈ connected uid ps i) : r ∉ connected uid ps j := by
  intro h2
  obtain ⟨p, s, hp, _, hs, ht⟩ := hits_connected hf h1
  obtain ⟨p', s', hp', _, hs', ht'⟩ := hits_connected hf h2
  rw [hp] at hp'
  cases hp'
  rw [hs] at hs'
  cases hs'
  exact hij (ht.symm.trans ht')

omit [Field F] [LinearOrder F] in
private theorem at_valid {uid : UID} {ps : List (RProj F)} (hf : ∀ p ∈ ps, FindOk p) (i : Nat) : ∀ r ∈ connected uid ps i, (getAt ps r).isSome = true := by
  intro r hr
  obtain ⟨p, s, hp, _, hs, _⟩ := hits_connected hf hr
  simp [getAt, hp, hs]

omit [Field F] [LinearOrder F] in
private theorem incoming_eq (uid : UID) (ps : List (RProj F)) (i : Nat) : at' (connected uid ps i) ps = incoming uid ps i := by
  have key : ∀ (qs : List (RProj F)) (k : Nat), (∀ j, qs[j]? = ps[j + k]?) →
      ((List.range qs.length).filter (fun j => match ps[j + k]? with | some p => isWorking uid p | none => false)).flatMap
        (fun j => (match ps[j + k]? with | some p => (p.find i).map (fun x => (j + k, x)) | none => []).filterMap (getAt ps)) = incoming uid qs i := by
    intro qs
    induction qs with
    | nil => intro k _; rfl
    | cons q qs ih =>
      intro k hk
      have h0 : ps[0 + k]? = some q := (hk 0).symm
      have hrest := ih (k + 1) (fun j => by
        rw [show j + (k + 1) = j + 1 + k by omega]; exact hk (j + 1))
      rw [List.length_cons, List.range_succ_eq_map, List.filter_cons]
      have htail : (List.filter (fun j => match ps[j + k]? with | some p => isWorking uid p | none => false) (List.map Nat.succ (List.range qs.length))).flatMap
          (fun j => (match ps[j + k]? with | some p => (p.find i).map (fun x => (j + k, x)) | none => []).filterMap (getAt ps)) = incoming uid qs i := by
        rw [← hrest, List.filter_map, List.flatMap_map]
        have e : ∀ j, Nat.succ j + k = j + (k + 1) := fun j => by omega
        simp only [Function.comp_def, e]
      have hhead : incoming uid (q :: qs) i = (if Trains uid q then (q.find i).filterMap (fun x => q.syns[x]?) else []) ++ incoming uid qs i := rfl
      rw [h0, hhead]
      by_cases hw : isWorking uid q = true
      · simp only [hw, if_true, List.flatMap_cons, h0]
        rw [htail, if_pos ((isWorking_iff uid q).1 hw), List.filterMap_map]
        congr 1
        apply List.filterMap_congr
        intro x _
        simp only [Function.comp, getAt, h0, Option.bind_some]
      · have hw' : isWorking uid q = false := by simpa using hw
        rw [if_neg (fun h => hw ((isWorking_iff uid q).2 h)), List.nil_append]
        simp only [hw', Bool.false_eq_true, if_false]
        exact htail
  have := key ps 0 (fun j => rfl)
  unfold at' connected working
  rw [List.filterMap_flatMap]
  exact this

omit [Field F] [LinearOrder F] in
/-- A loop over different neurons of which each changes itself and its own synapses only. -/
private theorem loop_closed (conn : Nat → List Ref) (hdis : ∀ i j r, i ≠ j → r ∈ conn i → r ∉ conn j)
    (g : Nat → Res B F × List (RProj F) → Res B F × List (RProj F)) (S : Cell B F → Cell B F) (V : List (RProj F) → Prop)
    (hV : ∀ i n ps, V ps → V (g i (n, ps)).2)
    (hout : ∀ i n ps r, r ∉ conn i → getAt (g i (n, ps)).2 r = getAt ps r)
    (hg : ∀ i n ps, V ps → (g i (n, ps)).1 = (S (n, at' (conn i) ps)).1 ∧ at' (conn i) (g i (n, ps)).2 = (S (n, at' (conn i) ps)).2) :
    ∀ (l : List Nat) (st st' : Stdp.State B F), l.Nodup → V st.projs → l.foldlM (fun s i => onNeuron (g i) s i) st = Outcome.ok st' →
    V st'.projs ∧ ∀ i n, st.neurons[i]? = some n →
      (i ∉ l → st'.neurons[i]? = some n ∧ at' (conn i) st'.projs = at' (conn i) st.projs) ∧
      (i ∈ l → st'.neurons[i]? = some (S (n, at' (conn i) st.projs)).1 ∧ at' (conn i) st'.projs = (S (n, at' (conn i) st.projs)).2) := by
  have hat : ∀ i j n ps, i ≠ j → at' (conn j) (g i (n, ps)).2 = at' (conn j) ps := by
    intro i j n ps hij
    unfold at'
    apply List.filterMap_congr
    intro r hr
    exact hout i n ps r (hdis j i r (Ne.symm hij) hr)
  intro l
  induction l with
  | nil =>
    intro st st' _ hv h
    cases h
    exact ⟨hv, fun i n hn => ⟨fun _ => ⟨hn, rfl⟩, fun h => absurd h (by simp)⟩⟩
  | cons k ks ih =>
    intro st st' hnd hv h
    rw [List.nodup_cons] at hnd
    rw [List.foldlM_cons] at h
    rcases ho : onNeuron (g k) st k with st1 | _ | _
    · rw [ho, Outcome.bind_ok] at h
      obtain ⟨m, hm, rfl⟩ := onNeuron_ok ho
      obtain ⟨v', key⟩ := ih _ st' hnd.2 (hV k m st.projs hv) h
      have hk : k < st.neurons.length := (List.getElem?_eq_some_iff.1 hm).1
      refine ⟨v', fun i n hn => ?_⟩
      by_cases hik : k = i
      · subst hik
        rw [hm] at hn
        cases hn
        obtain ⟨q1, q2⟩ := hg k m st.projs hv
        have hset : (st.neurons.set k (g k (m, st.projs)).1)[k]? = some (g k (m, st.projs)).1 := by
          simp [hk]
        obtain ⟨r1, r2⟩ := (key k _ hset).1 hnd.1
        refine ⟨fun hno => absurd (List.mem_cons_self ..) hno, fun _ => ⟨?_, ?_⟩⟩
        · rw [r1, q1]
        · rw [r2]; exact q2
      · have hset : (st.neurons.set k (g k (m, st.projs)).1)[i]? = some n := by
          rw [List.getElem?_set_ne hik]; exact hn
        have ha : at' (conn i) (g k (m, st.projs)).2 = at' (conn i) st.projs := hat k i m st.projs hik
        obtain ⟨s1, s2⟩ := key i n hset
        dsimp only at s1 s2
        rw [ha] at s1 s2
        refine ⟨fun hno => s1 (fun hi => hno (List.mem_cons_of_mem _ hi)), fun hi => s2 ?_⟩
        rcases List.mem_cons.1 hi with rfl | hi
        · exact absurd rfl hik
        · exact hi
    · rw [ho] at h; cases h
    · rw [ho] at h; cases h

omit [Field F] [LinearOrder F] in
private theorem three_loops (conn : Nat → List Ref) (hdis : ∀ i j r, i ≠ j → r ∈ conn i → r ∉ conn j)
    (g1 g2 g3 : Nat → Res B F × List (RProj F) → Res B F × List (RProj F)) (S1 S2 S3 : Cell B F → Cell B F) (V : List (RProj F) → Prop)
    (hV1 : ∀ i n ps, V ps → V (g1 i (n, ps)).2) (hout1 : ∀ i n ps r, r ∉ conn i → getAt (g1 i (n, ps)).2 r = getAt ps r)
    (hg1 : ∀ i n ps, V ps → (g1 i (n, ps)).1 = (S1 (n, at' (conn i) ps)).1 ∧ at' (conn i) (g1 i (n, ps)).2 = (S1 (n, at' (conn i) ps)).2)
    (hV2 : ∀ i n ps, V ps → V (g2 i (n, ps)).2) (hout2 : ∀ i n ps r, r ∉ conn i → getAt (g2 i (n, ps)).2 r = getAt ps r)
    (hg2 : ∀ i n ps, V ps → (g2 i (n, ps)).1 = (S2 (n, at' (conn i) ps)).1 ∧ at' (conn i) (g2 i (n, ps)).2 = (S2 (n, at' (conn i) ps)).2)
    (hV3 : ∀ i n ps, V ps → V (g3 i (n, ps)).2) (hout3 : ∀ i n ps r, r ∉ conn i → getAt (g3 i (n, ps)).2 r = getAt ps r)
    (hg3 : ∀ i n ps, V ps → (g3 i (n, ps)).1 = (S3 (n, at' (conn i) ps)).1 ∧ at' (conn i) (g3 i (n, ps)).2 = (S3 (n, at' (conn i) ps)).2)
    (spikes : List Nat) (hs : spikes.Nodup) (st st' : Stdp.State B F) (hV0 : V st.projs)
    (h : (spikes.foldlM (fun s i => onNeuron (g1 i) s i) st).bind (fun st1 => (allNeurons g2 st1).bind (fun st2 => allNeurons g3 st2)) = Outcome.ok st')
    (i : Nat) (n : Res B F) (hn : st.neurons[i]? = some n) :
    V st'.projs ∧
    st'.neurons[i]? = some (S3 (S2 (if decide (i ∈ spikes) = true then S1 (n, at' (conn i) st.projs) else (n, at' (conn i) st.projs)))).1 ∧
    at' (conn i) st'.projs = (S3 (S2 (if decide (i ∈ spikes) = true then S1 (n, at' (conn i) st.projs) else (n, at' (conn i) st.projs)))).2 := by
  cases h1 : spikes.foldlM (fun s i => onNeuron (g1 i) s i) st with
  | throw e => rw [h1] at h; cases h
  | ub => rw [h1] at h; cases h
  | ok st1 =>
    rw [h1] at h
    have h : (allNeurons g2 st1).bind (fun st2 => allNeurons g3 st2) = Outcome.ok st' := h
    cases h2 : allNeurons g2 st1 with
    | throw e => rw [h2] at h; cases h
    | ub => rw [h2] at h; cases h
    | ok st2 =>
      rw [h2] at h
      have h : allNeurons g3 st2 = Outcome.ok st' := h
      obtain ⟨v1, a⟩ := loop_closed conn hdis g1 S1 V hV1 hout1 hg1 spikes st st1 hs hV0 h1
      obtain ⟨v2, b⟩ := loop_closed conn hdis g2 S2 V hV2 hout2 hg2 _ st1 st2 List.nodup_range v1 h2
      obtain ⟨v3, c⟩ := loop_closed conn hdis g3 S3 V hV3 hout3 hg3 _ st2 st' List.nodup_range v2 h
      have ha : ∃ L1 n1, st1.neurons[i]? = some n1 ∧ at' (conn i) st1.projs = L1 ∧
          (n1, L1) = if decide (i ∈ spikes) = true then S1 (n, at' (conn i) st.projs) else (n, at' (conn i) st.projs) := by
        by_cases hi : i ∈ spikes
        · obtain ⟨x, y⟩ := (a i n hn).2 hi
          exact ⟨_, _, x, y, by rw [if_pos (by simpa using hi)]⟩
        · obtain ⟨x, y⟩ := (a i n hn).1 hi
          exact ⟨_, _, x, y, by rw [if_neg (by simpa using hi)]⟩
      obtain ⟨L1, n1, x1, y1, e1⟩ := ha
      have hlt1 : i ∈ List.range st1.neurons.length := List.mem_range.2 (List.getElem?_eq_some_iff.1 x1).1
      obtain ⟨x2, y2⟩ := (b i n1 x1).2 hlt1
      rw [y1] at x2 y2
      have hlt2 : i ∈ List.range st2.neurons.length := List.mem_range.2 (List.getElem?_eq_some_iff.1 x2).1
      obtain ⟨x3, y3⟩ := (c i _ x2).2 hlt2
      rw [y2] at x3 y3
      rw [← e1]
      exact ⟨v3, x3, y3⟩

omit [Field F] [LinearOrder F] in
/-- The three stages for any three functions of one neuron that touch the synapses of the neuron alone. -/
private theorem assemble (uid : UID) (st st' : Stdp.State B F) (hf : ∀ p ∈ st.projs, FindOk p)
    (P1 P2 P3 : List Ref → Res B F × List (RProj F) → Res B F × List (RProj F)) (S1 S2 S3 : Cell B F → Cell B F)
    (hf1 : ∀ refs x, Frame refs x.2 (P1 refs x).2) (hf2 : ∀ refs x, Frame refs x.2 (P2 refs x).2)
    (hf3 : ∀ refs x, Frame refs x.2 (P3 refs x).2)
    (hc1 : ∀ refs : List Ref, refs.Nodup → ∀ n ps, (P1 refs (n, ps)).1 = (S1 (n, at' refs ps)).1 ∧ at' refs (P1 refs (n, ps)).2 = (S1 (n, at' refs ps)).2)
    (hc2 : ∀ refs : List Ref, refs.Nodup → ∀ n ps, (P2 refs (n, ps)).1 = (S2 (n, at' refs ps)).1 ∧ at' refs (P2 refs (n, ps)).2 = (S2 (n, at' refs ps)).2)
    (hc3 : ∀ refs : List Ref, refs.Nodup → ∀ n ps, (∀ r ∈ refs, (getAt ps r).isSome = true) →
      (P3 refs (n, ps)).1 = (S3 (n, at' refs ps)).1 ∧ at' refs (P3 refs (n, ps)).2 = (S3 (n, at' refs ps)).2)
    (spikes : List Nat) (hs : spikes.Nodup)
    (h : (spikes.foldlM (fun s i => onNeuron (P1 (connected uid st.projs i)) s i) st).bind (fun st1 =>
      (allNeurons (fun i => P2 (connected uid st.projs i)) st1).bind (fun st2 => allNeurons (fun i => P3 (connected uid st.projs i)) st2)) = Outcome.ok st')
    (i : Nat) (n : Res B F) (hn : st.neurons[i]? = some n) :
    st'.neurons[i]? = some (S3 (S2 (if decide (i ∈ spikes) = true then S1 (n, incoming uid st.projs i) else (n, incoming uid st.projs i)))).1 ∧
    incoming uid st'.projs i = (S3 (S2 (if decide (i ∈ spikes) = true then S1 (n, incoming uid st.projs i) else (n, incoming uid st.projs i)))).2 := by
  have hdis : ∀ i j r, i ≠ j → r ∈ connected uid st.projs i → r ∉ connected uid st.projs j := fun i j r hij hr => connected_disjoint hf hij hr
  have hnd : ∀ i, (connected uid st.projs i).Nodup := fun i => connected_nodup hf i
  let V : List (RProj F) → Prop := fun ps => shapeOf ps = shapeOf st.projs ∧ ∀ j, ∀ r ∈ connected uid st.projs j, (getAt ps r).isSome = true
  have hV : ∀ (refs : List Ref) (ps ps' : List (RProj F)), Frame refs ps ps' → V ps → V ps' := by
    intro refs ps ps' hfr ⟨v1, v2⟩
    refine ⟨hfr.shape.trans v1, fun j r hr => ?_⟩
    obtain ⟨s, hs⟩ := Option.isSome_iff_exists.1 (v2 j r hr)
    obtain ⟨s', hs', _⟩ := hfr.wiring r s hs
    rw [hs']; rfl
  have hV0 : V st.projs := ⟨rfl, fun j => at_valid hf j⟩
  obtain ⟨v3, r1, r2⟩ := three_loops (connected uid st.projs) hdis (fun i => P1 (connected uid st.projs i))
    (fun i => P2 (connected uid st.projs i)) (fun i => P3 (connected uid st.projs i)) S1 S2 S3 V
    (fun i n ps hv => hV _ ps _ (hf1 _ (n, ps)) hv)
    (fun i n ps r hr => (hf1 (connected uid st.projs i) (n, ps)).outside r hr)
    (fun i n ps _ => hc1 _ (hnd i) n ps)
    (fun i n ps hv => hV _ ps _ (hf2 _ (n, ps)) hv)
    (fun i n ps r hr => (hf2 (connected uid st.projs i) (n, ps)).outside r hr)
    (fun i n ps _ => hc2 _ (hnd i) n ps)
    (fun i n ps hv => hV _ ps _ (hf3 _ (n, ps)) hv)
    (fun i n ps r hr => (hf3 (connected uid st.projs i) (n, ps)).outside r hr)
    (fun i n ps hv => hc3 _ (hnd i) n ps (hv.2 i)) spikes hs st st' hV0 h i n hn
  have hinc : incoming uid st'.projs i = at' (connected uid st.projs i) st'.projs := by
    rw [← incoming_eq, connected_shape v3.1]
  rw [hinc, ← incoming_eq]
  exact ⟨r1, r2⟩

/-- C173. One training step of a population, after which everything is as the rule of one neuron says (`Spec.OneNeuron.learned`): for every neuron, whether it
spiked in this step or not, the neuron and the trained synapses that end in it are what the rule makes of this neuron and these synapses alone.  No
other neuron, no order of neurons or spikes, no other synapse has a part in it. -/
theorem C173_training {o : Ops F} {bo : BaseOps B F} (hb : Lawful bo) {uid : UID} {spikes : List Nat} {step : Nat} {st st' : Stdp.State B F}
    (hf : ∀ p ∈ st.projs, FindOk p) (hs : spikes.Nodup) (h : train o bo uid spikes step st = .ok st') (i : Nat) (n : Res B F)
    (hn : st.neurons[i]? = some n) :
    st'.neurons[i]? = some (learned o bo step (decide (i ∈ spikes)) (n, incoming uid st.projs i)).1 ∧
    incoming uid st'.projs i = (learned o bo step (decide (i ∈ spikes)) (n, incoming uid st.projs i)).2 :=
  assemble uid st st' hf (processNeuron o bo step) (dopNeuron o bo step) (renormNeuron o step) (spiked o bo step) (rewarded o bo step) (shared o step)
    (processNeuron_frame o bo step) (dopNeuron_frame o bo step) (renormNeuron_frame o step)
    (fun refs => spike_closed o bo hb step refs) (fun refs => reward_closed o bo step refs) (fun refs => share_closed o step refs) spikes hs h i n hn

omit [Field F] [LinearOrder F] in
/-- C173. Both kinds of trained neurons have the two members the rule is about. -/
theorem C173_lawful : Lawful (blifatOps (F := F)) ∧ Lawful (altaiOps (F := F)) :=
  ⟨⟨fun _ _ => rfl, fun _ _ _ => rfl, fun _ _ => rfl⟩, ⟨fun _ _ => rfl, fun _ _ _ => rfl, fun _ _ => rfl⟩⟩

omit [Field F] [LinearOrder F] in
private theorem onNeuron_out (g : Res B F × List (RProj F) → Res B F × List (RProj F)) (st : Stdp.State B F) (i : Nat) :
    (i < st.neurons.length → ∃ st', onNeuron g st i = .ok st' ∧ st'.neurons.length = st.neurons.length) ∧
    (¬ i < st.neurons.length → onNeuron g st i = .ub) := by
  unfold onNeuron
  constructor
  · intro h
    rw [List.getElem?_eq_getElem h]
    exact ⟨_, rfl, by simp⟩
  · intro h
    rw [List.getElem?_eq_none (by omega)]

omit [Field F] [LinearOrder F] in
private theorem loop_out (g : Nat → Res B F × List (RProj F) → Res B F × List (RProj F)) (is : List Nat) : ∀ st : Stdp.State B F,
    ((∀ i ∈ is, i < st.neurons.length) → ∃ st', is.foldlM (fun s i => onNeuron (g i) s i) st = .ok st' ∧ st'.neurons.length = st.neurons.length) ∧
    (¬ (∀ i ∈ is, i < st.neurons.length) → is.foldlM (fun s i => onNeuron (g i) s i) st = .ub) := by
  induction is with
  | nil => exact fun st => ⟨fun _ => ⟨st, rfl, rfl⟩, fun h => absurd (fun i hi => absurd hi List.not_mem_nil) h⟩
  | cons k ks ih =>
    intro st
    rw [List.foldlM_cons]
    by_cases hk : k < st.neurons.length
    · obtain ⟨st1, h1, l1⟩ := (onNeuron_out (g k) st k).1 hk
      rw [h1]
      obtain ⟨a, b⟩ := ih st1
      rw [l1] at a b
      refine ⟨fun h => a (fun i hi => h i (List.mem_cons_of_mem _ hi)), fun h => b (fun h' => h ?_)⟩
      intro i hi
      rcases List.mem_cons.1 hi with rfl | hi
      · exact hk
      · exact h' i hi
    · rw [(onNeuron_out (g k) st k).2 hk]
      exact ⟨fun h => absurd (h k (List.mem_cons_self ..)) hk, fun _ => rfl⟩

omit [Field F] [LinearOrder F] in
private theorem stages_out (g1 g2 g3 : Nat → Res B F × List (RProj F) → Res B F × List (RProj F)) (spikes : List Nat) (st : Stdp.State B F) (x : Outcome (Stdp.State B F))
    (hx : x = (spikes.foldlM (fun s i => onNeuron (g1 i) s i) st).bind (fun st1 => (allNeurons g2 st1).bind (fun st2 => allNeurons g3 st2))) :
    ((∀ i ∈ spikes, i < st.neurons.length) → ∃ st', x = .ok st' ∧ st'.neurons.length = st.neurons.length) ∧
    (¬ (∀ i ∈ spikes, i < st.neurons.length) → x = .ub) := by
  subst hx
  obtain ⟨a, b⟩ := loop_out g1 spikes st
  constructor
  · intro h
    obtain ⟨st1, h1, l1⟩ := a h
    obtain ⟨st2, h2, l2⟩ := (loop_out g2 (List.range st1.neurons.length) st1).1 (fun i hi => List.mem_range.1 hi)
    obtain ⟨st3, h3, l3⟩ := (loop_out g3 (List.range st2.neurons.length) st2).1 (fun i hi => List.mem_range.1 hi)
    refine ⟨st3, ?_, by omega⟩
    rw [h1]
    show (allNeurons g2 st1).bind _ = _
    rw [show allNeurons g2 st1 = .ok st2 from h2]
    exact h3
  · intro h
    rw [b h]
    rfl

/-- C173. Training works exactly if all neurons that spiked are neurons of the population; the rule is all there is to it. -/
theorem C173_outcome (o : Ops F) (bo : BaseOps B F) (uid : UID) (spikes : List Nat) (step : Nat) (st : Stdp.State B F) :
    ((∀ i ∈ spikes, i < st.neurons.length) → ∃ st', train o bo uid spikes step st = .ok st' ∧ st'.neurons.length = st.neurons.length) ∧
    (¬ (∀ i ∈ spikes, i < st.neurons.length) → train o bo uid spikes step st = .ub) :=
  stages_out (fun i => processNeuron o bo step (connected uid st.projs i)) (fun i => dopNeuron o bo step (connected uid st.projs i))
    (fun i => renormNeuron o step (connected uid st.projs i)) spikes st _ rfl

/-- C173. Two populations that agree on a neuron, on the synapses that end in it and on whether it spiked agree on them after training, whatever
the other neurons, the other synapses and the other spikes are. -/
theorem C173_local {o : Ops F} {bo : BaseOps B F} (hb : Lawful bo) {uid uid' : UID} {spikes spikes' : List Nat} {step : Nat}
    {st st' su su' : Stdp.State B F} (hf : ∀ p ∈ st.projs, FindOk p) (hf' : ∀ p ∈ su.projs, FindOk p) (hs : spikes.Nodup) (hs' : spikes'.Nodup)
    (h : train o bo uid spikes step st = .ok st') (h' : train o bo uid' spikes' step su = .ok su') {i j : Nat} (hi : i < st.neurons.length)
    (e : st.neurons[i]? = su.neurons[j]?) (e' : incoming uid st.projs i = incoming uid' su.projs j)
    (e'' : i ∈ spikes ↔ j ∈ spikes') :
    st'.neurons[i]? = su'.neurons[j]? ∧ incoming uid st'.projs i = incoming uid' su'.projs j := by
  obtain ⟨n, hn⟩ := List.getElem?_eq_some_iff.2 ⟨hi, rfl⟩ |> fun h => (⟨_, h⟩ : ∃ n, st.neurons[i]? = some n)
  obtain ⟨a, b⟩ := C173_training hb hf hs h i n hn
  obtain ⟨a', b'⟩ := C173_training hb hf' hs' h' j n (e ▸ hn)
  rw [a, b, a', b', e', decide_eq_decide.2 e'']
  exact ⟨rfl, rfl⟩

/-- A step with a spike and a dopamine reward: both synapses of the neuron get the reward and the share of what is left. -/
example : Lawful StdpEx.bo ∧ (∀ p ∈ (StdpEx.st false 0).projs, FindOk p) ∧ [0].Nodup ∧
    (∃ st', train StdpEx.o StdpEx.bo 1 [0] 6 (StdpEx.st false 0) = .ok st') ∧ (incoming 1 (StdpEx.st false 0).projs 0).length = 2 :=
  ⟨⟨fun _ _ => rfl, fun _ _ _ => rfl, fun _ _ => rfl⟩, StdpEx.findOk false, by decide,
    (let ⟨s, h, _⟩ := (C173_outcome StdpEx.o StdpEx.bo 1 [0] 6 (StdpEx.st false 0)).1 (by decide); ⟨s, h⟩), by decide +kernel⟩

example : (incoming 1 StdpEx.a.projs 0).map (·.rule.resource) =
      ((learned StdpEx.o StdpEx.bo 6 true (⟨(1, 0), StdpEx.rule 0⟩, [StdpEx.syn 0 2, StdpEx.syn 0 3])).2.map (·.rule.resource)) ∧
    ((learned StdpEx.o StdpEx.bo 6 true (⟨(1, 0), StdpEx.rule 0⟩, [StdpEx.syn 0 2, StdpEx.syn 0 3])).2.map (·.rule.resource)) ≠ [2, 3] := by
  decide +kernel

end Knp.Props
