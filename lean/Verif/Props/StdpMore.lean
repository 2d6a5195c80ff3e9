import Verif.Props.StdpRules
import Verif.Model.Delta

/-!
# C108-C110: stability under punishment, Hebbian updates per train, spikes for training only
-/

namespace Knp.Props
open Knp Knp.Neurons Knp.Stdp Knp.Spec Knp.Lemmas.Stdp

section
variable {F : Type} [Field F] [LinearOrder F] {B : Type}

/-! ## C108: reward while forced, and punishment -/

private theorem dop_keeps' {o : Ops F} {bo : BaseOps B F} {step : Nat} (refs : List Ref) (n : Res B F)
    (ps : List (RProj F)) : ∃ f, (each (dopSyn o bo step) refs (n, ps)).1 = { n with rule := { n.rule with free := f } } := by
  refine each_fst (R := fun m : Res B F => ∃ f, m = { n with rule := { n.rule with free := f } }) ?_ refs (n, ps)
    ⟨n.rule.free, rfl⟩
  rintro m s ⟨f, rfl⟩
  unfold dopSyn
  split
  · exact ⟨_, rfl⟩
  · exact ⟨f, rfl⟩

private theorem lowered {o : Ops F} {bo : BaseOps B F} {step : Nat} (refs : List Ref) (n : Res B F)
    (ps : List (RProj F)) (hrun : bo.dopamine n.base > 0 ∨ (bo.dopamine n.base < 0 ∧ n.rule.isi ≠ .isForced))
    (hc : n.rule.forced = true ∨ bo.dopamine n.base < 0) :
    (dopNeuron o bo step refs (n, ps)).1.rule.stability =
      max (n.rule.stability - bo.dopamine n.base * n.rule.stabilityChange) 0 := by
  unfold dopNeuron
  dsimp only
  rw [if_pos hrun]
  obtain ⟨f, hn⟩ := dop_keeps' (o := o) (bo := bo) (step := step) refs n ps
  generalize each (dopSyn o bo step) refs (n, ps) = st1 at hn ⊢
  refine each_fst (R := fun m : Res B F => m.rule.stability =
      max (n.rule.stability - bo.dopamine n.base * n.rule.stabilityChange) 0) (fun m s h => h) refs (_, _) ?_
  rw [hn]
  unfold dopStability
  dsimp only
  rw [if_pos hc]

/-- C108, what holds: a reward `D` of a neuron that is being forced lowers its stability by `r * D`, but not below zero. -/
theorem C108_forced_reward_partial {o : Ops F} {bo : BaseOps B F} {step : Nat} (refs : List Ref) (n : Res B F)
    (ps : List (RProj F)) (hd : 0 < bo.dopamine n.base) (hf : n.rule.forced = true) :
    (dopNeuron o bo step refs (n, ps)).1.rule.stability =
      max (n.rule.stability - n.rule.stabilityChange * bo.dopamine n.base) 0 := by
  rw [lowered refs n ps (Or.inl hd) (Or.inl hf), mul_comm]

/-- C108, what holds: the punishment of a neuron whose last spike was forced changes nothing: neither the neuron nor any
synapse. -/
theorem C108_forced_punishment_partial {o : Ops F} {bo : BaseOps B F} {step : Nat} (refs : List Ref) (n : Res B F)
    (ps : List (RProj F)) (hd : bo.dopamine n.base < 0) (hi : n.rule.isi = .isForced) :
    dopNeuron o bo step refs (n, ps) = (n, ps) := by
  unfold dopNeuron
  dsimp only
  rw [if_neg]
  rintro (h | ⟨_, h⟩)
  · exact absurd h (not_lt.2 hd.le)
  · exact h hi

/-- Without dopamine the pass leaves a neuron and its synapses alone. -/
theorem C108_no_dopamine {o : Ops F} {bo : BaseOps B F} {step : Nat} (refs : List Ref) (n : Res B F)
    (ps : List (RProj F)) (hd : bo.dopamine n.base = 0) : dopNeuron o bo step refs (n, ps) = (n, ps) := by
  unfold dopNeuron
  dsimp only
  rw [if_neg]
  rw [hd]
  rintro (h | ⟨h, _⟩) <;> exact absurd h (lt_irrefl _)

variable [IsStrictOrderedRing F]

/-- C108 is false: a punishment never lowers a non-negative stability; with a positive coefficient it always raises it, by
the full `r * |D|`. -/
theorem C108_punishment_raises {o : Ops F} {bo : BaseOps B F} {step : Nat} (refs : List Ref) (n : Res B F)
    (ps : List (RProj F)) (hd : bo.dopamine n.base < 0) (hi : n.rule.isi ≠ .isForced) (h0 : 0 ≤ n.rule.stability)
    (hr : 0 < n.rule.stabilityChange) :
    (dopNeuron o bo step refs (n, ps)).1.rule.stability =
      n.rule.stability + n.rule.stabilityChange * |bo.dopamine n.base| ∧
    n.rule.stability < (dopNeuron o bo step refs (n, ps)).1.rule.stability := by
  have hpos : 0 < n.rule.stabilityChange * |bo.dopamine n.base| := mul_pos hr (abs_pos.2 (ne_of_lt hd))
  have he : (dopNeuron o bo step refs (n, ps)).1.rule.stability =
      n.rule.stability + n.rule.stabilityChange * |bo.dopamine n.base| := by
    rw [lowered refs n ps (Or.inr ⟨hd, hi⟩) (Or.inr hd), abs_of_neg hd]
    rw [abs_of_neg hd] at hpos
    have e : n.rule.stability - bo.dopamine n.base * n.rule.stabilityChange =
        n.rule.stability + n.rule.stabilityChange * -bo.dopamine n.base := by ring
    rw [e]
    exact max_eq_left (by linarith)
  refine ⟨he, ?_⟩
  rw [he]
  linarith

/-- The promise of the comment and a witness against it: punished with -2 (coefficient 1, stability 3), the neuron ends with
stability 5, not 1; forced and rewarded with 2 it ends with 1. -/
theorem C108_refuted :
    (let n : Res (ℚ × ℚ) ℚ := ⟨(-2, 0), ⟨0, 3, 4, 1, 0, 3, 1, 0, 5, 1/2, .periodStarted, 10, 10, 10, false⟩⟩
     StdpEx.bo.dopamine n.base < 0 ∧ n.rule.stabilityChange = 1 ∧ n.rule.stability = 3 ∧ n.rule.isi ≠ .isForced ∧
      (dopNeuron StdpEx.o StdpEx.bo 12 [] (n, [])).1.rule.stability = 5) ∧
    (let n : Res (ℚ × ℚ) ℚ := ⟨(2, 0), ⟨0, 3, 4, 1, 0, 3, 1, 0, 5, 1/2, .periodStarted, 10, 10, 10, true⟩⟩
     0 < StdpEx.bo.dopamine n.base ∧ n.rule.forced = true ∧
      (dopNeuron StdpEx.o StdpEx.bo 12 [] (n, [])).1.rule.stability = 1) := by
  refine ⟨⟨?_, ?_, ?_, ?_, ?_⟩, ?_, ?_, ?_⟩ <;> decide +kernel

example : (dopNeuron StdpEx.o StdpEx.bo 12 [] ((⟨(-2, 0), ⟨0, 3, 4, 1, 0, 3, 1, 0, 5, 1/2, .isForced, 10, 10, 10, true⟩⟩ :
    Res (ℚ × ℚ) ℚ), [])).1.rule.stability = 3 := by decide +kernel

/-! ## C109: Hebbian updates -/

omit [IsStrictOrderedRing F] in
/-- Visiting every reference once: the synapse at `r` is changed once, by a neuron that satisfies the invariant. -/
private theorem each_at {N : Type} {f : N → RSyn F → N × RSyn F} (R : N → Prop) (hR : ∀ m s, R m → R (f m s).1) (r : Ref) :
    ∀ (refs : List Ref) (st : N × List (RProj F)), refs.Nodup → r ∈ refs → R st.1 → ∀ s, getAt st.2 r = some s →
      ∃ m, R m ∧ getAt (each f refs st).2 r = some (f m s).2 := by
  have out : ∀ (refs : List Ref) (st : N × List (RProj F)), r ∉ refs → getAt (each f refs st).2 r = getAt st.2 r := by
    intro refs
    induction refs with
    | nil => intro st _; rfl
    | cons r0 rs ih =>
      intro st hn
      show getAt (each f rs (eachStep f st r0)).2 r = _
      rw [ih _ (fun h => hn (by simp [h]))]
      unfold eachStep
      cases getAt st.2 r0 with
      | none => rfl
      | some y =>
        dsimp only
        rw [getAt_setAt, if_neg (fun h => hn (by simp [h]))]
  intro refs
  induction refs with
  | nil => intro st _ h; cases h
  | cons r0 rs ih =>
    intro st hnd hr hst s hs
    rw [List.nodup_cons] at hnd
    show ∃ m, R m ∧ getAt (each f rs (eachStep f st r0)).2 r = some (f m s).2
    by_cases h0 : r0 = r
    · subst h0
      refine ⟨st.1, hst, ?_⟩
      rw [out _ _ hnd.1]
      unfold eachStep
      rw [hs]
      dsimp only
      rw [getAt_setAt, if_pos rfl, hs]
      rfl
    · have hrs : r ∈ rs := (List.mem_cons.1 hr).resolve_left (fun h => h0 h.symm)
      refine ih (eachStep f st r0) hnd.2 hrs ?_ s ?_
      · unfold eachStep
        cases getAt st.2 r0 with
        | none => exact hst
        | some y => exact hR _ _ hst
      · unfold eachStep
        cases getAt st.2 r0 with
        | none => exact hs
        | some y =>
          dsimp only
          rw [getAt_setAt, if_neg h0]
          exact hs

omit [IsStrictOrderedRing F] in
private theorem markSyn_snd (bo : BaseOps B F) (step : Nat) (m : Res B F) (s : RSyn F) :
    (markSyn bo step m s).2 = contribute m.rule.isi (hadSpike step s) s := by unfold markSyn; rfl

omit [IsStrictOrderedRing F] in
private theorem contribute_keeps (isi : Isi) (had : Bool) (s : RSyn F) :
    (contribute isi had s).rule.hadHebbian = s.rule.hadHebbian ∧ (contribute isi had s).rule.resource = s.rule.resource ∧
      (contribute isi had s).rule.dU = s.rule.dU := by
  unfold contribute
  split <;> exact ⟨rfl, rfl, rfl⟩

omit [IsStrictOrderedRing F] in
private theorem contribute_started {isi : Isi} (h : isi ≠ .periodContinued) (had : Bool) (s : RSyn F) :
    contribute isi had s = { s with rule := { s.rule with hasContributed := had } } := by
  unfold contribute
  rw [if_pos (Or.inl h)]

omit [IsStrictOrderedRing F] in
private theorem updateIsi_dH (d : F) (r : Rule F) (step : Nat) : (updateIsi d r step).dH = r.dH := by
  unfold updateIsi
  generalize subU64 r.lastStep step = x
  repeat' split
  all_goals rfl

omit [IsStrictOrderedRing F] in
private theorem spikeHead_dH (bo : BaseOps B F) (step : Nat) (n : Res B F) : (spikeHead bo step n).rule.dH = n.rule.dH := by
  unfold spikeHead
  dsimp only
  have := updateIsi_dH (bo.dopamine n.base) { n.rule with lastSpikeStep := step } step
  generalize updateIsi (bo.dopamine n.base) { n.rule with lastSpikeStep := step } step = r at this ⊢
  split <;> exact this

/-- The learning parameters the Hebbian pass reads stay what the head of the spike made of them. -/
private def SameRule (r : Rule F) (m : Res B F) : Prop :=
  m.rule.isi = r.isi ∧ m.rule.dH = r.dH ∧ m.rule.stability = r.stability

omit [IsStrictOrderedRing F] in
private theorem hebb_synapse {o : Ops F} {bo : BaseOps B F} {step : Nat} (refs : List Ref) (n : Res B F) (ps : List (RProj F))
    (hnd : refs.Nodup) (r : Ref) (hr : r ∈ refs) (s : RSyn F) (hs : getAt ps r = some s) :
    ∃ m1 m2 m3 : Res B F, SameRule (spikeHead bo step n).rule m1 ∧ SameRule (spikeHead bo step n).rule m2 ∧
      SameRule (spikeHead bo step n).rule m3 ∧ ∃ s', getAt (processNeuron o bo step refs (n, ps)).2 r = some s' ∧
      s'.rule = (plastic o m3 (resetHebb m2 (markSyn bo step m1 s).2).2).2.rule := by
  unfold processNeuron
  dsimp only
  generalize spikeHead bo step n = h
  have k1 : ∀ (m : Res B F) (x : RSyn F), SameRule h.rule m → SameRule h.rule (markSyn bo step m x).1 := fun m x hm => hm
  have k2 : ∀ (m : Res B F) (x : RSyn F), SameRule h.rule m → SameRule h.rule (resetHebb m x).1 := fun m x hm => hm
  have k3 : ∀ (m : Res B F) (x : RSyn F), SameRule h.rule m → SameRule h.rule (plastic o m x).1 := by
    intro m x hm
    unfold plastic hebb
    dsimp only
    split
    · split <;> exact hm
    · exact hm
  obtain ⟨m1, a1, b1⟩ := each_at (f := markSyn bo step) (SameRule h.rule) k1 r refs (h, ps) hnd hr ⟨rfl, rfl, rfl⟩ s hs
  have c1 : SameRule h.rule (each (markSyn bo step) refs (h, ps)).1 := each_fst (R := SameRule h.rule) k1 refs (h, ps) ⟨rfl, rfl, rfl⟩
  generalize each (markSyn bo step) refs (h, ps) = st1 at b1 c1
  obtain ⟨m2, a2, b2⟩ := each_at (f := resetHebb (B := B)) (SameRule h.rule) k2 r refs (scaleAdditional bo st1.1, st1.2) hnd hr c1 _ b1
  have c2 : SameRule h.rule (each resetHebb refs (scaleAdditional bo st1.1, st1.2)).1 :=
    each_fst (R := SameRule h.rule) k2 refs (scaleAdditional bo st1.1, st1.2) c1
  generalize each resetHebb refs (scaleAdditional bo st1.1, st1.2) = st2 at b2 c2
  obtain ⟨m3, a3, b3⟩ := each_at (f := plastic (B := B) o) (SameRule h.rule) k3 r refs st2 hnd hr c2 _ b2
  generalize each (plastic o) refs st2 = st3 at b3
  obtain ⟨m4, _, b4⟩ := each_at (f := recalc (N := Res B F) o) (fun _ => True) (fun _ _ _ => trivial) r refs st3 hnd hr trivial _ b3
  exact ⟨m1, m2, m3, a1, a2, a3, _, b4, rfl⟩

omit [IsStrictOrderedRing F] in
/-- C109, what holds: a spike that continues a train gives a synapse that already had its Hebbian update in this train no
second one: it only loses the unconditional `d_u`; and the update is not forgotten. -/
theorem C109_continued_partial {o : Ops F} {bo : BaseOps B F} {step : Nat} (refs : List Ref) (n : Res B F)
    (ps : List (RProj F)) (hnd : refs.Nodup) (hi : (spikeHead bo step n).rule.isi = .periodContinued) (r : Ref)
    (hr : r ∈ refs) (s : RSyn F) (hs : getAt ps r = some s) (hh : s.rule.hadHebbian = true) :
    ∃ s', getAt (processNeuron o bo step refs (n, ps)).2 r = some s' ∧ s'.rule.resource = s.rule.resource - s.rule.dU ∧
      s'.rule.hadHebbian = true := by
  obtain ⟨m1, m2, m3, a1, a2, a3, s', hs', e⟩ := hebb_synapse (o := o) (bo := bo) (step := step) refs n ps hnd r hr s hs
  refine ⟨s', hs', ?_⟩
  have i2 : m2.rule.isi = .periodContinued := a2.1.trans hi
  have i3 : m3.rule.isi = .periodContinued := a3.1.trans hi
  have hm : (markSyn bo step m1 s).2.rule.hadHebbian = true ∧ (markSyn bo step m1 s).2.rule.resource = s.rule.resource ∧
      (markSyn bo step m1 s).2.rule.dU = s.rule.dU := by
    rw [markSyn_snd]
    obtain ⟨c1, c2, c3⟩ := contribute_keeps m1.rule.isi (hadSpike step s) s
    exact ⟨c1.trans hh, c2, c3⟩
  generalize (markSyn bo step m1 s).2 = s1 at hm e
  have hres : (resetHebb m2 s1).2 = s1 := by
    unfold resetHebb
    dsimp only
    rw [if_neg (by simp [i2])]
  rw [hres] at e
  have hp : (plastic o m3 s1).2 = (decay m3 s1).2 := by
    unfold plastic
    dsimp only
    rw [if_pos (by simp [i3])]
    unfold hebb
    rw [if_neg]
    rintro ⟨_, h⟩
    have : (decay m3 s1).2.rule.hadHebbian = true := hm.1
    rw [this] at h
    cases h
  rw [hp] at e
  rw [e]
  unfold decay
  dsimp only
  rw [hm.2.1, hm.2.2]
  exact ⟨rfl, hm.1⟩

omit [IsStrictOrderedRing F] in
private theorem plastic_started (o : Ops F) (h : Rule F) (m1 m2 m3 : Res B F) (a1 : SameRule h m1) (a2 : SameRule h m2)
    (a3 : SameRule h m3) (hi : h.isi = .periodStarted) (had : Bool) (s : RSyn F) :
    (plastic o m3 (resetHebb m2 (contribute m1.rule.isi had s)).2).2.rule.resource = s.rule.resource - s.rule.dU +
      (if had = true then h.dH * min (o.pow2neg h.stability) 1 else 0) := by
  rw [contribute_started (by rw [a1.1, hi]; simp)]
  have hres : (resetHebb m2 { s with rule := { s.rule with hasContributed := had } }).2 =
      { s with rule := { s.rule with hasContributed := had, hadHebbian := false } } := by
    unfold resetHebb
    dsimp only
    rw [if_pos (by rw [a2.1, hi]; simp)]
  rw [hres]
  unfold plastic
  dsimp only
  rw [if_pos (by rw [a3.1, hi]; simp)]
  unfold hebb decay
  dsimp only
  by_cases hh : had = true
  · rw [if_pos ⟨hh, rfl⟩, if_pos hh]
    unfold move damping
    dsimp only
    rw [a3.2.1, a3.2.2]
  · rw [if_neg (fun h => hh h.1), if_neg hh, add_zero]

omit [IsStrictOrderedRing F] in
/-- C109. What a spike that starts a train does to a synapse: it loses `d_u`, and gains `d_h` damped by the stability after the spike iff it
contributed to this spike — whether or not it had a Hebbian update before. -/
theorem C109_started {o : Ops F} {bo : BaseOps B F} {step : Nat} (refs : List Ref) (n : Res B F) (ps : List (RProj F))
    (hnd : refs.Nodup) (hi : (spikeHead bo step n).rule.isi = .periodStarted) (r : Ref) (hr : r ∈ refs) (s : RSyn F)
    (hs : getAt ps r = some s) :
    ∃ s', getAt (processNeuron o bo step refs (n, ps)).2 r = some s' ∧ s'.rule.resource = s.rule.resource - s.rule.dU +
      (if hadSpike step s = true then n.rule.dH * min (o.pow2neg (spikeHead bo step n).rule.stability) 1 else 0) := by
  obtain ⟨m1, m2, m3, a1, a2, a3, s', hs', e⟩ := hebb_synapse (o := o) (bo := bo) (step := step) refs n ps hnd r hr s hs
  refine ⟨s', hs', ?_⟩
  have := plastic_started o _ m1 m2 m3 a1 a2 a3 hi (hadSpike step s) s
  rw [spikeHead_dH] at this
  rw [e, markSyn_snd]
  exact this

/-- C109 is false: two unforced spikes at steps 6 and 7 (`isi_max` is 5, so one train) of a neuron with one synapse that
contributed to both; the synapse gets the Hebbian `d_h = 3` twice (`d_u = 1/4` is taken twice). -/
theorem C109_refuted :
    (let n : Res (ℚ × ℚ) ℚ := ⟨(0, 0), ⟨0, 3, 4, 1, 0, 0, 1, 0, 5, 3, .notInPeriod, 0, 0, 0, false⟩⟩
     let st1 := processNeuron StdpEx.o StdpEx.bo 6 [(0, 0)] (n, [StdpEx.proj false])
     let st2 := processNeuron StdpEx.o StdpEx.bo 7 [(0, 0)] st1
     n.rule.isiMax = 5 ∧ n.rule.dH = 3 ∧ getAt [StdpEx.proj false] (0, 0) = some (StdpEx.syn 0 2) ∧
     (getAt st1.2 (0, 0)).map (fun s => (s.rule.resource, s.rule.hadHebbian)) = some (2 - 1/4 + 3, true) ∧
     (getAt st2.2 (0, 0)).map (fun s => s.rule.resource) = some (2 - 1/4 + 3 - 1/4 + 3)) := by
  refine ⟨?_, ?_, ?_, ?_, ?_⟩ <;> decide +kernel

/-- Non-vacuity: a spike that starts a train; and a loaded neuron whose train a spike of the same step as the last one
continues. -/
example : (spikeHead StdpEx.bo 6 (⟨(0, 0), StdpEx.rule 0⟩ : Res (ℚ × ℚ) ℚ)).rule.isi = .periodStarted ∧
    (spikeHead StdpEx.bo 6 (⟨(0, 0), { StdpEx.rule 0 with isi := .periodStarted, lastStep := 6 }⟩ : Res (ℚ × ℚ) ℚ)).rule.isi =
      .periodContinued ∧ ([(0, 0), (0, 1)] : List Ref).Nodup := by
  refine ⟨?_, ?_, ?_⟩ <;> decide +kernel

/-! ## C110: spikes for training only -/

/-- Does the projection use the sender's spikes for training only? -/
def TrainingOnly (p : AProj F) (u : UID) : Prop := processingOf p.stdpPops u = some .stdpOnly

instance (p : AProj F) (u : UID) : Decidable (TrainingOnly p u) := by unfold TrainingOnly; infer_instance

omit [IsStrictOrderedRing F] in
private theorem initMessage_pops (p : AProj F) (m : SpikeMessage) : (initMessage p m).1.stdpPops = p.stdpPops := by
  unfold initMessage
  split <;> rfl

omit [IsStrictOrderedRing F] in
/-- C110. In an additive-STDP projection the spikes of a population that is registered as "STDP only" cause no impacts: the
impacts the step schedules are those of the other messages, whose spikes all count; messages of unregistered and of "STDP and spike"
senders are processed unchanged. -/
theorem C110_training_only (d : Delta.Ident) (q : AProj F) (view : Delta.Proj F) (step : Nat) (queue : Delta.Queue F)
    (msgs : List SpikeMessage) :
    Delta.calcSingle d view step queue (initProjection q msgs).2 =
      Delta.calcSingle d view step queue (msgs.filter (fun m => ! decide (TrainingOnly q m.header.senderUid))) := by
  unfold Delta.calcSingle
  induction msgs generalizing q queue with
  | nil => rfl
  | cons m ms ih =>
    have hpops : (initMessage q m).1.stdpPops = q.stdpPops := initMessage_pops q m
    have hsame : (fun m : SpikeMessage => ! decide (TrainingOnly (initMessage q m).1 m.header.senderUid)) = fun m => ! decide (TrainingOnly q m.header.senderUid) := by
      funext x
      have : TrainingOnly (initMessage q x).1 x.header.senderUid ↔ TrainingOnly q x.header.senderUid := by
        unfold TrainingOnly; rw [initMessage_pops]
      simp only [this]
    have hf : ms.filter (fun m' => ! decide (TrainingOnly (initMessage q m).1 m'.header.senderUid)) =
        ms.filter (fun m' => ! decide (TrainingOnly q m'.header.senderUid)) := by
      apply List.filter_congr
      intro x _
      have : TrainingOnly (initMessage q m).1 x.header.senderUid ↔ TrainingOnly q x.header.senderUid := by
        unfold TrainingOnly; rw [hpops]
      simp only [this]
    unfold initProjection
    dsimp only
    rw [List.foldl_cons, ih, hf]
    by_cases ht : TrainingOnly q m.header.senderUid
    · rw [List.filter_cons_of_neg (by simp [ht])]
      have : (initMessage q m).2.neuronIndexes = [] := by
        unfold TrainingOnly at ht
        unfold initMessage
        rw [ht]
      rw [this]
      rfl
    · rw [List.filter_cons_of_pos (by simp [ht]), List.foldl_cons]
      have : (initMessage q m).2 = m := by
        unfold TrainingOnly at ht
        unfold initMessage
        split
        · rfl
        · rename_i h; exact absurd h ht
        · rfl
      rw [this]

/-- Non-vacuity: population 6 is "STDP only": its spike of neuron 0 schedules nothing, that of population 5 does. -/
example : (let p : AProj ℚ := { addProj false [] with stdpPops := [(5, .stdpAndSpike), (6, .stdpOnly)] }
    let v : Delta.Proj ℚ := ⟨[⟨0, 1, 2, 1, .excitatory⟩], fun n => if n = 0 then [0] else []⟩
    TrainingOnly p 6 ∧ ¬ TrainingOnly p 5 ∧
    (Delta.calcSingle ⟨9, 5, 7, false⟩ v 3 [] (initProjection p [⟨⟨6, 2⟩, [0]⟩]).2).length = 0 ∧
    (Delta.calcSingle ⟨9, 5, 7, false⟩ v 3 [] (initProjection p [⟨⟨6, 2⟩, [0]⟩, ⟨⟨5, 2⟩, [0]⟩]).2).length = 1) := by
  refine ⟨?_, ?_, ?_, ?_⟩ <;> decide +kernel

end
end Knp.Props
