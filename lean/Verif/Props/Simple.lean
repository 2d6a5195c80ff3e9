import Verif.Props.MnistInference
import Verif.Model.Simple
import Verif.Spec.Simple

/-!
# C170: the example `simple-network`

When the neuron of the example fires, for every input, all delays and every length of the run.
-/

namespace Knp.Props
open Knp Knp.Spec Knp.Neurons Knp.Stdp Knp.Prog

namespace SimpleNet

section
variable {F : Type} [Arith F] {rev low : F}

/-- The impact of a synapse of the example. -/
def unit : SynapticImpact F := ⟨0, 1, .excitatory, 0, 0⟩

omit [Arith F] in
private theorem addressed_iff (ms : List (SynapticImpactMessage F)) (x : SynapticImpact F × Bool) : x ∈ addressed 0 ms ↔
    ∃ m ∈ ms, x.1 ∈ m.impacts ∧ x.1.postsynapticNeuronIndex = 0 ∧ x.2 = m.isForcing := by
  unfold addressed
  rw [List.mem_flatMap]
  constructor
  · rintro ⟨m, hm, hx⟩
    obtain ⟨y, hy, rfl⟩ := List.mem_map.1 hx
    obtain ⟨h1, h2⟩ := List.mem_filter.1 hy
    exact ⟨m, hm, h1, eq_of_beq h2, rfl⟩
  · rintro ⟨m, hm, h1, h2, h3⟩
    exact ⟨m, hm, List.mem_map.2 ⟨x.1, List.mem_filter.2 ⟨h1, beq_iff_eq.2 h2⟩, by rw [← h3]⟩⟩

omit [Arith F] in
private theorem through_iff (v : UID) (ms : List (SynapticImpactMessage F)) (x : SynapticImpact F) : x ∈ impactsThrough v 0 ms ↔
    ∃ m ∈ ms, m.header.senderUid = v ∧ x ∈ m.impacts ∧ x.connectionIndex = 0 := by
  unfold impactsThrough
  simp only [List.mem_filter, List.mem_flatMap, beq_iff_eq]
  constructor
  · rintro ⟨⟨m, ⟨h1, h2⟩, h3⟩, h4⟩
    exact ⟨m, h1, h2, h3, h4⟩
  · rintro ⟨m, h1, h2, h3, h4⟩
    exact ⟨⟨m, ⟨h1, h2⟩, h3⟩, h4⟩

/-- The default neuron before step `t`. -/
structure Ready (rev low : F) (t : Nat) (x : Blifat F) : Prop where
  activation : x.activation = 1
  additional : x.additional = 0
  dynamic : x.dynamic = 0
  thresholdDecay : x.thresholdDecay = 0
  thresholdIncrement : x.thresholdIncrement = 0
  conductance : x.conductance = 0
  conductanceDecay : x.conductanceDecay = 0
  potential : x.potential = 0
  potentialDecay : x.potentialDecay = 0
  burstingPhase : x.burstingPhase = 0
  burstingPeriod : x.burstingPeriod = 0
  reversal : x.reversal = rev
  refractory : x.refractory = 0
  resetValue : x.resetValue = 0
  minPotential : x.minPotential = low
  blocking : x.blocking = i64max - t
  since : (t = 0 ∧ x.sinceFiring = two64 - 1) ∨ x.sinceFiring < t

private theorem impacts_fold : ∀ (l : List (SynapticImpact F × Bool)) (n : Nat) (x : Blifat F), x.potential = ones n →
    (∀ i ∈ l, i.1.synapseType = .excitatory ∧ i.1.impactValue = 1) →
    l.foldlM (fun m i => blifat.impact m i.1 i.2) x = Outcome.ok { x with potential := ones (n + l.length) }
  | [], n, x, hx, _ => by
    cases x
    simp only at hx
    subst hx
    rfl
  | i :: l, n, x, hx, h => by
    obtain ⟨h1, h2⟩ := h i (by simp)
    rw [List.foldlM_cons]
    have e : blifat.impact x i.1 i.2 = Outcome.ok { x with potential := ones (n + 1) } := by
      show blifatImpact x i.1 i.2 = _
      unfold blifatImpact
      rw [h1, h2, hx]
      rfl
    rw [e]
    have := impacts_fold l (n + 1) { x with potential := ones (n + 1) } rfl (fun j hj => h j (by simp [hj]))
    refine this.trans ?_
    simp only [List.length_cons]
    have e2 : n + 1 + l.length = n + (l.length + 1) := by omega
    rw [e2]

/-- One step of the default neuron. -/
theorem ready_step (hc : Counts rev low) {t : Nat} {x : Blifat F} (hx : Ready rev low t x) (ht : (t : Int) < i64max)
    {l : List (SynapticImpact F × Bool)} (hl : ∀ i ∈ l, i.1.synapseType = .excitatory ∧ i.1.impactValue = 1) (h0 : t = 0 → l = []) :
    ∃ x', neuronStep blifat x l = .ok (x', !l.isEmpty) ∧ Ready rev low (t + 1) x' := by
  have hpre : blifatPre x = { x with sinceFiring := addU64 x.sinceFiring 1, dynamic := 0, trace := x.trace * x.traceDecay, preImpact := 0 } := by
    have h1 := hx.dynamic; have h2 := hx.thresholdDecay; have h3 := hx.conductance; have h4 := hx.conductanceDecay
    have h5 := hx.potential; have h6 := hx.potentialDecay; have h7 := hx.burstingPhase
    clear hx
    cases x
    simp only at h1 h2 h3 h4 h5 h6 h7
    subst h1 h2 h3 h4 h5 h6 h7
    simp [blifatPre, blifatDecay, blifatBurst, blifatSave, hc.zero]
  have hsince : addU64 x.sinceFiring 1 ≤ t ∧ (t ≠ 0 → 0 < addU64 x.sinceFiring 1) ∧ (t = 0 → addU64 x.sinceFiring 1 = 0) := by
    have hb : (t : Int) < 9223372036854775807 := ht
    have e2 : two64 = 18446744073709551616 := rfl
    rcases hx.since with ⟨h1, h2⟩ | h1
    · rw [h2]
      have : addU64 (two64 - 1) 1 = 0 := by decide
      rw [this]
      exact ⟨by omega, fun h => absurd h1 h, fun _ => rfl⟩
    · have : addU64 x.sinceFiring 1 = x.sinceFiring + 1 := by
        unfold addU64
        rw [e2]
        exact Nat.mod_eq_of_lt (by omega)
      rw [this]
      exact ⟨by omega, fun _ => by omega, fun h => by omega⟩
  unfold neuronStep
  have hpot : (blifatPre x).potential = ones 0 := by
    rw [hpre]; exact hx.potential
  have hfold := impacts_fold l 0 (blifatPre x) hpot hl
  have hbind : (l.foldlM (fun m i => blifat.impact m i.1 i.2) (blifat.pre x) >>= fun m => pure (blifat.post m)) =
      Outcome.ok (blifatPost { blifatPre x with potential := ones (0 + l.length) }) := by
    have e : (blifat.pre x : Blifat F) = blifatPre x := rfl
    rw [e, hfold]
    rfl
  rw [hbind, hpre, Nat.zero_add]
  have hrest : blifatInhibit (blifatTick (blifatRestore
      { x with sinceFiring := addU64 x.sinceFiring 1, dynamic := 0, trace := x.trace * x.traceDecay, preImpact := 0, potential := ones l.length })) =
      { x with sinceFiring := addU64 x.sinceFiring 1, dynamic := 0, trace := x.trace * x.traceDecay, preImpact := 0, potential := ones l.length, blocking := i64max - (t + 1 : Nat) } := by
    have hb : 0 < x.blocking := by rw [hx.blocking]; omega
    have e1 : blifatRestore { x with sinceFiring := addU64 x.sinceFiring 1, dynamic := 0, trace := x.trace * x.traceDecay, preImpact := 0, potential := ones l.length } =
        { x with sinceFiring := addU64 x.sinceFiring 1, dynamic := 0, trace := x.trace * x.traceDecay, preImpact := 0, potential := ones l.length } := by
      unfold blifatRestore
      rw [if_neg (by show ¬ x.blocking ≤ 0; omega)]
    rw [e1]
    have e2 : blifatTick { x with sinceFiring := addU64 x.sinceFiring 1, dynamic := 0, trace := x.trace * x.traceDecay, preImpact := 0, potential := ones l.length } =
        { x with sinceFiring := addU64 x.sinceFiring 1, dynamic := 0, trace := x.trace * x.traceDecay, preImpact := 0, potential := ones l.length, blocking := i64max - (t + 1 : Nat) } := by
      unfold blifatTick
      rw [if_neg (by show ¬ x.blocking < 0; omega), if_pos (by show 0 < x.blocking; omega)]
      have : x.blocking - 1 = i64max - ((t + 1 : Nat) : Int) := by rw [hx.blocking]; omega
      simp only [this]
    rw [e2]
    unfold blifatInhibit
    have e3 : Arith.lt x.conductance 1 = true := by rw [hx.conductance]; exact hc.pos
    rw [if_pos e3]
    have e4 : (ones l.length : F) - (ones l.length - x.reversal) * x.conductance = ones l.length := by
      rw [hx.conductance, hx.reversal]; exact hc.kept _
    simp only [e4]
  unfold blifatPost
  rw [hrest]
  have hthr : x.activation + 0 + x.additional = 1 := by rw [hx.activation, hx.additional]; exact hc.one
  cases l with
  | nil =>
    have hf : blifatFire { x with sinceFiring := addU64 x.sinceFiring 1, dynamic := 0, trace := x.trace * x.traceDecay, preImpact := 0, potential := ones ([] : List (SynapticImpact F × Bool)).length, blocking := i64max - (t + 1 : Nat) } =
        ({ x with sinceFiring := addU64 x.sinceFiring 1, dynamic := 0, trace := x.trace * x.traceDecay, preImpact := 0, potential := 0, blocking := i64max - (t + 1 : Nat) }, false) := by
      unfold blifatFire blifatSpikes
      dsimp only
      rw [hthr]
      have : Arith.le (1 : F) (ones ([] : List (SynapticImpact F × Bool)).length) = false := hc.below
      rw [this, Bool.and_false, if_neg (by simp)]
      rfl
    simp only [hf]
    refine ⟨_, rfl, ?_⟩
    unfold blifatClamp
    rw [if_neg (by show ¬ Arith.lt (0 : F) x.minPotential = true; rw [hx.minPotential, hc.low]; simp)]
    exact ⟨hx.activation, hx.additional, rfl, hx.thresholdDecay, hx.thresholdIncrement, hx.conductance, hx.conductanceDecay, rfl, hx.potentialDecay,
      hx.burstingPhase, hx.burstingPeriod, hx.reversal, hx.refractory, hx.resetValue, hx.minPotential, rfl, .inr (by
        show addU64 x.sinceFiring 1 < t + 1
        have := hsince.1
        omega)⟩
  | cons i l =>
    have ht0 : t ≠ 0 := fun h => by cases h0 h
    have hf : blifatFire { x with sinceFiring := addU64 x.sinceFiring 1, dynamic := 0, trace := x.trace * x.traceDecay, preImpact := 0, potential := ones (i :: l).length, blocking := i64max - (t + 1 : Nat) } =
        ({ x with sinceFiring := 0, dynamic := 0 + x.thresholdIncrement, trace := x.trace * x.traceDecay + x.traceIncrement, preImpact := 0, potential := x.resetValue, burstingPhase := x.burstingPeriod, blocking := i64max - (t + 1 : Nat) }, true) := by
      unfold blifatFire blifatSpikes
      dsimp only
      rw [hthr, hx.refractory]
      have h1 : Arith.le (1 : F) (ones (i :: l).length) = true := hc.reached _
      have h2 : decide (addU64 x.sinceFiring 1 > 0) = true := by rw [decide_eq_true_eq]; exact hsince.2.1 ht0
      rw [h1, h2, if_pos (by rfl)]
    simp only [hf]
    refine ⟨_, rfl, ?_⟩
    unfold blifatClamp
    rw [if_neg (by show ¬ Arith.lt x.resetValue x.minPotential = true; rw [hx.resetValue, hx.minPotential, hc.low]; simp)]
    exact ⟨hx.activation, hx.additional, by show 0 + x.thresholdIncrement = 0; rw [hx.thresholdIncrement]; exact hc.zeroZero, hx.thresholdDecay,
      hx.thresholdIncrement, hx.conductance, hx.conductanceDecay, hx.resetValue, hx.potentialDecay, hx.burstingPeriod, hx.burstingPeriod, hx.reversal,
      hx.refractory, hx.resetValue, hx.minPotential, rfl, .inr (by show 0 < t + 1; omega)⟩

end

/-- The UIDs are those of different parts. -/
structure Distinct (u : Simple.Uids) : Prop where
  pop : u.pop ≠ 0
  projections : u.input ≠ u.loop
  channel : u.channel ≠ u.pop

section
variable {σ B F : Type} [Field F] [LinearOrder F]

/-- A run of the program of the example, of any length, with any input and delays, on the single-threaded backend.  `rest` is what the program does without
stepping. -/
structure SimpleRun (B : Type) (arith : Arith F) (o : Ops F) (rev low : F) (u : Simple.Uids) (delayIn delayLoop : Nat) (input : Nat → Bool) (u0 : σ)
    (acts : List (Act σ)) (s : Prog.State σ (Learn.Pop (Blifat F) B F) (Learn.Proj F) F) (is : List (Iter F)) (rest : List (Item F)) : Prop where
  counts : @Counts F arith rev low
  distinct : Distinct u
  late : 1 ≤ delayIn
  later : 1 ≤ delayLoop
  small : is.length + delayIn + delayLoop < two64
  time : (is.length : Int) ≤ i64max
  only : iters rest = []
  run : ProgRun .single o (Simple.layout u) (Simple.code input) (@Simple.pops F arith B rev low u) (@Simple.projs F arith u delayIn delayLoop)
    (Simple.inputs u) u0 acts s (is.map Item.iter ++ rest)

variable {arith : Arith F} {o : Ops F} {rev low : F} {u : Simple.Uids} {delayIn delayLoop : Nat} {input : Nat → Bool} {u0 : σ} {acts : List (Act σ)}
  {s : Prog.State σ (Learn.Pop (Blifat F) B F) (Learn.Proj F) F} {is : List (Iter F)} {rest : List (Item F)}

private theorem time_at (h : SimpleRun B arith o rev low u delayIn delayLoop input u0 acts s is rest) {T : Nat} (hT : T < is.length) : is[T].time = T := by
  rw [(out_at h.run (split_at hT rest)).1, iters_only, List.length_take]
  omega

omit [Field F] [LinearOrder F] in
private theorem uids_eq : (@Simple.projs F arith u delayIn delayLoop).map (fun j => j.ident.uid) = [u.input, u.loop] := rfl

omit [Field F] [LinearOrder F] in
private theorem no_handlers : (Simple.layout u).handlerInputs = [] := rfl

/-- What the loop and the input projection hear. -/
private theorem hears (h : SimpleRun B arith o rev low u delayIn delayLoop input u0 acts s is rest) (r v : UID) :
    (learnHearing (@Simple.projs F arith u delayIn delayLoop) (Simple.inputs u ++ (Simple.layout u).handlerInputs)).spike r v = true ↔
      (r = u.loop ∧ v = u.pop) ∨ (r = u.input ∧ v = u.channel) := by
  unfold learnHearing
  rw [decide_eq_true_eq, no_handlers, List.append_nil]
  simp only [Simple.projs, Simple.projection, Simple.inputs, List.mem_cons, List.not_mem_nil, or_false, exists_eq_or_imp, exists_eq_left, Mnist.deltaSyns,
    trainersOf, Prod.mk.injEq]
  constructor
  · rintro (⟨h0, ⟨_, h1⟩ | ⟨h1, h2⟩⟩ | h1)
    · exact absurd h1.symm h0
    · exact .inl ⟨h1.symm, h2.symm⟩
    · exact .inr h1
  · rintro (⟨h1, h2⟩ | h1)
    · exact .inl ⟨by rw [h2]; exact h.distinct.pop, .inr ⟨h1.symm, h2.symm⟩⟩
    · exact .inr h1

private theorem heard_input (h : SimpleRun B arith o rev low u delayIn delayLoop input u0 acts s is rest) {T : Nat} (hT : T < is.length) :
    heardBy is[T].out u.input = message u.channel T (if input T then [0] else []) := by
  have hmem : u.input ∈ (@Simple.projs F arith u delayIn delayLoop).map (fun j => j.ident.uid) := by rw [uids_eq]; simp
  have hall : (heardBy is[T].out u.input).filter (fun x => decide (x.header.senderUid = u.channel)) = heardBy is[T].out u.input := by
    rw [List.filter_eq_self]
    intro x hx
    rw [decide_eq_true_eq]
    rw [heard_at h.run (split_at hT rest) u.input hmem] at hx
    rcases (hears h _ _).1 (List.mem_filter.1 hx).2 with h1 | h1
    · exact absurd h1.1 h.distinct.projections
    · exact h1.2
  have hc := (C120_channel (mid := []) h.run (by show [u.channel].Nodup; simp) (by rw [List.append_nil]; exact split_at hT rest) rfl (by
      rcases List.eq_nil_or_concat (is.take T) with h0 | ⟨a', i0, h0⟩
      · exact .inl (by rw [h0]; rfl)
      · exact .inr ⟨a'.map Item.iter, i0, by rw [h0]; simp⟩) 0 u.channel rfl
    (fun hc => by
      have hc : u.channel ∈ [u.pop] := hc
      exact h.distinct.channel (List.mem_singleton.1 hc)) (by simp [Simple.layout]) u.input hmem (by simp [Simple.inputs])).1
  rw [hall] at hc
  rw [hc]
  have hcode := C122_user_code h.run
  rw [split_at hT rest] at hcode
  have hfed := fed_at (fun _ t => if input t then [0] else []) (fun _ _ _ => rfl) _ _ _ _ _ _ hcode
  simp only [List.nil_append, List.flatMap_cons, List.flatMap_nil, List.append_nil, fedIn]
  rw [time_at h hT] at hfed ⊢
  rw [hfed]
  rfl

private theorem heard_loop (h : SimpleRun B arith o rev low u delayIn delayLoop input u0 acts s is rest) {T : Nat} (hT : T < is.length) :
    heardBy is[T].out u.loop = is[T].out.spikes := by
  have hmem : u.loop ∈ (@Simple.projs F arith u delayIn delayLoop).map (fun j => j.ident.uid) := by rw [uids_eq]; simp
  rw [heard_at h.run (split_at hT rest) u.loop hmem]
  simp only
  obtain ⟨h1, h2⟩ := C119_senders h.run (split_at hT rest)
  rw [List.filter_append]
  have e1 : (external (Simple.layout u) ((is.take T).map Item.iter) is[T]).filter (fun m =>
      (learnHearing (@Simple.projs F arith u delayIn delayLoop) (Simple.inputs u ++ (Simple.layout u).handlerInputs)).spike u.loop m.header.senderUid) = [] := by
    rw [List.filter_eq_nil_iff]
    intro m hm hh
    have hs : m.header.senderUid = u.channel := by
      rcases (h2 m hm).2 with h3 | h3
      · exact List.mem_singleton.1 h3
      · cases h3
    rcases (hears h _ _).1 hh with h3 | h3
    · exact h.distinct.channel (hs.symm.trans h3.2)
    · exact h.distinct.projections h3.1.symm
  have e2 : is[T].out.spikes.filter (fun m =>
      (learnHearing (@Simple.projs F arith u delayIn delayLoop) (Simple.inputs u ++ (Simple.layout u).handlerInputs)).spike u.loop m.header.senderUid) = is[T].out.spikes := by
    rw [List.filter_eq_self]
    intro m hm
    refine (hears h _ _).2 (.inl ⟨rfl, ?_⟩)
    exact List.mem_singleton.1 (h1.subset (List.mem_map_of_mem hm))
  rw [e1, e2, List.nil_append]

private theorem through (h : SimpleRun B arith o rev low u delayIn delayLoop input u0 acts s is rest) {inp : List (UID × UID)} {chans : Nat}
    {envs : List (Sys.Env F)} {sB : Learn.State (Learn.Pop (Blifat F) B F) (Learn.Proj F) F}
    (hl : LearnRun o (@Simple.pops F arith B rev low u) (@Simple.projs F arith u delayIn delayLoop) inp chans envs sB (is.map (fun i => i.out)))
    (hno : ∀ env ∈ envs, ∀ e im, Bus.Op.send e (.impact im) ∉ env) {n delay : Nat} {v pre : UID}
    (hj : (@Simple.projs F arith u delayIn delayLoop)[n]? = some (@Simple.projection F arith v pre u.pop delay)) (hd : 1 ≤ delay)
    (hb : is.length + delay < two64) {T : Nat} (hT : T < is.length) :
    impactsThrough v 0 (givenTo is[T].out u.pop) =
      (if delay ≤ T then List.replicate (spikesOf 0 (heardBy (((is.map (fun i => i.out)).getD (T - delay) ⟨[], [], [], []⟩)) v)) (@unit F arith) else []) ∧
    ∀ m ∈ givenTo is[T].out u.pop, m.header.senderUid = v → ∀ im ∈ m.impacts, im.connectionIndex = 0 := by
  have hlen : envs.length = is.length := by
    have h1 := hl.length
    rw [List.length_map] at h1
    exact h1.symm
  have hT' : T < (is.map (fun i => i.out)).length := by simpa using hT
  have hgT : (is.map (fun i => i.out))[T] = is[T].out := by simp
  have hsyn : (wired (@Simple.projection F arith v pre u.pop delay).syns).synapses = [⟨0, 0, (@unit F arith).impactValue, delay, .excitatory⟩] := rfl
  obtain ⟨g1, g2⟩ := C113_end_to_end hl (.plain u.pop (@blifat F arith) [@Simple.neuron F arith rev low]) (by unfold Simple.pops; simp) h.distinct.pop
    n _ hj rfl (Mnist.delta_find _) (by
      intro y hy
      rw [hsyn] at hy
      rw [List.mem_singleton.1 hy]
      refine ⟨by show 0 < Delta.two32; decide, by show 0 < Delta.two32; decide, hd, ?_⟩
      rw [hlen]
      exact hb) (fun env he e im hm => absurd hm (hno env he e im)) T hT'
  rw [hgT] at g1 g2
  refine ⟨?_, fun m hm hs im him => ?_⟩
  · obtain ⟨k1, k2⟩ := g1 0 _ (by rw [hsyn]; rfl)
    split
    · rename_i hle
      obtain ⟨s1, os1, j1, w, hr1, hj1, hw1, heq⟩ := k2 hle
      obtain ⟨j1', hj1', _, hs1⟩ := C58_run_delta hr1 n _ hj _ rfl
      rw [hj1] at hj1'
      simp only [Option.some.injEq] at hj1'
      subst hj1'
      rw [hs1] at hw1
      have hw1 : ([⟨0, 0, (@unit F arith).impactValue, delay, .excitatory⟩] : List (Delta.Syn F))[0]? = some w := hw1
      simp only [List.getElem?_cons_zero, Option.some.injEq] at hw1
      subst hw1
      exact heq
    · rename_i hle
      exact k1 (by show T < delay; omega)
  · obtain ⟨y, hy, _⟩ := g2 m hm hs im him
    rw [hsyn] at hy
    have := (List.getElem?_eq_some_iff.1 hy).1
    simp only [List.length_cons, List.length_nil] at this
    omega

/-- What the neuron gets: impacts of weight 1, at least one exactly if an input spike or a spike of its own is due. -/
private theorem reached (h : SimpleRun B arith o rev low u delayIn delayLoop input u0 acts s is rest) {inp : List (UID × UID)} {chans : Nat}
    {envs : List (Sys.Env F)} {sB : Learn.State (Learn.Pop (Blifat F) B F) (Learn.Proj F) F}
    (hl : LearnRun o (@Simple.pops F arith B rev low u) (@Simple.projs F arith u delayIn delayLoop) inp chans envs sB (is.map (fun i => i.out)))
    (hno : ∀ env ∈ envs, ∀ e im, Bus.Op.send e (.impact im) ∉ env) {T : Nat} (hT : T < is.length) :
    (∀ i ∈ addressed 0 (givenTo is[T].out u.pop), i.1.synapseType = .excitatory ∧ i.1.impactValue = (@unit F arith).impactValue) ∧
    (addressed 0 (givenTo is[T].out u.pop) ≠ [] ↔ (∃ t, t + delayIn = T ∧ input t = true) ∨
      ∃ t, ∃ ht : t < is.length, t + delayLoop = T ∧ spikesOf 0 is[t].out.spikes ≠ 0) := by
  have hsm := h.small
  have ha := through h hl hno (n := 0) (v := u.input) (pre := 0) (delay := delayIn) rfl h.late (by generalize two64 = b at hsm ⊢; omega) hT
  have hb := through h hl hno (n := 1) (v := u.loop) (pre := u.pop) (delay := delayLoop) rfl h.later (by generalize two64 = b at hsm ⊢; omega) hT
  have hT' : T < (is.map (fun i => i.out)).length := by simpa using hT
  have hgT : (is.map (fun i => i.out))[T] = is[T].out := by simp
  have hget : ∀ t, t ≤ T → ∃ ht : t < is.length, (is.map (fun i => i.out)).getD t ⟨[], [], [], []⟩ = is[t].out := by
    intro t ht
    refine ⟨by omega, ?_⟩
    rw [List.getD_eq_getElem?_getD, List.getElem?_map, List.getElem?_eq_getElem (by omega)]; rfl
  have key : ∀ x ∈ addressed 0 (givenTo is[T].out u.pop), x.1 = @unit F arith ∧
      (x.1 ∈ impactsThrough u.input 0 (givenTo is[T].out u.pop) ∨ x.1 ∈ impactsThrough u.loop 0 (givenTo is[T].out u.pop)) := by
    intro x hx
    obtain ⟨m, hm, h1, h2, _⟩ := (addressed_iff _ _).1 hx
    obtain ⟨_, j, hj, _, hju⟩ := C113_senders hl (.plain u.pop (@blifat F arith) [@Simple.neuron F arith rev low]) (by unfold Simple.pops; simp) T hT' m
      (by rw [hgT]; exact hm)
    have hj : j = _ ∨ j ∈ [_] := List.mem_cons.1 hj
    have hcase : x.1 ∈ impactsThrough u.input 0 (givenTo is[T].out u.pop) ∨ x.1 ∈ impactsThrough u.loop 0 (givenTo is[T].out u.pop) := by
      rcases hj with rfl | hj
      · have hju : u.input = m.header.senderUid := hju
        exact .inl ((through_iff _ _ _).2 ⟨m, hm, hju.symm, h1, ha.2 m hm hju.symm _ h1⟩)
      · rw [List.mem_singleton.1 hj] at hju
        have hju : u.loop = m.header.senderUid := hju
        exact .inr ((through_iff _ _ _).2 ⟨m, hm, hju.symm, h1, hb.2 m hm hju.symm _ h1⟩)
    refine ⟨?_, hcase⟩
    rcases hcase with hc | hc
    · rw [ha.1] at hc
      split at hc
      · exact List.eq_of_mem_replicate hc
      · cases hc
    · rw [hb.1] at hc
      split at hc
      · exact List.eq_of_mem_replicate hc
      · cases hc
  refine ⟨fun x hx => by rw [(key x hx).1]; exact ⟨rfl, rfl⟩, ?_⟩
  have hback : ∀ v, @unit F arith ∈ impactsThrough v 0 (givenTo is[T].out u.pop) → addressed 0 (givenTo is[T].out u.pop) ≠ [] := by
    intro v hv he
    obtain ⟨m, hm, _, h1, _⟩ := (through_iff _ _ _).1 hv
    have : (@unit F arith, m.isForcing) ∈ addressed 0 (givenTo is[T].out u.pop) := (addressed_iff _ _).2 ⟨m, hm, h1, rfl, rfl⟩
    rw [he] at this
    cases this
  have hin : ∀ t, t + delayIn = T → spikesOf 0 (heardBy ((is.map (fun i => i.out)).getD (T - delayIn) ⟨[], [], [], []⟩) u.input) = if input t then 1 else 0 := by
    intro t ht
    obtain ⟨h1, h2⟩ := hget (T - delayIn) (by omega)
    have e : T - delayIn = t := by omega
    rw [h2, heard_input h h1, count_message, e]
    split <;> rfl
  have hown : ∀ t, t + delayLoop = T → ∃ ht : t < is.length,
      heardBy ((is.map (fun i => i.out)).getD (T - delayLoop) ⟨[], [], [], []⟩) u.loop = is[t].out.spikes := by
    intro t ht
    have e : T - delayLoop = t := by omega
    rw [e]
    obtain ⟨h1, h2⟩ := hget t (by omega)
    exact ⟨h1, by rw [h2, heard_loop h h1]⟩
  constructor
  · intro hne
    obtain ⟨x, hx⟩ := List.exists_mem_of_ne_nil _ hne
    rcases (key x hx).2 with hc | hc
    · rw [ha.1] at hc
      split at hc
      · rename_i hle
        have hz := (List.mem_replicate.1 hc).1
        rw [hin (T - delayIn) (by omega)] at hz
        refine .inl ⟨T - delayIn, by omega, ?_⟩
        by_contra hn
        exact hz (if_neg hn)
      · cases hc
    · rw [hb.1] at hc
      split at hc
      · rename_i hle
        have hz := (List.mem_replicate.1 hc).1
        obtain ⟨h1, h2⟩ := hown (T - delayLoop) (by omega)
        rw [h2] at hz
        exact .inr ⟨T - delayLoop, h1, by omega, hz⟩
      · cases hc
  · rintro (⟨t, ht, hi⟩ | ⟨t, h1, ht, hz⟩)
    · apply hback u.input
      rw [ha.1, if_pos (by omega), hin t ht, if_pos hi]
      simp
    · apply hback u.loop
      obtain ⟨_, h2⟩ := hown t ht
      rw [hb.1, if_pos (by omega), h2]
      exact List.mem_replicate.2 ⟨hz, rfl⟩

omit [Field F] [LinearOrder F] in
private theorem ready_start : @Ready F arith rev low 0 (@Simple.neuron F arith rev low) where
  activation := rfl
  additional := rfl
  dynamic := rfl
  thresholdDecay := rfl
  thresholdIncrement := rfl
  conductance := rfl
  conductanceDecay := rfl
  potential := rfl
  potentialDecay := rfl
  burstingPhase := rfl
  burstingPeriod := rfl
  reversal := rfl
  refractory := rfl
  resetValue := rfl
  minPotential := rfl
  blocking := by show i64max = i64max - ((0 : Nat) : Int); simp
  since := .inl ⟨rfl, rfl⟩

theorem rings_iff (T : Nat) : Rings delayIn delayLoop input T ↔
    (∃ t, t + delayIn = T ∧ input t = true) ∨ ∃ t, t + delayLoop = T ∧ Rings delayIn delayLoop input t := by
  constructor
  · rintro (⟨t, ht⟩ | ⟨t, ht⟩)
    · exact .inl ⟨t, rfl, ht⟩
    · exact .inr ⟨t, rfl, ht⟩
  · rintro (⟨t, rfl, ht⟩ | ⟨t, rfl, ht⟩)
    · exact .input t ht
    · exact .again t ht

/-- The spikes of step `t` are those of a neuron that fires exactly if `r`. -/
private def Fires (v : UID) (t : Nat) (r : Prop) (l : List SpikeMessage) : Prop := (r → l = [⟨⟨v, t⟩, [0]⟩]) ∧ (¬ r → l = [])

private theorem fires_count {v : UID} {t : Nat} {r : Prop} {l : List SpikeMessage} (h : Fires v t r l) : spikesOf 0 l ≠ 0 ↔ r := by
  by_cases hr : r
  · rw [h.1 hr]
    exact ⟨fun _ => hr, fun _ => by simp [spikesOf]⟩
  · rw [h.2 hr]
    exact ⟨fun hc => absurd rfl hc, fun hc => absurd hc hr⟩

private theorem steps (h : SimpleRun B arith o rev low u delayIn delayLoop input u0 acts s is rest) {inp : List (UID × UID)} {chans : Nat}
    {envs : List (Sys.Env F)} {sB : Learn.State (Learn.Pop (Blifat F) B F) (Learn.Proj F) F}
    (hl : LearnRun o (@Simple.pops F arith B rev low u) (@Simple.projs F arith u delayIn delayLoop) inp chans envs sB (is.map (fun i => i.out)))
    (hno : ∀ env ∈ envs, ∀ e im, Bus.Op.send e (.impact im) ∉ env) : ∀ T, T ≤ is.length →
    (∀ t, ∀ ht : t < is.length, t < T → Fires u.pop t (Rings delayIn delayLoop input t) is[t].out.spikes) ∧
    ∃ s0 os0, LearnRun o (@Simple.pops F arith B rev low u) (@Simple.projs F arith u delayIn delayLoop) inp chans (envs.take T) s0 os0 ∧
      ∃ x, s0.pops[0]? = some (.plain u.pop (@blifat F arith) [x]) ∧ @Ready F arith rev low T x := by
  intro T
  induction T with
  | zero =>
    intro _
    refine ⟨fun t _ h0 => absurd h0 (by omega), ?_⟩
    obtain ⟨s0, h0⟩ := hl.upTo 0
    refine ⟨s0, _, h0, @Simple.neuron F arith rev low, ?_, ready_start⟩
    have := h0.run
    rw [List.take_zero] at this
    simp only [Learn.runSingle, Outcome.ok.injEq, Prod.mk.injEq] at this
    rw [← this.1]
    rfl
  | succ T ih =>
    intro hT1
    have hT : T < is.length := by omega
    obtain ⟨hprev, s0, os0, h0, x, hx, hready⟩ := ih (by omega)
    obtain ⟨s1, h1⟩ := hl.upTo (T + 1)
    have hT' : T < (is.map (fun i => i.out)).length := by simpa using hT
    have hgT : (is.map (fun i => i.out))[T] = is[T].out := by simp
    obtain ⟨hform, hdue⟩ := reached h hl hno hT
    have hrings : addressed 0 (givenTo is[T].out u.pop) ≠ [] ↔ Rings delayIn delayLoop input T := by
      rw [hdue, rings_iff]
      refine or_congr Iff.rfl ⟨?_, ?_⟩
      · rintro ⟨t, ht, he, hs⟩
        have := h.later
        exact ⟨t, he, (fires_count (hprev t ht (by omega))).1 hs⟩
      · rintro ⟨t, he, hs⟩
        have := h.later
        exact ⟨t, by omega, he, (fires_count (hprev t (by omega) (by omega))).2 hs⟩
    have hzero : T = 0 → addressed 0 (givenTo is[T].out u.pop) = [] := by
      intro hz
      by_contra hne
      have e1 := h.late
      have e2 := h.later
      rcases hdue.1 hne with ⟨t, ht, _⟩ | ⟨t, _, ht, _⟩ <;> omega
    have htime : (T : Int) < i64max := by
      have := h.time
      omega
    obtain ⟨x', hstep, hready'⟩ := @ready_step F arith rev low h.counts T x hready htime (addressed 0 (givenTo is[T].out u.pop)) hform hzero
    obtain ⟨ns', hns, hlen, hneuron⟩ := C115_plain_neuron hl T hT' h0 h1 0 _ _ _ hx
    obtain ⟨spiked, hsl, hsp, hmsg⟩ := C115_message hl T hT' h0 h1 0 _ _ _ hx
    rw [hgT] at hneuron hsp hmsg
    obtain ⟨x1, b1, e1, e2, _⟩ := hneuron 0 x rfl
    obtain ⟨x2, b2, e3, e4⟩ := hsp 0 x rfl
    rw [hstep] at e1 e3
    simp only [Outcome.ok.injEq, Prod.mk.injEq] at e1 e3
    obtain ⟨rfl, _⟩ := e1
    obtain ⟨_, rfl⟩ := e3
    have hspiked : spiked = [!(addressed 0 (givenTo is[T].out u.pop)).isEmpty] := by
      match spiked, hsl, e4 with
      | [b], _, e4 =>
        simp only [List.getElem?_cons_zero, Option.some.injEq] at e4
        rw [e4]
    refine ⟨fun t ht hlt => ?_, s1, _, h1, x', ?_, hready'⟩
    · rcases Nat.lt_or_ge t T with hlt' | hge
      · exact hprev t ht hlt'
      · have ht' : t = T := by omega
        subst ht'
        have hsub := (C119_senders h.run (split_at hT rest)).1
        have hsend : ∀ m ∈ is[t].out.spikes, m.header.senderUid = u.pop := fun m hm =>
          List.mem_singleton.1 (hsub.subset (List.mem_map_of_mem hm))
        have hshort : is[t].out.spikes.length ≤ 1 := by
          have := hsub.length_le
          simpa [Simple.pops] using this
        refine ⟨fun hr => ?_, fun hr => ?_⟩
        · have hne := hrings.2 hr
          have hb : spiked = [true] := by
            rw [hspiked]
            cases he : addressed 0 (givenTo is[t].out u.pop) with
            | nil => exact absurd he hne
            | cons _ _ => rfl
          have hin := (hmsg ⟨⟨u.pop, t⟩, [0]⟩ rfl).2 ⟨by rw [hb]; simp, by rw [hb]; rfl⟩
          match hl : is[t].out.spikes, hshort, hin with
          | [m], _, hin => rw [List.mem_singleton.1 hin]
        · have he : addressed 0 (givenTo is[t].out u.pop) = [] := by
            by_contra hne
            exact hr (hrings.1 hne)
          have hb : spiked = [false] := by rw [hspiked, he]; rfl
          rw [List.eq_nil_iff_forall_not_mem]
          intro m hm
          have := ((hmsg m (hsend m hm)).1 hm).1
          rw [hb] at this
          simp at this
    · rw [hns]
      match ns', hlen, e2 with
      | [y], _, e2 =>
        simp only [List.getElem?_cons_zero, Option.some.injEq] at e2
        rw [e2]

omit [Field F] [LinearOrder F] in
private theorem valid (hd : Distinct u) : ValidNet (fun w v => v = w) (@Simple.pops F arith B rev low u) (@Simple.projs F arith u delayIn delayLoop) where
  popUids := by show [u.pop].Nodup; simp
  projUids := by
    show [u.input, u.loop].Nodup
    simp [hd.projections]
  queues := by
    intro j hj
    simp only [Simple.projs, List.mem_cons, List.not_mem_nil, or_false] at hj
    rcases hj with rfl | rfl <;> rfl
  sizes := by
    intro p hp
    rw [List.mem_singleton.1 hp]
    show 1 ≤ 2 ^ 32
    decide
  targets := by
    intro j hj p hp _ y hy
    rw [List.mem_singleton.1 hp]
    simp only [Simple.projs, List.mem_cons, List.not_mem_nil, or_false] at hj
    rcases hj with rfl | rfl <;> · rw [List.mem_singleton.1 hy]; exact Nat.one_pos
  types := by
    intro j hj p hp _ y hy v _
    rw [List.mem_singleton.1 hp]
    have ht : y.outType = .excitatory := by
      simp only [Simple.projs, List.mem_cons, List.not_mem_nil, or_false] at hj
      rcases hj with rfl | rfl <;> · rw [List.mem_singleton.1 hy]
    rw [ht]
    intro n i forcing h1 _
    show (@blifatImpact F arith n i forcing).isOk = true
    unfold blifatImpact
    rw [h1]
    rfl

end

end SimpleNet

open SimpleNet

section
variable {σ B F : Type} [Field F] [LinearOrder F]
variable {arith : Arith F} {o : Ops F} {rev low : F} {u : Simple.Uids} {delayIn delayLoop : Nat} {input : Nat → Bool} {u0 : σ} {acts : List (Act σ)}
  {s : Prog.State σ (Learn.Pop (Blifat F) B F) (Learn.Proj F) F} {is : List (Iter F)} {rest : List (Item F)}

/-- C170, spikes.  In every step of the program, for every input and all delays: the neuron of the example sends one spike message, with its only index, if
an input spike or a spike of its own is due in this step, and nothing else is sent by the network. -/
theorem C170_spikes (h : SimpleRun B arith o rev low u delayIn delayLoop input u0 acts s is rest) (T : Nat) (hT : T < is.length) :
    (Rings delayIn delayLoop input T → is[T].out.spikes = [⟨⟨u.pop, T⟩, [0]⟩]) ∧ (¬ Rings delayIn delayLoop input T → is[T].out.spikes = []) := by
  obtain ⟨envs, sB, hl, _, _, _, hno⟩ := C119_learn_run h.run
  rw [iters_run h.only] at hl
  exact (steps h hl hno (T + 1) (by omega)).1 T hT (by omega)

/-- C170, when the neuron fires: an input spike plus the input delay plus any number of rounds of the loop. -/
theorem C170_rounds (delayIn delayLoop : Nat) (input : Nat → Bool) (T : Nat) : Rings delayIn delayLoop input T ↔
    ∃ t k, input t = true ∧ T = t + delayIn + k * delayLoop := by
  constructor
  · intro h
    induction h with
    | input t ht => exact ⟨t, 0, ht, by omega⟩
    | again _ _ ih =>
      obtain ⟨t, k, h1, h2⟩ := ih
      exact ⟨t, k + 1, h1, by rw [h2, Nat.add_mul]; omega⟩
  · rintro ⟨t, k, h1, rfl⟩
    induction k with
    | zero => rw [Nat.zero_mul]; exact .input t h1
    | succ k ih =>
      have e : t + delayIn + (k + 1) * delayLoop = t + delayIn + k * delayLoop + delayLoop := by rw [Nat.add_mul]; omega
      rw [e]
      exact .again _ ih

/-- C170, the example: with input in the steps divisible by 5, delays 1 and 6, the neuron fires in step `T` exactly if `T - 1` is a sum of fives and sixes,
and so in every step from 21 on. -/
theorem C170_closed_form (T : Nat) : (Rings 1 6 (fun t => t % 5 == 0) T ↔ 6 * ((T + 4) % 5) + 1 ≤ T) ∧ (21 ≤ T → Rings 1 6 (fun t => t % 5 == 0) T) := by
  have key : Rings 1 6 (fun t => t % 5 == 0) T ↔ 6 * ((T + 4) % 5) + 1 ≤ T := by
    rw [C170_rounds]
    constructor
    · rintro ⟨t, k, h1, rfl⟩
      have h1 : t % 5 = 0 := by simpa using h1
      have h2 : (t + 1 + k * 6 + 4) % 5 = k % 5 := by omega
      rw [h2]
      omega
    · intro h
      exact ⟨T - 1 - 6 * ((T + 4) % 5), (T + 4) % 5, by simp only [beq_iff_eq]; omega, by omega⟩
  exact ⟨key, fun h => key.2 (by omega)⟩

/-- C170, the program.  For every input and all delays, `start` with the predicate `step < n` makes exactly `n` steps and returns, and what is printed
afterwards are exactly the steps below `n` in which the neuron fires, ascending. -/
theorem C170_program (hc : @Counts F arith rev low) (hd : Distinct u) (h1 : 1 ≤ delayIn) (h2 : 1 ≤ delayLoop) (o : Ops F) (u0 : σ) (n : Nat)
    (hn : n + delayIn + delayLoop < two64) (ht : (n : Int) ≤ i64max) (rings : Nat → Bool) (hr : ∀ T, rings T = true ↔ Rings delayIn delayLoop input T) :
    ∃ (s : Prog.State σ (Learn.Pop (Blifat F) B F) (Learn.Proj F) F) (is : List (Iter F)) (rest : List (Item F)),
      Prog.start ((Prog.Backend.single : Prog.Backend F).step o) (Simple.layout u) (Simple.code input) (Simple.pred n) (n + 1)
        (Prog.boot (Learn.machine o) (Simple.layout u) (@Simple.pops F arith B rev low u) (@Simple.projs F arith u delayIn delayLoop)
          (Simple.inputs u) u0) = some (.ok (s, is.map Item.iter ++ rest)) ∧
      is.length = n ∧ (∃ acts, SimpleRun B arith o rev low u delayIn delayLoop input u0 acts s is rest) ∧
      Simple.printed u s = (List.range n).filter rings := by
  have hv := valid (B := B) (arith := arith) (rev := rev) (low := low) (delayIn := delayIn) (delayLoop := delayLoop) hd
  obtain ⟨s, tr, hrun⟩ := C162_program o (Simple.layout u) (Simple.code input) hv (Simple.inputs u) u0
    ((List.range n).map (fun k => Act.iterate (fun u => (Simple.pred n u (0 + k)).2)) ++ [.halt (fun u => (Simple.pred n u (0 + n)).2)]) (by
        intro x hx
        rcases List.mem_append.1 hx with hx | hx
        · obtain ⟨k, _, rfl⟩ := List.mem_map.1 hx
          trivial
        · simp only [List.mem_singleton] at hx
          subst hx
          trivial)
  have hstart := C119_start_returns .single o (Simple.pred n) n _ s tr hrun
    (fun k hk u => by
      show decide (0 + k < n) = true
      exact decide_eq_true (by omega))
    (fun u => by
      show decide (0 + n < n) = false
      exact decide_eq_false (by omega))
  obtain ⟨m, is, fed, e1, e2, e3, e4⟩ := C119_start .single o (Simple.pred n) _ _ _ _ hstart
  obtain ⟨e5, e6⟩ := e4 (fun t => decide (t < n)) (fun _ _ => rfl)
  have hm : m = n := by
    have a1 : ¬ (0 + m < n) := of_decide_eq_false e5
    rcases Nat.lt_or_ge n m with hlt | hge
    · have a2 : 0 + n < n := of_decide_eq_true (e6 n hlt)
      omega
    · omega
  subst hm
  subst e1
  have hprog : ProgRun .single o (Simple.layout u) (Simple.code input) (@Simple.pops F arith B rev low u) (@Simple.projs F arith u delayIn delayLoop)
    (Simple.inputs u) u0 _ s _ := ⟨hv.popUids, hv.projUids, hv.queues, e3⟩
  have hsr : SimpleRun B arith o rev low u delayIn delayLoop input u0 _ s is _ :=
    ⟨hc, hd, h1, h2, by rw [e2]; exact hn, by rw [e2]; exact ht, rfl, hprog⟩
  refine ⟨s, is, _, hstart, e2, ⟨_, hsr⟩, ?_⟩
  have hout : (Simple.layout u).outputs[0]? = some (u.out, [u.pop]) := rfl
  have hu := (C116_update hprog 0 _ hout).1
  have hcon := C116_contents hprog 0 _ hout
  have hp := C116_populations hprog 0 _ hout
    (fun v hv hc => by
      have hv : v ∈ [u.pop] := hv
      have hc : v ∈ [u.channel] := hc
      exact hd.channel ((List.mem_singleton.1 hc).symm.trans (List.mem_singleton.1 hv)))
    (fun v _ hc => by cases hc)
    (fun it hit x y got hc => by
      rcases List.mem_append.1 hit with hit | hit
      · obtain ⟨i, _, rfl⟩ := List.mem_map.1 hit
        cases hc
      · rw [List.mem_singleton.1 hit] at hc
        cases hc)
  rw [hcon] at hp
  simp only [Option.some.injEq, Io.OutputChannel.mk.injEq, iters_run hsr.only] at hp
  unfold Simple.printed
  rw [hu, hp]
  have hall : ∀ (T : Nat) (hT : T < is.length), is[T].out.spikes.filter (fun x => decide (x.header.senderUid ∈ [u.pop])) =
      if rings T then [⟨⟨u.pop, T⟩, [0]⟩] else [] := by
    intro T hT
    obtain ⟨a1, a2⟩ := C170_spikes hsr T hT
    by_cases hT' : rings T = true
    · rw [if_pos hT', a1 ((hr T).1 hT')]
      simp
    · rw [if_neg hT', a2 (fun hc => hT' ((hr T).2 hc))]
      rfl
  have gen : ∀ (l : List (Iter F)) (a : Nat), (∀ (T : Nat) (hT : T < l.length), l[T].out.spikes.filter (fun x => decide (x.header.senderUid ∈ [u.pop])) =
      if rings (a + T) then [⟨⟨u.pop, a + T⟩, [0]⟩] else []) →
      (l.flatMap (fun i => i.out.spikes.filter (fun x => decide (x.header.senderUid ∈ [u.pop])))).map (fun m => m.header.sendTime) =
        (List.range' a l.length).filter rings := by
    intro l
    induction l with
    | nil => intro a _; rfl
    | cons i l ih =>
      intro a hl
      have h0 := hl 0 (by simp)
      simp only [List.getElem_cons_zero, Nat.add_zero] at h0
      rw [List.flatMap_cons, List.map_append, h0, ih (a + 1) (fun T hT => by
        have := hl (T + 1) (by simpa using hT)
        rw [List.getElem_cons_succ] at this
        rw [this, show a + 1 + T = a + (T + 1) by omega]), List.length_cons, List.range'_succ]
      by_cases hb : rings a = true
      · rw [if_pos hb, List.filter_cons_of_pos hb]; rfl
      · rw [if_neg hb, List.filter_cons_of_neg hb]; rfl
  rw [List.range_eq_range', ← e2]
  exact gen is 0 (fun T hT => by rw [Nat.zero_add]; exact hall T hT)

/-- C170, the example as it is: it makes 20 steps and prints `1 6 7 11 12 13 16 17 18 19`. -/
theorem C170_example (hc : @Counts F arith rev low) (hd : Distinct u) (o : Ops F) (u0 : σ) :
    ∃ (s : Prog.State σ (Learn.Pop (Blifat F) B F) (Learn.Proj F) F) (is : List (Iter F)) (rest : List (Item F)),
      Prog.start ((Prog.Backend.single : Prog.Backend F).step o) (Simple.layout u) (Simple.code (fun t => t % 5 == 0)) (Simple.pred 20) 21
        (Prog.boot (Learn.machine o) (Simple.layout u) (@Simple.pops F arith B rev low u) (@Simple.projs F arith u 1 6) (Simple.inputs u) u0) =
          some (.ok (s, is.map Item.iter ++ rest)) ∧
      is.length = 20 ∧ Simple.printed u s = [1, 6, 7, 11, 12, 13, 16, 17, 18, 19] := by
  obtain ⟨s, is, rest, h1, h2, _, h4⟩ := C170_program (B := B) (input := fun t => t % 5 == 0) hc hd (by decide : 1 ≤ 1) (by decide : 1 ≤ 6) o u0 20
    (by decide) (by decide) (fun T => decide (6 * ((T + 4) % 5) + 1 ≤ T)) (fun T => by rw [decide_eq_true_eq]; exact (C170_closed_form T).1.symm)
  refine ⟨s, is, rest, h1, h2, h4.trans ?_⟩
  decide

end

/-! ## The hypotheses hold -/

namespace SimpleEx

@[reducible] def arith : Arith ℚ := LearnEx.arith
def u : Simple.Uids := ⟨1, 10, 11, 50, 60⟩

theorem ones_eq : ∀ n : Nat, @ones ℚ arith n = (n : ℚ)
  | 0 => rfl
  | n + 1 => by
    have : @ones ℚ arith (n + 1) = @ones ℚ arith n + (1 : ℚ) := rfl
    rw [this, ones_eq n]
    push_cast
    rfl

/-- C170: exact arithmetic counts. -/
theorem counts : @Counts ℚ arith (-3 / 10) (-1000000000) :=
  @Counts.mk ℚ arith _ _ (by decide +kernel) (by decide +kernel) (by decide +kernel) (by decide +kernel) (by decide +kernel)
    (by
      intro n
      rw [ones_eq]
      show decide ((1 : ℚ) ≤ ((n + 1 : Nat) : ℚ)) = true
      rw [decide_eq_true_eq]
      push_cast
      have : (0 : ℚ) ≤ (n : ℚ) := Nat.cast_nonneg n
      linarith)
    (by
      intro n
      show (@ones ℚ arith n : ℚ) - (@ones ℚ arith n - (-3 / 10)) * 0 = @ones ℚ arith n
      ring)
    (by decide +kernel)

theorem distinct : Distinct u := ⟨by decide, by decide, by decide⟩

/-- C170: other delays and another input: one spike in step 2, delays 3 and 4, 15 steps. -/
def result := Prog.start ((Prog.Backend.single : Prog.Backend ℚ).step StdpEx.o) (Simple.layout u) (Simple.code (σ := Unit) (fun t => t == 2)) (Simple.pred 15) 16
  (Prog.boot (Learn.machine StdpEx.o) (Simple.layout u) (@Simple.pops ℚ arith Unit (-3 / 10) (-1000000000) u) (@Simple.projs ℚ arith u 3 4) (Simple.inputs u) ())

example : (match result with
    | some (.ok (s, _)) => Simple.printed u s
    | _ => []) = [5, 9, 13] := by decide +kernel

end SimpleEx

end Knp.Props
