import Verif.Lemmas.LearnRule
import Verif.Props.Learn
import Verif.Props.StdpTrain

/-!
# C176: learning in a running network, neuron by neuron

C115 says that a population of trained neurons takes its step and is then trained; C173 says what training does.  Here both are put together, for
every step of every run of the single-threaded backend: what becomes of a neuron and of its trained synapses is one formula of what they were before the
step and of the impacts addressed to the neuron.
-/

namespace Knp.Props
open Knp Knp.Spec Knp.Neurons Knp.Sys Knp.Stdp Knp.Spec.OneNeuron Knp.Lemmas.Stdp

section
variable {N B F : Type} [Field F] [LinearOrder F]
variable {o : Ops F} {pops : List (Learn.Pop N B F)} {projs : List (Learn.Proj F)} {inputs : List (UID × UID)}
  {chans : Nat} {envs : List (Sys.Env F)} {s : Learn.State (Learn.Pop N B F) (Learn.Proj F) F} {os : List (Sys.StepOut F)}

private theorem flow' (h : LearnRun o pops projs inputs chans envs s os) :
    learnRun (Learn.machine o) (learnHearing projs inputs) 0 pops projs [] (envs.map (extOf chans)) =
      .ok ((s.pops, s.projs), os) := by
  rw [← C111_dataflow o pops projs inputs chans h.popUids h.projUids envs h.foreign, h.run]
  rfl

omit [Field F] [LinearOrder F] in
/-- The neurons of a population in one step; the message names each neuron that spikes once. -/
private theorem stepNeurons {M : Type} {k : Kind M F} {u : UID} {t : Nat} {ns ns' : List M} {ms : List (SynapticImpactMessage F)}
    {sp : Option SpikeMessage} (h : stepPopulation k u t ns ms = .ok (ns', sp)) :
    (Learn.spikedIn sp).Nodup ∧ (∀ m ∈ sp.toList, m.header = ⟨u, t⟩) ∧
    ∀ (i : Nat) (x : M), ns[i]? = some x → ∃ x', neuronStep k x (addressed i ms) = .ok (x', decide (i ∈ Learn.spikedIn sp)) ∧ ns'[i]? = some x' := by
  obtain ⟨_, spiked, hl, hn, hs⟩ := C55_each_neuron k u t ns ns' ms sp h
  have hin : ∀ i, i ∈ Learn.spikedIn sp ↔ spiked[i]? = some true := by
    intro i
    rw [hs]
    split
    · rename_i hall
      constructor
      · intro hi; cases hi
      · intro hi
        have := (List.all_eq_true.1 hall) true (List.mem_of_getElem? hi)
        simp at this
    · simp only [Learn.spikedIn, List.mem_filter, List.mem_range, beq_iff_eq, and_iff_right_iff_imp]
      intro hi
      rw [← hl]
      exact (List.getElem?_eq_some_iff.1 hi).1
  refine ⟨?_, ?_, ?_⟩
  · rw [hs]
    split
    · exact List.nodup_nil
    · exact List.Nodup.filter _ List.nodup_range
  · intro m hm
    rw [hs] at hm
    split at hm
    · simp at hm
    · simp only [Option.toList_some, List.mem_singleton] at hm
      rw [hm]
  · intro i x hx
    obtain ⟨x', b, e1, e2, e3⟩ := hn i x hx
    refine ⟨x', ?_, e2⟩
    rw [e1]
    congr 2
    cases b with
    | true => simpa using (hin i).2 e3
    | false =>
      have : ¬ i ∈ Learn.spikedIn sp := fun hi => by
        have := (hin i).1 hi
        rw [e3] at this
        cases this
      simpa using this

/-- C176. Learning in a running network: in step `t`, a neuron of a trained population takes its own step with exactly the impacts addressed to it; it is in
the population's spike message exactly if that step says it spikes; then the learning rule of one neuron (`Spec.OneNeuron.learned`), with the trained synapses
that end in it as they were before the step, gives the neuron and these synapses after the step.  Nothing else in the network has a part in it: no other
neuron, no other population trained before or after it in the same step.  What may differ from the rule are the recorded steps of the last spikes of the
sources, which the projections write at the end of the step (C112). -/
theorem C176_learning (h : LearnRun o pops projs inputs chans envs s os) (hf : ∀ j ∈ projs, FindOk (trainable j)) (t : Nat) (ht : t < os.length)
    {s0 s1 : Learn.State (Learn.Pop N B F) (Learn.Proj F) F} {os0 os1 : List (Sys.StepOut F)}
    (h0 : LearnRun o pops projs inputs chans (envs.take t) s0 os0)
    (h1 : LearnRun o pops projs inputs chans (envs.take (t + 1)) s1 os1) (n : Nat) (u : UID) (k : Kind (Res B F) F)
    (b : BaseOps B F) (hb : Lawful b) (ns : List (Res B F)) (hp : s0.pops[n]? = some (.trained u k b ns)) :
    ∃ ns', s1.pops[n]? = some (.trained u k b ns') ∧ ns'.length = ns.length ∧
      ∀ (i : Nat) (x : Res B F), ns[i]? = some x →
        ∃ x' c, neuronStep k x (addressed i (givenTo os[t] u)) = .ok (x', c) ∧
          (c = true ↔ ∃ m ∈ os[t].spikes, m.header = ⟨u, t⟩ ∧ i ∈ m.neuronIndexes) ∧
          ns'[i]? = some (learned o b t c (x', incoming u (s0.projs.map trainable) i)).1 ∧
          (incoming u (s1.projs.map trainable) i).map untimed = (learned o b t c (x', incoming u (s0.projs.map trainable) i)).2.map untimed := by
  simp only [← toR_eq] at hf ⊢
  have hf' : ∀ r ∈ projs.map Learn.Proj.toR, FindOk r := by
    intro r hr
    obtain ⟨j, hj, rfl⟩ := List.mem_map.1 hr
    exact hf j hj
  obtain ⟨st0, st1, pend, ext, e1, e2, e3⟩ := Learn.learnRun_at _ _ _ _ _ _ _ t ht (flow' h)
  have f0 := flow' h0
  have f1 := flow' h1
  have hnd : (s0.pops.map Learn.Pop.uid).Nodup := by
    rw [Learn.learnRun_popUids _ _ _ _ _ _ _ f0]; exact h.popUids
  have hf0 := Learn.learnRun_findOk _ _ _ _ _ _ _ f0 h.popUids hf'
  rw [List.map_take, e1] at f0
  rw [List.map_take, e2] at f1
  simp only [Outcome.ok.injEq, Prod.mk.injEq] at f0 f1
  rw [f0.1, f1.1, Nat.zero_add] at e3
  obtain ⟨a, a', p1, sp, g1, g2, g3, g4, g5, g6⟩ := (Learn.learnStep_view e3 hnd hf0).2 n _ hp
  unfold Learn.popStep at g1
  simp only [Learn.Pop.uid] at g1 g3 g5 g6
  cases hs : stepPopulation k u t ns (givenTo os[t] u) with
  | throw w => rw [hs] at g1; cases g1
  | ub => rw [hs] at g1; cases g1
  | ok r =>
    rw [hs] at g1
    simp only at g1
    cases htr : train o b u (Learn.spikedIn r.2) t ⟨r.1, a.map Learn.Proj.toR⟩ with
    | throw w => rw [htr] at g1; cases g1
    | ub => rw [htr] at g1; cases g1
    | ok st =>
      rw [htr] at g1
      simp only [Outcome.ok.injEq, Prod.mk.injEq] at g1
      obtain ⟨⟨q1, q2⟩, q3⟩ := g1
      subst q3
      obtain ⟨w1, w2, w3⟩ := stepNeurons hs
      have hl : st.neurons.length = ns.length := by
        rw [(train_frame htr).2.2.2]
        exact (C55_each_neuron k u t ns r.1 _ r.2 hs).1
      refine ⟨st.neurons, by rw [g2, ← q1], hl, ?_⟩
      intro i x hx
      obtain ⟨x', v1, v2⟩ := w3 i x hx
      obtain ⟨z1, z2⟩ := C173_training hb g4 w1 htr i x' v2
      simp only at z1 z2
      rw [g3 i] at z1 z2
      refine ⟨x', _, v1, ?_, z1, ?_⟩
      · rw [decide_eq_true_iff]
        constructor
        · intro hi
          cases hsp : r.2 with
          | none => rw [hsp] at hi; cases hi
          | some m =>
            rw [hsp] at hi
            have hm := w2 m (by rw [hsp]; simp)
            exact ⟨m, (g6 m (by rw [hm])).2 (by rw [hsp]; simp), hm, hi⟩
        · rintro ⟨m, hm, hh, hi⟩
          have := (g6 m (by rw [hh])).1 hm
          cases hsp : r.2 with
          | none => rw [hsp] at this; simp at this
          | some m' =>
            rw [hsp] at this
            simp only [Option.toList_some, List.mem_singleton] at this
            subst this
            exact hi
      · have := g5 i
        rw [← q2, (Learn.putAll_trained htr).2, z2] at this
        exact this

end

/-- Step 1 of the run of `LearnEx`: the neuron of population 2 spikes, and the rule moves resource between its synapses (C115's example shows the numbers). -/
example : ∃ s s0 s1 os0 os1, LearnRun StdpEx.o LearnEx.pops LearnEx.projs [(10, 50)] 1 LearnEx.envs s (LearnEx.outs LearnEx.result) ∧
    (∀ j ∈ LearnEx.projs, FindOk (trainable j)) ∧ 1 < (LearnEx.outs LearnEx.result).length ∧
    LearnRun StdpEx.o LearnEx.pops LearnEx.projs [(10, 50)] 1 (LearnEx.envs.take 1) s0 os0 ∧
    LearnRun StdpEx.o LearnEx.pops LearnEx.projs [(10, 50)] 1 (LearnEx.envs.take 2) s1 os1 := by
  obtain ⟨s, h⟩ := LearnEx.run
  obtain ⟨s0, h0⟩ := h.upTo 1
  obtain ⟨s1, h1⟩ := h.upTo 2
  refine ⟨s, s0, s1, _, _, h, ?_, by decide +kernel, h0, h1⟩
  intro j hj n
  simp only [LearnEx.projs, List.mem_cons, List.not_mem_nil, or_false] at hj
  rcases hj with rfl | rfl | rfl | rfl
  all_goals
    refine ⟨?_, fun k => ?_⟩
    · by_cases h : n = 0 <;> simp [trainable, LearnEx.post, h]
    · rcases k with _ | _ | k <;> by_cases h : n = 0 <;> simp [trainable, LearnEx.syns, LearnEx.post, h] <;> omega

/-- The first trained population of `LearnEx` is lawful. -/
example : ((LearnEx.pops[1]?).map Learn.Pop.uid = some 2) ∧ Lawful (blifatOps (F := ℚ)) := ⟨by decide +kernel, C173_lawful.1⟩

end Knp.Props
