import Verif.Props.Program
import Verif.Lemmas.ProgramAgree

/-!
# C160, C161: programs on the multi-threaded backend

Everything in `Verif/Props/Program.lean` holds on both CPU backends.  Here: when the choice of backend and what its threads do show in
the results of a program.
-/

namespace Knp.Props
open Knp Knp.Bus Knp.Spec Knp.Neurons Knp.Stdp Knp.Prog

section
variable {σ N B F : Type} [Field F] [LinearOrder F]
variable {o : Ops F} {L : Layout} {c : Code σ F} {pops : List (Learn.Pop N B F)} {projs : List (Learn.Proj F)}
  {inputs : List (UID × UID)} {u0 : σ} {acts : List (Act σ)} {s s' : Prog.State σ (Learn.Pop N B F) (Learn.Proj F) F}
  {tr tr' : List (Item F)}

/-- What a program leaves: neurons, weights and resources, the program's own state, the output channels up to the order inside
messages. -/
structure SameEnd (s s' : Prog.State σ (Learn.Pop N B F) (Learn.Proj F) F) : Prop where
  pops : s.core.pops = s'.core.pops
  projs : s.core.projs.map learned = s'.core.projs.map learned
  user : s.user = s'.user
  outs : List.Forall₂ (fun x y : Io.OutputChannel => List.Forall₂ SameSpikeMsg x.buffer y.buffer) s.outs s'.outs

private theorem outs_same {be be' : Prog.Backend F} (h : ProgRun be o L c pops projs inputs u0 acts s tr)
    (h' : ProgRun be' o L c pops projs inputs u0 acts s' tr') (ht : List.Forall₂ SameItem tr tr') :
    List.Forall₂ (fun x y : Io.OutputChannel => List.Forall₂ SameSpikeMsg x.buffer y.buffer) s.outs s'.outs := by
  rw [List.forall₂_iff_get]
  have l1 := prog_outs_length h
  have l2 := prog_outs_length h'
  refine ⟨by rw [l1, l2], ?_⟩
  intro n h1 h2
  have hn : n < L.outputs.length := by rw [← l1]; exact h1
  have c1 := C116_contents h n _ (List.getElem?_eq_getElem hn)
  have c2 := C116_contents h' n _ (List.getElem?_eq_getElem hn)
  rw [List.getElem?_eq_getElem h1, Option.some.injEq] at c1
  rw [List.getElem?_eq_getElem h2, Option.some.injEq] at c2
  simp only [List.get_eq_getElem, c1, c2]
  exact bufferOf_same ht

omit [Field F] [LinearOrder F] in
private theorem mapIdx_fst {α : Type} (l : List α) (f : α → List (Message F)) (sched : Nat → Learn.Sched) :
    (l.mapIdx (fun t x => (f x, sched t))).map (·.1) = l.map f := by
  apply List.ext_getElem?
  intro k
  simp only [List.getElem?_map, List.getElem?_mapIdx, Option.map_map]
  rfl

omit [Field F] [LinearOrder F] in
private theorem take_upto {a b : List (Item F)} {i : Iter F} (ht : tr = a ++ .iter i :: b) :
    (externals L tr).take ((iters a).length + 1) = externals L a ++ [external L a i] := by
  have hlen : ∀ (x y : List (Item F)), (externalsFrom L x y).length = (iters y).length := by
    intro x y
    induction y generalizing x with
    | nil => rfl
    | cons it y ih =>
      cases it with
      | iter i => simp [externalsFrom, iters, ih]
      | halt t fed => simp only [externalsFrom, ih]; simp [iters]
      | read n p q got => simp only [externalsFrom, ih]; simp [iters]
  rw [ht]
  unfold externals
  rw [externalsFrom_append, List.take_append, hlen, List.take_of_length_le (by rw [hlen]; omega)]
  simp [externalsFrom]

/-- C160 (partial). What the threads do does not show in programs that do not look at the order inside messages: two runs of such a
program on the multi-threaded backend - with any part sizes, the threads doing whatever they do - are the same, item by item, up to
the order inside messages, and leave the same neurons, weights, resources and program state.  Missing: programs whose handlers or
observers do look (`C160_refuted`); networks with blocking impacts, where it is false already for the backend alone (C49). -/
theorem C160_schedules_partial {config config' : Sys.Config F} {sched sched' : Nat → Learn.Sched}
    (h : ProgRun (.multi config sched) o L c pops projs inputs u0 acts s tr)
    (h' : ProgRun (.multi config' sched') o L c pops projs inputs u0 acts s' tr') (hblind : OrderBlind c)
    (hsc : config'.scale = config.scale)
    (hc : 1 ≤ config.popPart ∧ config.popPart < two64) (hc2 : 1 ≤ config'.popPart ∧ config'.popPart < two64)
    (hd : 1 ≤ config.projPart ∧ config.projPart < two64) (hd2 : 1 ≤ config'.projPart ∧ config'.projPart < two64)
    (hpops : ∀ p ∈ pops, OrderFree p) (hsize : ∀ j ∈ projs, (wired j.syns).synapses.length ≤ 2 ^ 63)
    (hfind : ∀ j ∈ projs, FindOk (trainable j)) (hb : ∀ i ∈ iters tr, Knp.Spec.NoBlocking i.out) :
    List.Forall₂ SameItem tr tr' ∧ SameEnd s s' := by
  have d1 := (C119_dataflow_threads h).1
  have d2 := (C119_dataflow_threads h').1
  have hb' : ∀ out ∈ (iters tr).map (fun i => i.out), Knp.Spec.NoBlocking out := by
    intro out ho
    obtain ⟨i, hi, rfl⟩ := List.mem_map.1 ho
    exact hb i hi
  have hj : ∀ j ∈ projs, Learn.JOk j := fun j hj => ⟨by rw [wired_view]; exact hsize j hj, by rw [trainable_toR]; exact hfind j hj⟩
  have same := Learn.runM_same (N := N) (B := B) o config config' hsc hc hc2 hd hd2 (learnHearing projs (inputs ++ L.handlerInputs))
  have flow : ∀ a i b a' i' b', tr = a ++ .iter i :: b → tr' = a' ++ .iter i' :: b' →
      List.Forall₂ SameItem a a' → i.time = i'.time → i.fed = i'.fed → SameStep i.out i'.out := by
    intro a i b a' i' b' ht ht' haa htime hfed
    obtain ⟨t1, o1⟩ := out_at h ht
    obtain ⟨t2, o2⟩ := out_at h' ht'
    have hk : (iters a').length = (iters a).length := by rw [← t1, ← t2, htime]
    obtain ⟨st, r1⟩ := Learn.learnRunM_take _ _ _ _ _ _ _ ((iters a).length + 1) d1
    obtain ⟨st', r2⟩ := Learn.learnRunM_take _ _ _ _ _ _ _ ((iters a).length + 1) d2
    obtain ⟨js3, os', w1, _, w3⟩ := same _ _ 0 pops projs projs [] [] _ _ _ (by
      rw [List.map_take, List.map_take, mapIdx_fst, mapIdx_fst, ← List.map_take, ← List.map_take, take_upto ht, ← hk, take_upto ht',
        externals_same_trace haa, external_same haa htime hfed]) hpops h.popUids hj (refl_all 0 projs) .nil r1
        (fun out ho => hb' out (List.mem_of_mem_take ho)) r2
    simp only [Outcome.ok.injEq, Prod.mk.injEq] at w1
    rw [← w1.2] at w3
    rw [hk] at o2
    exact forall2_get w3 (iters a).length _ _ (by rw [List.getElem?_take_of_lt (by omega)]; exact o1)
      (by rw [List.getElem?_take_of_lt (by omega)]; exact o2)
  obtain ⟨ht, hu⟩ := agree hblind (prog_explained h) (prog_explained h') flow acts u0 [] [] tr tr' s.user s'.user rfl rfl .nil
    (C122_user_code h) (C122_user_code h')
  obtain ⟨js3, os', w1, w2, w3⟩ := same _ _ 0 pops projs projs [] [] _ _ _ (by
      rw [mapIdx_fst, mapIdx_fst, externals_same_trace ht]) hpops h.popUids hj (refl_all 0 projs) .nil d1 hb' d2
  simp only [Outcome.ok.injEq, Prod.mk.injEq] at w1
  exact ⟨ht, ⟨w1.1.1.symm, by rw [w1.1.2, learned_same w2], hu, outs_same h h' ht⟩⟩

/-- C161 (partial). Both backends give a program the same: if a program that does not look at the order inside messages runs on the
single-threaded backend, no projection gets more than one message in an iteration or one that names a neuron twice, and nothing
blocks a neuron, then every run of it on the multi-threaded backend - any part sizes, the threads doing whatever they do - is the
same, item by item, up to the order inside messages, and leaves the same neurons, weights, resources and program state.  Missing:
without these conditions it is false (`C161_refuted`). -/
theorem C161_backends_partial {config : Sys.Config F} {sched : Nat → Learn.Sched}
    (h : ProgRun .single o L c pops projs inputs u0 acts s tr)
    (h' : ProgRun (.multi config sched) o L c pops projs inputs u0 acts s' tr') (hblind : OrderBlind c)
    (hsc : ∀ w, config.scale w 1 = w)
    (hc : 1 ≤ config.popPart ∧ config.popPart < two64) (hd : 1 ≤ config.projPart ∧ config.projPart < two64)
    (hpops : ∀ p ∈ pops, OrderFree p) (hplain : ∀ j ∈ projs, PlainProj (wired j.syns))
    (hfind : ∀ j ∈ projs, FindOk (trainable j)) (hb : ∀ i ∈ iters tr, Benign i.out) :
    List.Forall₂ SameItem tr tr' ∧ SameEnd s s' := by
  have d1 := (C119_dataflow h).1
  have d2 := (C119_dataflow_threads h').1
  have hb' : ∀ out ∈ (iters tr).map (fun i => i.out), Benign out := by
    intro out ho
    obtain ⟨i, hi, rfl⟩ := List.mem_map.1 ho
    exact hb i hi
  have hj : ∀ j ∈ projs, Learn.JPlain j := fun j hj => ⟨⟨by rw [wired_view]; exact (hplain j hj).size,
    by rw [trainable_toR]; exact hfind j hj⟩, by rw [wired_view]; exact (hplain j hj).exact⟩
  have same := Learn.run_same (N := N) (B := B) o config hsc hc hd (learnHearing projs (inputs ++ L.handlerInputs))
  have spikesOnly : ∀ (l : List (List SpikeMessage)), ∀ e ∈ l.mapIdx (fun t x => (x.map (Message.spike (F := F)), sched t)),
      Sys.impactsIn e.1 = [] := by
    intro l e he
    obtain ⟨k, x, rfl⟩ := List.mem_mapIdx.1 he
    exact Sys.impactsIn_spikes _
  have flow : ∀ a i b a' i' b', tr = a ++ .iter i :: b → tr' = a' ++ .iter i' :: b' →
      List.Forall₂ SameItem a a' → i.time = i'.time → i.fed = i'.fed → SameStep i.out i'.out := by
    intro a i b a' i' b' ht ht' haa htime hfed
    obtain ⟨t1, o1⟩ := out_at h ht
    obtain ⟨t2, o2⟩ := out_at h' ht'
    have hk : (iters a').length = (iters a).length := by rw [← t1, ← t2, htime]
    obtain ⟨st, r1⟩ := Learn.learnRun_take _ _ _ _ _ _ _ ((iters a).length + 1) d1
    obtain ⟨st', r2⟩ := Learn.learnRunM_take _ _ _ _ _ _ _ ((iters a).length + 1) d2
    obtain ⟨js3, os', w1, _, w3⟩ := same _ 0 pops projs projs [] [] _ _ _ (by
      intro e he
      exact spikesOnly _ e (List.mem_of_mem_take he)) hpops h.popUids hj (refl_all 0 projs) .nil (by
      rw [← hk, List.map_take, mapIdx_fst, ← List.map_take, take_upto ht', ← externals_same_trace haa, ← external_same haa htime hfed,
        ← take_upto ht, List.map_take]
      exact r1)
        (fun out ho => hb' out (List.mem_of_mem_take ho)) r2
    simp only [Outcome.ok.injEq, Prod.mk.injEq] at w1
    rw [← w1.2] at w3
    rw [hk] at o2
    exact forall2_get w3 (iters a).length _ _ (by rw [List.getElem?_take_of_lt (by omega)]; exact o1)
      (by rw [List.getElem?_take_of_lt (by omega)]; exact o2)
  obtain ⟨ht, hu⟩ := agree hblind (prog_explained h) (prog_explained h') flow acts u0 [] [] tr tr' s.user s'.user rfl rfl .nil
    (C122_user_code h) (C122_user_code h')
  obtain ⟨js3, os', w1, w2, w3⟩ := same _ 0 pops projs projs [] [] _ _ _ (spikesOnly _) hpops h.popUids hj (refl_all 0 projs) .nil (by
      rw [mapIdx_fst, ← externals_same_trace ht]
      exact d1) hb' d2
  simp only [Outcome.ok.injEq, Prod.mk.injEq] at w1
  exact ⟨ht, ⟨w1.1.1.symm, by rw [w1.1.2, learned_same w2], hu, outs_same h h' ht⟩⟩

end

/-! A program on the network of `LearnMultiEx`: generator, handler, observer, two runs with a read between them. -/

namespace ProgThreadsEx
open LearnEx LearnMultiEx

/-- The endpoints. -/
def L : Layout := ⟨[50], [(60, [1, 2])], [⟨70, [2], [10, 11]⟩], [⟨80, .impact, [10]⟩]⟩
/-- The generator spikes in steps 0 and 1; the handler answers with neuron 1 when something came; the observer counts. -/
def c : Code Nat ℚ where
  gen _ u t := (if t < 2 then [0, 1] else [], u)
  handle _ u ms := (if ms.isEmpty then [] else [1], u)
  observe _ u ms := u + ms.length
def acts : List (Act Nat) :=
  [.iterate id, .iterate id, .iterate id, .halt id, .read 0 0 2 100, .iterate id, .iterate id, .halt id]
/-- Which projections hear something in a step. -/
def flagsAt (t : Nat) : Bool × Bool × Bool := if t = 0 then (true, false, false) else if t = 1 then (true, true, false) else (true, true, true)
/-- Parts of one neuron, the later parts finishing first. -/
def late (t : Nat) : Learn.Sched := sched (flagsAt t).1 (flagsAt t).2.1 (flagsAt t).2.2
/-- Parts of one neuron, the parts of population 2 in order. -/
def early (t : Nat) : Learn.Sched := { late t with pops := [([0, 0], [0, 0]), ([0, 0, 1, 1], [0, 0, 1, 1]), ([0, 0], [0, 0])] }
/-- Parts of 100. -/
def large (t : Nat) : Learn.Sched := sched' (flagsAt t).1 (flagsAt t).2.1 (flagsAt t).2.2

def result (b : Prog.Backend ℚ) (c : Code Nat ℚ) :=
  Prog.run (b.step StdpEx.o) L c (Prog.boot (Learn.machine StdpEx.o) L LearnMultiEx.pops LearnMultiEx.projs inputs 0) acts

theorem progRun (b : Prog.Backend ℚ) (c : Code Nat ℚ) (hok : (result b c).isOk = true) :
    ∃ s, ProgRun b StdpEx.o L c LearnMultiEx.pops LearnMultiEx.projs inputs 0 acts s (ProgEx.trace (result b c)) := by
  cases hr : result b c with
  | throw w => rw [hr] at hok; cases hok
  | ub => rw [hr] at hok; cases hok
  | ok x =>
    refine ⟨x.1, by decide, by decide, ?_, hr⟩
    intro j hj
    simp only [LearnMultiEx.projs, List.mem_cons, List.not_mem_nil, or_false] at hj
    rcases hj with rfl | rfl | rfl | rfl <;> rfl

theorem ok_single : (result .single c).isOk = true := by decide +kernel
theorem ok_late : (result (.multi config late) c).isOk = true := by decide +kernel
theorem ok_large : (result (.multi config' large) c).isOk = true := by decide +kernel

theorem blind : OrderBlind c where
  handle := by
    intro k u ms ms' h
    cases h <;> rfl
  observe := by
    intro k u ms ms' h
    simp only [c, h.length_eq]

theorem benign : ∀ i ∈ iters (ProgEx.trace (result .single c)), Benign i.out := by
  have h : (iters (ProgEx.trace (result .single c))).all (fun i => i.out.given.all (fun g => g.2.all (fun m =>
        m.impacts.all (fun i => decide (i.synapseType ≠ .blocking)))) &&
      i.out.heard.all (fun h => decide (h.2.length ≤ 1)) && i.out.heard.all (fun h => h.2.all (fun m => decide m.neuronIndexes.Nodup))) = true := by
    decide +kernel
  simp only [List.all_eq_true, Bool.and_eq_true, decide_eq_true_eq] at h
  exact fun i hi => ⟨(h i hi).1.1, (h i hi).1.2, (h i hi).2⟩
theorem noBlocking (b : Prog.Backend ℚ) (c : Code Nat ℚ)
    (h : (iters (ProgEx.trace (result b c))).all (fun i => i.out.given.all (fun g => g.2.all (fun m =>
      m.impacts.all (fun i => decide (i.synapseType ≠ .blocking))))) = true) :
    ∀ i ∈ iters (ProgEx.trace (result b c)), Knp.Spec.NoBlocking i.out := by
  simp only [List.all_eq_true, decide_eq_true_eq] at h
  exact h

/-- `C160_schedules_partial` applies to the parts of one and of 100, ... -/
example : ∃ s s', ProgRun (.multi config late) StdpEx.o L c LearnMultiEx.pops LearnMultiEx.projs inputs 0 acts s
      (ProgEx.trace (result (.multi config late) c)) ∧
    ProgRun (.multi config' large) StdpEx.o L c LearnMultiEx.pops LearnMultiEx.projs inputs 0 acts s'
      (ProgEx.trace (result (.multi config' large) c)) ∧ SameEnd s s' := by
  obtain ⟨s, h⟩ := progRun (.multi config late) c ok_late
  obtain ⟨s', h'⟩ := progRun (.multi config' large) c ok_large
  exact ⟨s, s', h, h', (C160_schedules_partial h h' blind rfl (by decide) (by decide) (by decide) (by decide) orderFree
    (fun j hj => (plain j hj).1.size) (fun j hj => (plain j hj).2) (noBlocking _ _ (by decide +kernel))).2⟩
/-- ... `C161_backends_partial` to the run on the single-threaded backend, ... -/
example : ∃ s s', ProgRun .single StdpEx.o L c LearnMultiEx.pops LearnMultiEx.projs inputs 0 acts s
      (ProgEx.trace (result .single c)) ∧
    ProgRun (.multi config late) StdpEx.o L c LearnMultiEx.pops LearnMultiEx.projs inputs 0 acts s'
      (ProgEx.trace (result (.multi config late) c)) ∧ SameEnd s s' := by
  obtain ⟨s, h⟩ := progRun .single c ok_single
  obtain ⟨s', h'⟩ := progRun (.multi config late) c ok_late
  exact ⟨s, s', h, h', (C161_backends_partial h h' blind (by intro w; simp [config]) (by decide) (by decide) orderFree
    (fun j hj => (plain j hj).1) (fun j hj => (plain j hj).2) benign).2⟩
/-- ... and the runs are not identical: in steps 1 and 2 the handler gets the spikes of population 2 in another order. -/
example : (iters (ProgEx.trace (result (.multi config late) c))).map (fun i => i.handled.map (fun x => (x.1.map (·.neuronIndexes), x.2))) =
      [[([], [])], [([[1, 0]], [1])], [([[1, 0]], [1])], [([[1]], [1])], [([[1]], [1])]] ∧
    (iters (ProgEx.trace (result .single c))).map (fun i => i.handled.map (fun x => (x.1.map (·.neuronIndexes), x.2))) =
      [[([], [])], [([[0, 1]], [1])], [([[0, 1]], [1])], [([[1]], [1])], [([[1]], [1])]] := by decide +kernel
/-- C116-C120 on the multi-threaded backend: what projection 10 gets in every iteration and what is left in the output channel. -/
example : (iters (ProgEx.trace (result (.multi config late) c))).map (fun i => (heardBy i.out 10).map (fun m => (m.header.senderUid, m.header.sendTime, m.neuronIndexes))) =
      [[(50, 0, [0, 1])], [(50, 1, [0, 1])], [(70, 2, [1])], [(70, 3, [1])], [(70, 4, [1])]] ∧
    (ProgEx.outs (result (.multi config late) c)).map (fun l => l.map (fun m => (m.header.senderUid, m.header.sendTime))) =
      [[(1, 3), (2, 3), (1, 4), (2, 4)]] := by decide +kernel

/-- A handler that answers with the first neuron of the first message. -/
def looking : Code Nat ℚ := { c with handle := fun _ u ms => ((ms.head?.bind (fun m => m.neuronIndexes.head?)).toList, u) }
end ProgThreadsEx

/-- The claim without the condition on the program's functions: the threads do not show in what handlers answer. -/
def C160_statement : Prop :=
  ∀ (o : Ops ℚ) (L : Layout) (c : Code Nat ℚ) (pops : List (Learn.Pop (Lif ℚ) (Blifat ℚ) ℚ)) (projs : List (Learn.Proj ℚ))
    (inputs : List (UID × UID)) (u0 : Nat) (acts : List (Act Nat)) (config : Sys.Config ℚ) (sched sched' : Nat → Learn.Sched)
    (s s' : Prog.State Nat (Learn.Pop (Lif ℚ) (Blifat ℚ) ℚ) (Learn.Proj ℚ) ℚ) (tr tr' : List (Item ℚ)),
    ProgRun (.multi config sched) o L c pops projs inputs u0 acts s tr →
    ProgRun (.multi config sched') o L c pops projs inputs u0 acts s' tr' →
    (1 ≤ config.popPart ∧ config.popPart < two64) → (1 ≤ config.projPart ∧ config.projPart < two64) →
    (∀ p ∈ pops, OrderFree p) → (∀ j ∈ projs, (wired j.syns).synapses.length ≤ 2 ^ 63) → (∀ j ∈ projs, FindOk (trainable j)) →
    (∀ i ∈ iters tr, Knp.Spec.NoBlocking i.out) →
    (iters tr).map (fun i => i.handled.map (·.2)) = (iters tr').map (fun i => i.handled.map (·.2))

open LearnMultiEx ProgThreadsEx in
/-- ... is false: a handler that takes the first neuron of a message answers according to which thread was first. -/
theorem C160_refuted : ¬ C160_statement := by
  intro h
  obtain ⟨s, h1⟩ := progRun (.multi config late) looking (by decide +kernel)
  obtain ⟨s', h2⟩ := progRun (.multi config early) looking (by decide +kernel)
  have := h StdpEx.o ProgThreadsEx.L looking LearnMultiEx.pops LearnMultiEx.projs LearnMultiEx.inputs 0 ProgThreadsEx.acts config late early
    s s' _ _ h1 h2 (by decide) (by decide) orderFree (fun j hj => (plain j hj).1.size) (fun j hj => (plain j hj).2)
    (noBlocking _ _ (by decide +kernel))
  revert this
  decide +kernel

/-- The claim without the condition on what projections get: what a program sends is the same on both backends. -/
def C161_statement : Prop :=
  ∀ (o : Ops ℚ) (L : Layout) (c : Code Nat ℚ) (pops : List (Learn.Pop (Lif ℚ) (Blifat ℚ) ℚ)) (projs : List (Learn.Proj ℚ))
    (inputs : List (UID × UID)) (u0 : Nat) (acts : List (Act Nat)) (config : Sys.Config ℚ) (sched : Nat → Learn.Sched)
    (s s' : Prog.State Nat (Learn.Pop (Lif ℚ) (Blifat ℚ) ℚ) (Learn.Proj ℚ) ℚ) (tr tr' : List (Item ℚ)),
    ProgRun .single o L c pops projs inputs u0 acts s tr →
    ProgRun (.multi config sched) o L c pops projs inputs u0 acts s' tr' → OrderBlind c → (∀ w, config.scale w 1 = w) →
    (1 ≤ config.popPart ∧ config.popPart < two64) → (1 ≤ config.projPart ∧ config.projPart < two64) →
    (∀ p ∈ pops, OrderFree p) → (∀ j ∈ projs, PlainProj (wired j.syns)) → (∀ j ∈ projs, FindOk (trainable j)) →
    (∀ i ∈ iters tr, Knp.Spec.NoBlocking i.out) →
    (iters tr).map (fun i => i.out.spikes.map (fun m => m.header.senderUid)) =
      (iters tr').map (fun i => i.out.spikes.map (fun m => m.header.senderUid))

namespace ProgThreadsEx
open LearnEx LearnMultiEx

/-- Two channels into projection 10. -/
def L2 : Layout := ⟨[50, 51], [(60, [2])], [], []⟩
/-- Channel 51 sends in step 0 what makes neuron 1 fire, channel 50 in step 0 something no synapse of the projection starts from. -/
def c2 : Code Nat ℚ where
  gen k u t := (if t = 0 then (if k = 0 then [7] else [0, 1]) else [], u)
  handle _ u _ := ([], u)
  observe _ u _ := u
def acts2 : List (Act Nat) := [.iterate id, .iterate id, .halt id]
def late2 (t : Nat) : Learn.Sched := { late t with projs := [if t = 0 then [1, 0] else [], [], [], []] }
def result2 (b : Prog.Backend ℚ) :=
  Prog.run (b.step StdpEx.o) L2 c2 (Prog.boot (Learn.machine StdpEx.o) L2 LearnMultiEx.pops LearnMultiEx.projs [(10, 50), (10, 51)] 0) acts2

theorem progRun2 (b : Prog.Backend ℚ) (hok : (result2 b).isOk = true) :
    ∃ s, ProgRun b StdpEx.o L2 c2 LearnMultiEx.pops LearnMultiEx.projs [(10, 50), (10, 51)] 0 acts2 s (ProgEx.trace (result2 b)) := by
  cases hr : result2 b with
  | throw w => rw [hr] at hok; cases hok
  | ub => rw [hr] at hok; cases hok
  | ok x =>
    refine ⟨x.1, by decide, by decide, ?_, hr⟩
    intro j hj
    simp only [LearnMultiEx.projs, List.mem_cons, List.not_mem_nil, or_false] at hj
    rcases hj with rfl | rfl | rfl | rfl <;> rfl
end ProgThreadsEx

open LearnMultiEx ProgThreadsEx in
/-- ... is false: of two channels that send to the same projection in the same step, the multi-threaded backend looks at the first
only, and the population behind the projection never fires. -/
theorem C161_refuted : ¬ C161_statement := by
  intro h
  obtain ⟨s, h1⟩ := progRun2 .single (by decide +kernel)
  obtain ⟨s', h2⟩ := progRun2 (.multi config late2) (by decide +kernel)
  have hb : ∀ i ∈ iters (ProgEx.trace (result2 .single)), Knp.Spec.NoBlocking i.out := by
    have h : (iters (ProgEx.trace (result2 .single))).all (fun i => i.out.given.all (fun g => g.2.all (fun m =>
      m.impacts.all (fun i => decide (i.synapseType ≠ .blocking))))) = true := by decide +kernel
    simp only [List.all_eq_true, decide_eq_true_eq] at h
    exact h
  have := h StdpEx.o L2 c2 LearnMultiEx.pops LearnMultiEx.projs [(10, 50), (10, 51)] 0 acts2 config late2
    s s' _ _ h1 h2 ⟨fun _ _ _ _ _ => rfl, fun _ _ _ _ _ => rfl⟩ (by intro w; simp [config]) (by decide) (by decide) orderFree
    (fun j hj => (plain j hj).1) (fun j hj => (plain j hj).2) hb
  revert this
  decide +kernel

end Knp.Props
