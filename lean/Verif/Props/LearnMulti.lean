import Verif.Lemmas.LearnAgreeRun
import Verif.Props.Learn

/-! # C123-C125: a learning network on the multi-threaded backend -/

namespace Knp.Props
open Knp Knp.Bus Knp.Spec Knp.Neurons Knp.Stdp Knp.Lemmas.Stdp

section
variable {N B F : Type} [Field F] [LinearOrder F]

/-- C123. C111 for the multi-threaded backend: under every schedule of its threads a run of any length computes the dataflow of
`Spec/LearnMulti.lean`, in which all populations compute first, are then trained, and projections use the weights training left. -/
theorem C123_dataflow (o : Ops F) (c : Sys.Config F) (pops : List (Learn.Pop N B F)) (projs : List (Learn.Proj F))
    (inputs : List (UID × UID)) (chans : Nat) (hnp : (pops.map Learn.Pop.uid).Nodup)
    (hnj : (projs.map (fun j => j.ident.uid)).Nodup) (envs : List (Sys.Env F × Learn.Sched))
    (hf : ∀ env ∈ envs, ∀ op ∈ env.1, Foreign chans op) :
    (Learn.runMulti (Learn.machine o) (Learn.threads o c) (Learn.boot (Learn.machine o) pops projs inputs chans) envs).map learnVisible =
      learnRunM (Learn.machine o) (Learn.threads o c) (learnHearing projs inputs) 0 pops projs []
        (envs.map (fun e => (extOf chans e.1, e.2))) := by
  rw [← hearing_wires]
  obtain ⟨e0, hb⟩ := Learn.boot_between (Learn.machine o) pops projs inputs chans
  have hp : (Learn.boot (Learn.machine o) pops projs inputs chans).pops = pops := rfl
  have hj : (Learn.boot (Learn.machine o) pops projs inputs chans).projs = projs := rfl
  have hs : (Learn.boot (Learn.machine o) pops projs inputs chans).step = 0 := rfl
  have hw : projs.map (Learn.machine (N := N) (B := B) o).wire = projs.map Learn.wireOf := rfl
  have := Learn.runM_spec (Learn.threads_keep o c) envs _ [] e0 hb (by rw [hp]; exact hnp) (by rw [hj]; exact hnj) hf
  rw [hp, hj, hs, hw] at this
  rcases hr : learnRunM (Learn.machine o) (Learn.threads o c) (hearingOfWires (projs.map Learn.wireOf) inputs) 0 pops projs []
      (envs.map (fun e => (extOf chans e.1, e.2))) with _ | (x | w | _)
  all_goals rw [hr] at this; rw [hr]; simp only at this
  · rw [this]; rfl
  · obtain ⟨st, os⟩ := x
    obtain ⟨s', h1, h2, h3, _⟩ := this
    rw [h1]
    simp only [learnVisible, Option.map_some, h2, h3]
  · rw [this]; rfl
  · rw [this]; rfl

omit [Field F] [LinearOrder F] in
theorem learned_same {t : Nat} {js js2 : List (Learn.Proj F)} (h : List.Forall₂ (Learn.SameProjL t) js js2) :
    js2.map learned = js.map learned := by
  induction h with
  | nil => rfl
  | cons h _ ih => rw [List.map_cons, List.map_cons, ih, learned, learned, h.ident, h.locked, h.syns]

omit [Field F] [LinearOrder F] in
theorem refl_all (t : Nat) (js : List (Learn.Proj F)) : List.Forall₂ (Learn.SameProjL t) js js := by
  induction js with
  | nil => exact .nil
  | cons j js ih => exact .cons (Learn.SameProjL.refl t j) ih

omit [Field F] [LinearOrder F] in
theorem wired_view (x : Learn.Syns F) : x.view = wired x := by
  cases x <;> rfl

omit [Field F] [LinearOrder F] in
theorem trainable_toR (j : Learn.Proj F) : j.toR = trainable j := by
  unfold Learn.Proj.toR trainable
  cases j.syns <;> rfl

/-- C124. Schedules and part sizes of the multi-threaded backend do not show: two complete runs of the same network with the same
calls of the rest of the program - any messages, also several per step - end alike, with the same neurons, weights and
resources, and every step sends the same messages, up to the order inside a message. -/
theorem C124_schedule_independent (o : Ops F) (c c' : Sys.Config F) (hsc : c'.scale = c.scale)
    (hc : 1 ≤ c.popPart ∧ c.popPart < two64) (hc2 : 1 ≤ c'.popPart ∧ c'.popPart < two64)
    (hd : 1 ≤ c.projPart ∧ c.projPart < two64) (hd2 : 1 ≤ c'.projPart ∧ c'.projPart < two64)
    (pops : List (Learn.Pop N B F)) (projs : List (Learn.Proj F)) (inputs : List (UID × UID)) (chans : Nat)
    (hnp : (pops.map Learn.Pop.uid).Nodup) (hnj : (projs.map (fun j => j.ident.uid)).Nodup)
    (hpops : ∀ p ∈ pops, OrderFree p) (hsize : ∀ j ∈ projs, (wired j.syns).synapses.length ≤ 2 ^ 63)
    (hfind : ∀ j ∈ projs, FindOk (trainable j)) (envs envs' : List (Sys.Env F × Learn.Sched))
    (he : envs'.map (·.1) = envs.map (·.1)) (hf : ∀ env ∈ envs, ∀ op ∈ env.1, Foreign chans op)
    (s : Learn.State (Learn.Pop N B F) (Learn.Proj F) F) (os : List (Sys.StepOut F))
    (h1 : Learn.runMulti (Learn.machine o) (Learn.threads o c) (Learn.boot (Learn.machine o) pops projs inputs chans) envs =
      some (.ok (s, os))) (hb : ∀ out ∈ os, Knp.Spec.NoBlocking out)
    (r : Outcome (Learn.State (Learn.Pop N B F) (Learn.Proj F) F × List (Sys.StepOut F)))
    (h2 : Learn.runMulti (Learn.machine o) (Learn.threads o c') (Learn.boot (Learn.machine o) pops projs inputs chans) envs' = some r) :
    ∃ s' os', r = .ok (s', os') ∧ s'.pops = s.pops ∧ s'.projs.map learned = s.projs.map learned ∧ List.Forall₂ SameStep os os' := by
  have hf' : ∀ env ∈ envs', ∀ op ∈ env.1, Foreign chans op := by
    intro env hm
    have : env.1 ∈ envs.map (·.1) := he ▸ List.mem_map.2 ⟨env, hm, rfl⟩
    obtain ⟨e, h3, h4⟩ := List.mem_map.1 this
    rw [← h4]
    exact hf e h3
  have g1 := C123_dataflow o c pops projs inputs chans hnp hnj envs hf
  have g2 := C123_dataflow o c' pops projs inputs chans hnp hnj envs' hf'
  rw [h1, Option.map_some] at g1
  rw [h2, Option.map_some] at g2
  simp only [learnVisible] at g1
  obtain ⟨js3, os', w1, w2, w3⟩ := Learn.runM_same o c c' hsc hc hc2 hd hd2 (learnHearing projs inputs) _ _ 0 pops projs projs
    [] [] _ os _ (by
      have e1 : ∀ l : List (Sys.Env F × Learn.Sched), (l.map (fun e => (extOf chans e.1, e.2))).map (·.1) =
          (l.map (·.1)).map (extOf chans) := by
        intro l
        rw [List.map_map, List.map_map]
        rfl
      rw [e1, e1, he]) hpops hnp
      (fun j hj => ⟨by rw [wired_view]; exact hsize j hj, by rw [trainable_toR]; exact hfind j hj⟩) (refl_all 0 projs) .nil
      g1.symm hb g2.symm
  cases r with
  | throw w => simp only [learnVisible] at w1; cases w1
  | ub => simp only [learnVisible] at w1; cases w1
  | ok x =>
    simp only [learnVisible, Outcome.ok.injEq, Prod.mk.injEq] at w1
    exact ⟨x.1, x.2, rfl, w1.1.1, by rw [w1.1.2]; exact learned_same w2, by rw [w1.2]; exact w3⟩

/-- C125. Both backends teach a network alike: if a run on the single-threaded backend ends normally, and no projection hears more
than one message in a step or one that names a neuron twice, no neuron is blocked, and the rest of the program sends no impacts, then
every complete run on the multi-threaded backend - for all schedules and part sizes - leaves the same neurons, weights and
resources, and every step sends the same messages, up to the order inside a message.  (Partial: without these conditions it is
false, `C125_refuted`.) -/
theorem C125_backends_agree_partial (o : Ops F) (c : Sys.Config F) (hsc : ∀ w, c.scale w 1 = w)
    (hc : 1 ≤ c.popPart ∧ c.popPart < two64) (hd : 1 ≤ c.projPart ∧ c.projPart < two64)
    (pops : List (Learn.Pop N B F)) (projs : List (Learn.Proj F)) (inputs : List (UID × UID)) (chans : Nat)
    (hnp : (pops.map Learn.Pop.uid).Nodup) (hnj : (projs.map (fun j => j.ident.uid)).Nodup)
    (hpops : ∀ p ∈ pops, OrderFree p) (hplain : ∀ j ∈ projs, PlainProj (wired j.syns))
    (hfind : ∀ j ∈ projs, FindOk (trainable j)) (envs : List (Sys.Env F × Learn.Sched))
    (hf : ∀ env ∈ envs, ∀ op ∈ env.1, Foreign chans op)
    (hext : ∀ env ∈ envs, ∀ e m, Bus.Op.send e (.impact m) ∉ env.1)
    (s : Learn.State (Learn.Pop N B F) (Learn.Proj F) F) (os : List (Sys.StepOut F))
    (h1 : Learn.runSingle (Learn.machine o) (Learn.boot (Learn.machine o) pops projs inputs chans) (envs.map (·.1)) = .ok (s, os))
    (hb : ∀ out ∈ os, Benign out)
    (r : Outcome (Learn.State (Learn.Pop N B F) (Learn.Proj F) F × List (Sys.StepOut F)))
    (h2 : Learn.runMulti (Learn.machine o) (Learn.threads o c) (Learn.boot (Learn.machine o) pops projs inputs chans) envs = some r) :
    ∃ s' os', r = .ok (s', os') ∧ s'.pops = s.pops ∧ s'.projs.map learned = s.projs.map learned ∧ List.Forall₂ SameStep os os' := by
  have g1 := C111_dataflow o pops projs inputs chans hnp hnj (envs.map (·.1)) (by
    intro env hm
    obtain ⟨x, hx, rfl⟩ := List.mem_map.1 hm
    exact hf x hx)
  have g2 := C123_dataflow o c pops projs inputs chans hnp hnj envs hf
  rw [h1] at g1
  rw [h2, Option.map_some] at g2
  simp only [learnVisible] at g1
  have e : (envs.map (·.1)).map (extOf chans) = (envs.map fun e => (extOf chans e.1, e.2)).map (·.1) := by
    rw [List.map_map, List.map_map]; rfl
  rw [e] at g1
  obtain ⟨js3, os', w1, w2, w3⟩ := Learn.run_same o c hsc hc hd (learnHearing projs inputs) _ 0 pops projs projs [] [] _ os _ (by
      intro x hx
      obtain ⟨y, hy, rfl⟩ := List.mem_map.1 hx
      exact impactsIn_ext chans y.1 (hext y hy)) hpops hnp
      (fun j hj => ⟨⟨by rw [wired_view]; exact (hplain j hj).size, by rw [trainable_toR]; exact hfind j hj⟩,
        by rw [wired_view]; exact (hplain j hj).exact⟩) (refl_all 0 projs) .nil g1.symm hb g2.symm
  cases r with
  | throw w => simp only [learnVisible] at w1; cases w1
  | ub => simp only [learnVisible] at w1; cases w1
  | ok x =>
    simp only [learnVisible, Outcome.ok.injEq, Prod.mk.injEq] at w1
    exact ⟨x.1, x.2, rfl, w1.1.1, by rw [w1.1.2]; exact learned_same w2, by rw [w1.2]; exact w3⟩

end

/-! Two trained populations and a plain one, with schedules. -/

namespace LearnMultiEx
open LearnEx

/-- The populations. -/
def pops : List (Learn.Pop (Lif ℚ) (Blifat ℚ) ℚ) :=
  [.plain 1 (@lif ℚ arith) [⟨0, 0, 1, 1, 0, 0⟩],
   .trained 2 (@resBlifat ℚ arith) blifatOps [⟨blifat, StdpEx.rule 0⟩, ⟨blifat, StdpEx.rule 0⟩],
   .trained 3 (@resBlifat ℚ arith) blifatOps [⟨blifat, StdpEx.rule 0⟩]]
/-- The synapses into the two neurons of population 2. -/
def syns2 : List (RSyn ℚ) :=
  [⟨0, 0, 2, 1, .excitatory, ⟨2, 0, 4, 1/4, 3, 0, false, false⟩⟩, ⟨1, 1, 2, 1, .excitatory, ⟨3, 0, 4, 1/4, 3, 0, false, false⟩⟩]
/-- Their lookup by target. -/
def post2 (n : Nat) : List Nat := if n = 0 then [0] else if n = 1 then [1] else []
/-- The projections: 10 and 11 learn, 40 is locked. -/
def projs : List (Learn.Proj ℚ) :=
  [⟨⟨10, 0, 2, false⟩, false, .resource [] syns2 pre post2, []⟩,
   ⟨⟨11, 0, 3, false⟩, false, .resource [] syns pre post, []⟩,
   ⟨⟨20, 2, 1, true⟩, true, .delta ⟨[⟨0, 0, 3, 1, .excitatory⟩, ⟨1, 0, 2, 1, .excitatory⟩],
     fun n => if n = 0 then [0] else if n = 1 then [1] else []⟩, []⟩,
   ⟨⟨40, 1, 3, false⟩, true, .resource [] syns pre post, []⟩]
/-- Parts of one. -/
def config : Sys.Config ℚ := ⟨1, 1, fun w n => w * n⟩
/-- Parts of 100. -/
def config' : Sys.Config ℚ := ⟨100, 100, fun w n => w * n⟩
/-- Schedules: the flags say which projections have got a message in the step. -/
def sched (a b c : Bool) : Learn.Sched :=
  ⟨[([0, 0], [0, 0]), ([1, 1, 0, 0], [1, 1, 0, 0]), ([0, 0], [0, 0])], [2, 0, 1],
    [if a then [1, 0] else [], if a then [0, 1] else [], if b then [1, 0] else [], if c then [1, 0] else []]⟩
/-- The same for the larger parts. -/
def sched' (a b c : Bool) : Learn.Sched :=
  ⟨[([0, 0], [0, 0]), ([0, 0, 0], [0, 0, 0]), ([0, 0], [0, 0])], [0, 1, 2],
    [if a then [0] else [], if a then [0] else [], if b then [0] else [], if c then [0] else []]⟩
/-- The channel sends before steps 0, 1 and 3. -/
def calls : List (Sys.Env ℚ) :=
  [[.send 1 (.spike ⟨⟨50, 0⟩, [0, 1]⟩)], [.send 1 (.spike ⟨⟨50, 1⟩, [0, 1]⟩)], [], [.send 1 (.spike ⟨⟨50, 3⟩, [1]⟩), .receiveAll 1],
   []]
/-- Which projections hear something. -/
def flags : List (Bool × Bool × Bool) :=
  [(true, false, false), (true, true, false), (false, true, true), (true, false, true), (false, true, false)]
def envs : List (Sys.Env ℚ × Learn.Sched) := calls.zip (flags.map fun f => sched f.1 f.2.1 f.2.2)
def envs' : List (Sys.Env ℚ × Learn.Sched) := calls.zip (flags.map fun f => sched' f.1 f.2.1 f.2.2)
def inputs : List (UID × UID) := [(10, 50), (11, 50)]
def single := Learn.runSingle (Learn.machine StdpEx.o) (Learn.boot (Learn.machine StdpEx.o) pops projs inputs 1) calls
def multi := Learn.runMulti (Learn.machine StdpEx.o) (Learn.threads StdpEx.o config)
  (Learn.boot (Learn.machine StdpEx.o) pops projs inputs 1) envs
def multi' := Learn.runMulti (Learn.machine StdpEx.o) (Learn.threads StdpEx.o config')
  (Learn.boot (Learn.machine StdpEx.o) pops projs inputs 1) envs'

example : single.isOk = true ∧ (multi.getD .ub).isOk = true ∧ (multi'.getD .ub).isOk = true := by decide +kernel
/-- Another order in the messages of population 2; the same spikes, weights, resources and spike times. -/
example : (outs single).map (fun o => o.spikes.map (fun m => (m.header.senderUid, m.neuronIndexes))) =
      [[], [(2, [0, 1]), (3, [0])], [(1, [0]), (2, [0, 1]), (3, [0])], [(1, [0]), (3, [0])], [(2, [1]), (3, [0])]] ∧
    (outs (multi.getD .ub)).map (fun o => o.spikes.map (fun m => (m.header.senderUid, m.neuronIndexes))) =
      [[], [(2, [1, 0]), (3, [0])], [(1, [0]), (2, [1, 0]), (3, [0])], [(1, [0]), (3, [0])], [(2, [1]), (3, [0])]] := by
  decide +kernel
example : [(final single).map shown, (final (multi.getD .ub)).map shown, (final (multi'.getD .ub)).map shown] =
    List.replicate 3 [[(12 / 11, 3 / 2, 1), (44 / 27, 11 / 4, 3)], [(4 / 3, 2, 1), (2, 4, 3)], [], [(2, 2, 3), (2, 3, 0)]] := by
  decide +kernel

theorem exact : @Unrounded ℚ arith := @Unrounded.mk ℚ arith (fun a b c => by ring) (fun a b c => by ring) (fun a b c => by ring)
theorem orderFree : ∀ p ∈ pops, OrderFree p := by
  intro p hp
  simp only [pops, List.mem_cons, List.not_mem_nil, or_false] at hp
  rcases hp with rfl | rfl | rfl
  · exact ⟨(@C107_kinds_commute ℚ arith exact).1, by decide⟩
  · exact ⟨(@C107_kinds_commute ℚ arith exact).2.2.2.1, by decide⟩
  · exact ⟨(@C107_kinds_commute ℚ arith exact).2.2.2.1, by decide⟩
theorem plain : ∀ j ∈ projs, PlainProj (wired j.syns) ∧ FindOk (trainable j) := by
  intro j hj
  simp only [projs, List.mem_cons, List.not_mem_nil, or_false] at hj
  rcases hj with rfl | rfl | rfl | rfl
  all_goals
    refine ⟨⟨fun n => ⟨?_, fun k => ?_⟩, by decide⟩, fun n => ⟨?_, fun k => ?_⟩⟩
    · by_cases h : n = 0 <;> by_cases h1 : n = 1 <;> simp [wired, pre, h, h1]
    · rcases k with _ | _ | k <;>
      by_cases h : n = 0 <;> by_cases h1 : n = 1 <;> simp [wired, syns, syns2, pre, h, h1] <;> omega
    · by_cases h : n = 0 <;> by_cases h1 : n = 1 <;> simp [trainable, post, post2, h, h1]
    · rcases k with _ | _ | k <;>
      by_cases h : n = 0 <;> by_cases h1 : n = 1 <;> simp [trainable, syns, syns2, post, post2, h, h1] <;> omega
theorem benign : ∀ o ∈ outs single, Benign o := by
  have h : (outs single).all (fun o => o.given.all (fun g => g.2.all (fun m => m.impacts.all (fun i => decide (i.synapseType ≠ .blocking)))) &&
      o.heard.all (fun h => decide (h.2.length ≤ 1)) && o.heard.all (fun h => h.2.all (fun m => decide m.neuronIndexes.Nodup))) = true := by
    decide +kernel
  simp only [List.all_eq_true, Bool.and_eq_true, decide_eq_true_eq] at h
  exact fun o ho => ⟨(h o ho).1.1, (h o ho).1.2, (h o ho).2⟩
example : ∀ o ∈ outs (multi.getD .ub), Knp.Spec.NoBlocking o := by
  have h : (outs (multi.getD .ub)).all (fun o => o.given.all (fun g => g.2.all (fun m =>
      m.impacts.all (fun i => decide (i.synapseType ≠ .blocking))))) = true := by decide +kernel
  simp only [List.all_eq_true, decide_eq_true_eq] at h
  exact h
example : (∀ env ∈ envs, (∀ op ∈ env.1, Foreign 1 op) ∧ ∀ e m, Bus.Op.send e (.impact m) ∉ env.1) ∧
    envs.map (·.1) = calls ∧ envs'.map (·.1) = envs.map (·.1) := by
  simp [envs, envs', flags, calls, Foreign]

/-- All hypotheses together: the single-threaded run and the multi-threaded one. -/
example : ∃ s s' os', single = .ok (s, outs single) ∧ multi = some (.ok (s', os')) ∧ s'.pops = s.pops ∧
    s'.projs.map learned = s.projs.map learned ∧ List.Forall₂ SameStep (outs single) os' := by
  have o1 : single.isOk = true := by decide +kernel
  have o2 : (multi.getD .ub).isOk = true := by decide +kernel
  cases hx : single with
  | throw w => rw [hx] at o1; cases o1
  | ub => rw [hx] at o1; cases o1
  | ok a =>
    cases hy : multi with
    | none => rw [hy] at o2; cases o2
    | some b =>
      have hb := benign
      rw [hx] at hb
      obtain ⟨s', os', h1, h2, h3, h4⟩ := C125_backends_agree_partial StdpEx.o config (by intro w; simp [config]) (by decide) (by decide)
        pops projs inputs 1 (by decide) (by decide) orderFree (fun j hj => (plain j hj).1) (fun j hj => (plain j hj).2)
        envs (by simp [envs, flags, calls, Foreign]) (by simp [envs, flags, calls]) a.1 a.2 hx hb b hy
      exact ⟨a.1, s', os', rfl, by rw [h1], h2, h3, h4⟩

end LearnMultiEx

/-- The unrestricted claim: what ends normally on both backends has learned the same. -/
def C125_statement : Prop :=
  ∀ (o : Ops ℚ) (c : Sys.Config ℚ), (∀ w, c.scale w 1 = w) → (1 ≤ c.popPart ∧ c.popPart < two64) →
    (1 ≤ c.projPart ∧ c.projPart < two64) →
    ∀ (pops : List (Learn.Pop (Lif ℚ) (Blifat ℚ) ℚ)) (projs : List (Learn.Proj ℚ)) (inputs : List (UID × UID)) (chans : Nat),
    (pops.map Learn.Pop.uid).Nodup → (projs.map (fun j => j.ident.uid)).Nodup → (∀ p ∈ pops, OrderFree p) →
    (∀ j ∈ projs, PlainProj (wired j.syns)) → (∀ j ∈ projs, FindOk (trainable j)) →
    ∀ (envs : List (Sys.Env ℚ × Learn.Sched)), (∀ env ∈ envs, ∀ op ∈ env.1, Foreign chans op) →
    ∀ s os s' os', Learn.runSingle (Learn.machine o) (Learn.boot (Learn.machine o) pops projs inputs chans) (envs.map (·.1)) = .ok (s, os) →
      Learn.runMulti (Learn.machine o) (Learn.threads o c) (Learn.boot (Learn.machine o) pops projs inputs chans) envs =
        some (.ok (s', os')) → s'.projs.map learned = s.projs.map learned

namespace LearnMultiEx
open LearnEx

private def xEnvs : List (Sys.Env ℚ × Learn.Sched) :=
  [([.send 1 (.spike ⟨⟨50, 0⟩, [0]⟩), .send 1 (.spike ⟨⟨51, 0⟩, [1]⟩)],
    { sched true false false with projs := [[1, 0], [], [], []] }), ([], sched false true false), ([], sched false false true)]
private def xSingle := Learn.runSingle (Learn.machine StdpEx.o)
  (Learn.boot (Learn.machine StdpEx.o) pops projs [(10, 50), (10, 51)] 1) (xEnvs.map (·.1))
private def xMulti := Learn.runMulti (Learn.machine StdpEx.o) (Learn.threads StdpEx.o config)
  (Learn.boot (Learn.machine StdpEx.o) pops projs [(10, 50), (10, 51)] 1) xEnvs

private def shownL (x : Delta.Ident × Bool × Learn.Syns ℚ) : List (ℚ × ℚ × Nat) :=
  match x.2.2 with
  | .resource _ s _ _ => s.map (fun y => (y.weight, y.rule.resource, y.rule.lastSpikeStep))
  | _ => []

end LearnMultiEx

open LearnEx LearnMultiEx in
/-- ... and is false: a projection with two input channels that send in the same step hears both of them on one backend and one of
them on the other, where the second synapse then learns nothing. -/
theorem C125_refuted : ¬ C125_statement := by
  intro h
  have e1 : (final xSingle).map shown = [[(28 / 23, 7 / 4, 0), (44 / 27, 11 / 4, 0)], [(2, 2, 0), (2, 3, 0)], [], [(2, 2, 2), (2, 3, 0)]] := by
    decide +kernel
  have e2 : (final (xMulti.getD .ub)).map shown = [[(28 / 23, 7 / 4, 0), (2, 3, 0)], [(2, 2, 0), (2, 3, 0)], [], [(2, 2, 2), (2, 3, 0)]] := by
    decide +kernel
  have o1 : xSingle.isOk = true := by decide +kernel
  have o2 : (xMulti.getD .ub).isOk = true := by decide +kernel
  cases hx : xSingle with
  | throw w => rw [hx] at o1; cases o1
  | ub => rw [hx] at o1; cases o1
  | ok a =>
    cases hy : xMulti with
    | none => rw [hy] at o2; cases o2
    | some b =>
      rw [hy] at o2
      simp only [Option.getD_some] at o2
      cases b with
      | throw w => cases o2
      | ub => cases o2
      | ok b =>
        have := h StdpEx.o config (by intro w; simp [config]) (by decide) (by decide) LearnMultiEx.pops LearnMultiEx.projs [(10, 50), (10, 51)] 1
          (by decide) (by decide) orderFree (fun j hj => (plain j hj).1) (fun j hj => (plain j hj).2)
          xEnvs (by simp [xEnvs, Foreign]) a.1 a.2 b.1 b.2 hx hy
        rw [hx] at e1
        rw [hy] at e2
        simp only [final, Option.getD_some] at e1 e2
        have l1 : ∀ l : List (Learn.Proj ℚ), l.map shown = (l.map learned).map shownL := by
          intro l
          rw [List.map_map]
          rfl
        rw [l1] at e1 e2
        rw [this, e1] at e2
        revert e2
        decide +kernel

end Knp.Props
