import Verif.Lemmas.LearnNeuron

/-! # C111-C115 (and C56-C58, C89 over whole runs): a learning network on the single-threaded backend -/

namespace Knp.Props
open Knp Knp.Bus Knp.Spec Knp.Neurons Knp.Stdp Knp.Lemmas.Stdp

/-- Both trained neuron types meet the condition. -/
theorem C56_run_kinds {F : Type} [Arith F] : Learn.KeepsResource (resBlifat (F := F)) ∧ Learn.KeepsResource (resAltai (F := F)) := by
  obtain ⟨h1, h2⟩ := C56_population_step (F := F)
  exact ⟨⟨fun n => ⟨(h1 n).1, (h1 n).2.1⟩, fun n => ⟨(h1 n).2.2.1, (h1 n).2.2.2.1⟩, fun n => (h1 n).2.2.2.2⟩,
    ⟨fun n => ⟨(h2 n).1, (h2 n).2.1⟩, fun n => ⟨(h2 n).2.2.1, (h2 n).2.2.2.1⟩, fun n => (h2 n).2.2.2.2⟩⟩

section
variable {N B F : Type} [Field F] [LinearOrder F]

/-! ## C111 -/

/-- What of a run can be seen. -/
def learnVisible : Outcome (Learn.State (Learn.Pop N B F) (Learn.Proj F) F × List (Sys.StepOut F)) →
    Outcome ((List (Learn.Pop N B F) × List (Learn.Proj F)) × List (Sys.StepOut F))
  | .ok r => .ok ((r.1.pops, r.1.projs), r.2)
  | .throw w => .throw w
  | .ub => .ub

omit [Field F] [LinearOrder F] in
theorem hearing_wires (projs : List (Learn.Proj F)) (inputs : List (UID × UID)) :
    hearingOfWires (projs.map Learn.wireOf) inputs = learnHearing projs inputs := by
  have hu : ∀ j : Learn.Proj F, (Learn.wireOf j).uid = j.ident.uid ∧ (Learn.wireOf j).pre = j.ident.pre ∧
      (Learn.wireOf j).post = j.ident.post ∧
      ∀ s, ((Learn.wireOf j).isStdp && (Learn.wireOf j).stdpPops.contains s) = true ↔ s ∈ trainersOf j.syns := by
    intro j
    unfold Learn.wireOf trainersOf
    cases j.syns <;> simp
  unfold hearingOfWires learnHearing
  congr 1
  · funext r s
    rw [Bool.eq_iff_iff]
    simp only [Bool.and_eq_true, decide_eq_true_eq, List.any_eq_true, List.mem_map, beq_iff_eq]
    constructor
    · rintro ⟨h0, w, ⟨j, hj, rfl⟩, h1, h2⟩
      exact ⟨h0, j, hj, (hu j).2.2.1.symm.trans h1, (hu j).1.symm.trans h2⟩
    · rintro ⟨h0, j, hj, h1, h2⟩
      exact ⟨h0, _, ⟨j, hj, rfl⟩, (hu j).2.2.1.trans h1, (hu j).1.trans h2⟩
  · funext r s
    rw [Bool.eq_iff_iff]
    simp only [Bool.or_eq_true, Bool.and_eq_true, decide_eq_true_eq, List.any_eq_true, List.mem_map, beq_iff_eq, List.contains_iff_mem]
    constructor
    · rintro (⟨h0, w, ⟨j, hj, rfl⟩, h1, h2⟩ | h)
      · refine Or.inl ⟨h0, j, hj, (hu j).1.symm.trans h1, ?_⟩
        rcases h2 with h2 | h2
        · exact Or.inl ((hu j).2.1.symm.trans h2)
        · exact Or.inr (((hu j).2.2.2 s).1 (by simpa using h2))
      · exact Or.inr h
    · rintro (⟨h0, j, hj, h1, h2⟩ | h)
      · refine Or.inl ⟨h0, _, ⟨j, hj, rfl⟩, (hu j).1.trans h1, ?_⟩
        rcases h2 with h2 | h2
        · exact Or.inl ((hu j).2.1.trans h2)
        · exact Or.inr (by simpa using ((hu j).2.2.2 s).2 h2)
      · exact Or.inr h

/-- C111. C104 for all population and projection types of the single-threaded backend, with training: a run of any length computes
the dataflow of `Spec/Learn.lean`, in which populations act in their order on the same projections, impacts arrive in the next
step and spikes - also those of populations a projection is trained with - in the same step. -/
theorem C111_dataflow (o : Ops F) (pops : List (Learn.Pop N B F)) (projs : List (Learn.Proj F)) (inputs : List (UID × UID))
    (chans : Nat) (hnp : (pops.map Learn.Pop.uid).Nodup) (hnj : (projs.map (fun j => j.ident.uid)).Nodup)
    (envs : List (Sys.Env F)) (hf : ∀ env ∈ envs, ∀ op ∈ env, Foreign chans op) :
    learnVisible (Learn.runSingle (Learn.machine o) (Learn.boot (Learn.machine o) pops projs inputs chans) envs) =
      learnRun (Learn.machine o) (learnHearing projs inputs) 0 pops projs [] (envs.map (extOf chans)) := by
  rw [← hearing_wires]
  obtain ⟨e0, hb⟩ := Learn.boot_between (Learn.machine o) pops projs inputs chans
  have hp : (Learn.boot (Learn.machine o) pops projs inputs chans).pops = pops := rfl
  have hj : (Learn.boot (Learn.machine o) pops projs inputs chans).projs = projs := rfl
  have hs : (Learn.boot (Learn.machine o) pops projs inputs chans).step = 0 := rfl
  have hw : projs.map (Learn.machine (N := N) (B := B) o).wire = projs.map Learn.wireOf := rfl
  have := Learn.run_spec (Learn.machine_keeps o) envs _ [] e0 hb (by rw [hp]; exact hnp) (by rw [hj]; exact hnj) hf
  rw [hp, hj, hs, hw] at this
  cases hr : learnRun (Learn.machine o) (hearingOfWires (projs.map Learn.wireOf) inputs) 0 pops projs []
      (envs.map (extOf chans)) with
  | throw w => rw [hr] at this; simp only at this; rw [this]; rfl
  | ub => rw [hr] at this; simp only at this; rw [this]; rfl
  | ok x =>
    obtain ⟨st, os⟩ := x
    rw [hr] at this
    simp only at this
    obtain ⟨s', h1, h2, h3, _⟩ := this
    rw [h1]
    simp only [learnVisible, h2, h3]

/-- A network on the backend and a run of it that ended normally. -/
structure LearnRun (o : Ops F) (pops : List (Learn.Pop N B F)) (projs : List (Learn.Proj F)) (inputs : List (UID × UID))
    (chans : Nat) (envs : List (Sys.Env F)) (s : Learn.State (Learn.Pop N B F) (Learn.Proj F) F) (os : List (Sys.StepOut F)) :
    Prop where
  popUids : (pops.map Learn.Pop.uid).Nodup
  projUids : (projs.map (fun j => j.ident.uid)).Nodup
  queues : ∀ j ∈ projs, j.queue = []
  foreign : ∀ env ∈ envs, ∀ op ∈ env, Foreign chans op
  run : Learn.runSingle (Learn.machine o) (Learn.boot (Learn.machine o) pops projs inputs chans) envs = .ok (s, os)

variable {o : Ops F} {pops : List (Learn.Pop N B F)} {projs : List (Learn.Proj F)} {inputs : List (UID × UID)}
  {chans : Nat} {envs : List (Sys.Env F)} {s : Learn.State (Learn.Pop N B F) (Learn.Proj F) F} {os : List (Sys.StepOut F)}

private theorem flow (h : LearnRun o pops projs inputs chans envs s os) :
    learnRun (Learn.machine o) (learnHearing projs inputs) 0 pops projs [] (envs.map (extOf chans)) =
      .ok ((s.pops, s.projs), os) := by
  rw [← C111_dataflow o pops projs inputs chans h.popUids h.projUids envs h.foreign, h.run]
  rfl

/-- A prefix of such a run is such a run. -/
theorem LearnRun.upTo (h : LearnRun o pops projs inputs chans envs s os) (i : Nat) :
    ∃ s1, LearnRun o pops projs inputs chans (envs.take i) s1 (os.take i) := by
  obtain ⟨st, hst⟩ := Learn.learnRun_take _ _ _ _ _ _ _ i (flow h)
  rw [← List.map_take] at hst
  have hf : ∀ env ∈ envs.take i, ∀ op ∈ env, Foreign chans op := fun env he => h.foreign env (List.mem_of_mem_take he)
  have href := C111_dataflow o pops projs inputs chans h.popUids h.projUids (envs.take i) hf
  rw [hst] at href
  cases hr : Learn.runSingle (Learn.machine o) (Learn.boot (Learn.machine o) pops projs inputs chans) (envs.take i) with
  | throw w => rw [hr] at href; simp [learnVisible] at href
  | ub => rw [hr] at href; simp [learnVisible] at href
  | ok x =>
    rw [hr] at href
    simp only [learnVisible, Outcome.ok.injEq, Prod.mk.injEq] at href
    refine ⟨x.1, h.popUids, h.projUids, h.queues, hf, ?_⟩
    rw [hr, ← href.2]

private theorem queueOk (h : LearnRun o pops projs inputs chans envs s os) : ∀ j ∈ projs, Learn.QueueOk j := by
  intro j hj e he
  rw [h.queues j hj] at he
  simp at he

/-- One output for every step. -/
theorem LearnRun.length (h : LearnRun o pops projs inputs chans envs s os) : os.length = envs.length := by
  obtain ⟨f1, _⟩ := Learn.learnRun_ok _ _ _ _ _ _ _ (flow h) h.projUids (queueOk h)
  rw [f1, List.length_map]

/-! ## C58, C57 over whole runs -/

omit [Field F] [LinearOrder F] in
theorem retime (s s0 : RSyn F) (h : Learn.touch 0 s = Learn.touch 0 s0) :
    s = { s0 with rule := { s0.rule with lastSpikeStep := s.rule.lastSpikeStep } } := by
  obtain ⟨a, b, c, d, e, r⟩ := s
  obtain ⟨a', b', c', d', e', r'⟩ := s0
  obtain ⟨r1, r2, r3, r4, r5, r6, r7, r8⟩ := r
  obtain ⟨q1, q2, q3, q4, q5, q6, q7, q8⟩ := r'
  simp only [Learn.touch, RSyn.mk.injEq, SynRule.mk.injEq] at h ⊢
  simp_all

/-- C58 for whole runs of the backend: a locked projection of resource synapses is, after any run, exactly as loaded except for
the recorded spike steps (and its queue). -/
theorem C58_run (h : LearnRun o pops projs inputs chans envs s os) (n : Nat) (j : Learn.Proj F) (hj : projs[n]? = some j)
    (hl : j.locked = true) (sp : List (UID × Processing)) (syns : List (RSyn F)) (pre post : Nat → List Nat)
    (hs : j.syns = .resource sp syns pre post) :
    ∃ j' syns', s.projs[n]? = some j' ∧ j'.syns = .resource sp syns' pre post ∧ syns'.length = syns.length ∧
      ∀ (k : Nat) (y y' : RSyn F), syns[k]? = some y → syns'[k]? = some y' →
        y' = { y with rule := { y.rule with lastSpikeStep := y'.rule.lastSpikeStep } } := by
  obtain ⟨_, _, f3, _⟩ := Learn.learnRun_ok _ _ _ _ _ _ _ (flow h) h.projUids (queueOk h)
  obtain ⟨es, j', h1, h2, _⟩ := f3 n j hj
  have gen : ∀ {t : Nat} {a b : Learn.Proj F} {es : List (Learn.Entry F)}, Learn.Trace o t a es b → a.locked = true →
      ∀ ss, a.syns = .resource sp ss pre post → ∃ ss', b.syns = .resource sp ss' pre post ∧
        ss'.map (Learn.touch 0) = ss.map (Learn.touch 0) := by
    intro t a b es htr
    induction htr with
    | nil t a => intro _ ss hss; exact ⟨ss, hss, rfl⟩
    | @cons t a mid b ms es p1 p2 ih =>
      intro hl ss hss
      have hm := p1.lock hl
      subst hm
      have e1 : (Learn.projStep o t mid ms).1.syns = .resource sp (Learn.touchAll t pre ms ss) pre post := by
        unfold Learn.projStep; rw [hss]
      obtain ⟨ss', g1, g2⟩ := ih ((Learn.projStep_ident o t mid ms).2.trans hl) _ e1
      exact ⟨ss', g1, g2.trans (Learn.touchAll_untimed _ _ _ _)⟩
  obtain ⟨ss', g1, g2⟩ := gen h2 hl syns hs
  refine ⟨j', ss', h1, g1, by simpa using congrArg List.length g2, ?_⟩
  intro k y y' hy hy'
  have := congrArg (fun l => l[k]?) g2
  simp only [List.getElem?_map, hy, hy', Option.map_some, Option.some.injEq] at this
  exact retime y' y this

/-- C58, projections without a learning rule: after any run the synapses of a delta projection are those it was loaded with. -/
theorem C58_run_delta (h : LearnRun o pops projs inputs chans envs s os) (n : Nat) (j : Learn.Proj F) (hj : projs[n]? = some j)
    (d : Delta.Proj F) (hs : j.syns = .delta d) : ∃ j', s.projs[n]? = some j' ∧ j'.ident = j.ident ∧ j'.syns = .delta d := by
  obtain ⟨_, _, f3, _⟩ := Learn.learnRun_ok _ _ _ _ _ _ _ (flow h) h.projUids (queueOk h)
  obtain ⟨es, j', h1, h2, _⟩ := f3 n j hj
  have gen : ∀ {t : Nat} {a b : Learn.Proj F} {es : List (Learn.Entry F)}, Learn.Trace o t a es b → a.syns = .delta d →
      b.ident = a.ident ∧ b.syns = .delta d := by
    intro t a b es htr
    induction htr with
    | nil t a => intro hss; exact ⟨rfl, hss⟩
    | @cons t a mid b ms es p1 p2 ih =>
      intro hss
      have hm := p1.other (by rw [hss]; intro _ _ _ _ hc; cases hc)
      subst hm
      have e1 : (Learn.projStep o t mid ms).1.syns = .delta d := by
        unfold Learn.projStep; rw [hss]
      obtain ⟨g1, g2⟩ := ih e1
      exact ⟨g1.trans (Learn.projStep_ident o t mid ms).1, g2⟩
  obtain ⟨g1, g2⟩ := gen h2 hs
  exact ⟨j', h1, g1, g2⟩

/-- C57 for whole runs of the backend: after any run every resource synapse has its loaded weight and resource, or the weight its
resource demands, which lies in `[w_min, w_max)` if `w_min < w_max`. -/
theorem C57_run [IsStrictOrderedRing F] (h : LearnRun o pops projs inputs chans envs s os) (n : Nat) (j : Learn.Proj F)
    (hj : projs[n]? = some j) (sp : List (UID × Processing)) (syns : List (RSyn F)) (pre post : Nat → List Nat)
    (hs : j.syns = .resource sp syns pre post) :
    ∃ j' syns', s.projs[n]? = some j' ∧ j'.syns = .resource sp syns' pre post ∧ syns'.length = syns.length ∧
      ∀ (k : Nat) (y : RSyn F), syns[k]? = some y → ∃ y', syns'[k]? = some y' ∧
        y'.rule.wMin = y.rule.wMin ∧ y'.rule.wMax = y.rule.wMax ∧
        ((y'.weight = y.weight ∧ y'.rule.resource = y.rule.resource) ∨
         (y'.weight = weightOf o y'.rule ∧
          (y.rule.wMin < y.rule.wMax → y.rule.wMin ≤ y'.weight ∧ y'.weight < y.rule.wMax))) := by
  obtain ⟨_, _, f3, _⟩ := Learn.learnRun_ok _ _ _ _ _ _ _ (flow h) h.projUids (queueOk h)
  obtain ⟨es, j', h1, h2, _⟩ := f3 n j hj
  have gen : ∀ {t : Nat} {a b : Learn.Proj F} {es : List (Learn.Entry F)}, Learn.Trace o t a es b →
      ∀ ss, a.syns = .resource sp ss pre post → ∃ ss', b.syns = .resource sp ss' pre post ∧ ss'.length = ss.length ∧
        ∀ (k : Nat) (y : RSyn F), ss[k]? = some y → ∃ y', ss'[k]? = some y' ∧
          y'.rule.wMin = y.rule.wMin ∧ y'.rule.wMax = y.rule.wMax ∧ Recalculated o y y' := by
    intro t a b es htr
    induction htr with
    | nil t a => intro ss hss; exact ⟨ss, hss, rfl, fun k y hy => ⟨y, hy, rfl, rfl, Or.inl ⟨rfl, rfl⟩⟩⟩
    | @cons t a mid b ms es p1 p2 ih =>
      intro ss hss
      obtain ⟨s1, q1, q2, q3⟩ := p1.syns _ _ _ _ hss
      have e1 : (Learn.projStep o t mid ms).1.syns = .resource sp (Learn.touchAll t pre ms s1) pre post := by
        unfold Learn.projStep; rw [q1]
      obtain ⟨ss', g1, g2, g3⟩ := ih _ e1
      have hun := Learn.touchAll_untimed t pre ms s1
      refine ⟨ss', g1, ?_, ?_⟩
      · rw [g2, Learn.touchAll_length, q2]
      · intro k y hy
        obtain ⟨y1, r1, r2, r3⟩ := q3 k y hy
        have hk := congrArg (fun l => l[k]?) hun
        simp only [List.getElem?_map, r1, Option.map_some] at hk
        obtain ⟨y2, u1, u2⟩ := Option.map_eq_some_iff.1 hk
        obtain ⟨y3, v1, v2, v3, v4⟩ := g3 k y2 u1
        have hy2 := retime y2 y1 u2
        have w1 : y2.rule.wMin = y1.rule.wMin := by rw [hy2]
        have w2 : y2.rule.wMax = y1.rule.wMax := by rw [hy2]
        have w3 : y2.rule.resource = y1.rule.resource := by rw [hy2]
        have w4 : y2.weight = y1.weight := by rw [hy2]
        obtain ⟨_, _, _, _, x5, x6, _⟩ := r2
        refine ⟨y3, v1, v2.trans (w1.trans x5), v3.trans (w2.trans x6), ?_⟩
        have c1 : Recalculated o y y2 := by
          rcases r3 with ⟨a1, a2⟩ | a
          · exact Or.inl ⟨w4.trans a1, w3.trans a2⟩
          · right; rw [w4, a, weightOf_congr o w1 w2 w3]
        rcases v4 with ⟨a1, a2⟩ | a
        · rcases c1 with ⟨b1, b2⟩ | b
          · exact Or.inl ⟨a1.trans b1, a2.trans b2⟩
          · right; rw [a1, b, weightOf_congr o v2 v3 a2]
        · exact Or.inr a
  obtain ⟨ss', g1, g2, g3⟩ := gen h2 syns hs
  refine ⟨j', ss', h1, g1, g2, fun k y hy => ?_⟩
  obtain ⟨y', a1, a2, a3, a4⟩ := g3 k y hy
  refine ⟨y', a1, a2, a3, ?_⟩
  rcases a4 with a4 | a4
  · exact Or.inl a4
  · right
    refine ⟨a4, fun hlt => ?_⟩
    have b := C57_bounds o y'.rule (by rw [a2, a3]; exact hlt)
    rw [a2, a3] at b
    rw [a4]
    exact ⟨b.1, b.2.1⟩

/-! ## C56 over whole runs -/

omit [Field F] [LinearOrder F] in
theorem toR_eq : (Learn.Proj.toR : Learn.Proj F → RProj F) = trainable := by
  funext j
  unfold Learn.Proj.toR trainable
  cases j.syns <;> rfl

/-- C56 for whole runs of the backend: however long the network runs and whatever it is given, the free resource of a neuron plus
the resource of its trainable synapses stays as loaded - also while other populations are trained.  Partial for the reasons given
at `C56_conserved_partial`: no drain, at least one trainable synapse for every neuron. -/
theorem C56_run_partial [IsStrictOrderedRing F] (h : LearnRun o pops projs inputs chans envs s os) (n : Nat) (u : UID)
    (k : Kind (Res B F) F) (b : BaseOps B F) (ns : List (Res B F)) (hn : pops[n]? = some (.trained u k b ns))
    (hk : Learn.KeepsResource k) (hf : ∀ j ∈ projs, FindOk (trainable j))
    (hd : ∀ i r, ns[i]? = some r → r.rule.drain = 0 ∧ 0 < fanIn u (projs.map trainable) i) :
    ∃ ns', s.pops[n]? = some (.trained u k b ns') ∧
      ∀ i, Spec.total u ⟨ns', s.projs.map trainable⟩ i = Spec.total u ⟨ns, projs.map trainable⟩ i := by
  simp only [← toR_eq] at hf hd ⊢
  obtain ⟨ns', h1, h2⟩ := Learn.learnRun_history hk _ _ _ _ _ _ _ (flow h) h.popUids n ns hn (.start _)
  refine ⟨ns', h1, fun i => C56_history_partial ?_ hd h2 i⟩
  intro p hp
  obtain ⟨j, hj, rfl⟩ := List.mem_map.1 hp
  exact hf j hj

/-! ## C89 over whole runs -/

private theorem initProjection_keeps : ∀ (ms : List SpikeMessage) (p : AProj F),
    (initProjection p ms).1.locked = p.locked ∧ (initProjection p ms).1.stdpPops = p.stdpPops ∧
      (initProjection p ms).1.findPost = p.findPost := by
  intro ms
  induction ms with
  | nil => intro p; exact ⟨rfl, rfl, rfl⟩
  | cons m ms ih =>
    intro p
    have h1 : (initMessage p m).1.locked = p.locked ∧ (initMessage p m).1.stdpPops = p.stdpPops ∧
        (initMessage p m).1.findPost = p.findPost := by
      unfold initMessage
      split <;> exact ⟨rfl, rfl, rfl⟩
    obtain ⟨a, b, c⟩ := ih (initMessage p m).1
    exact ⟨a.trans h1.1, b.trans h1.2.1, c.trans h1.2.2⟩

/-- C85, C88, C89 for whole runs of the backend: an additive STDP projection is, after any run, what its rule makes of the messages
it heard, step by step - nothing else changes it (populations do not train it) - so its spike histories stay bounded. -/
theorem C89_run [IsStrictOrderedRing F] (h : LearnRun o pops projs inputs chans envs s os) (n : Nat)
    (j : Learn.Proj F) (hj : projs[n]? = some j) (reg : List (UID × Processing)) (syns : List (ASyn F))
    (pre post : Nat → List Nat) (hs : j.syns = .additive reg syns pre post) :
    ∃ j', s.projs[n]? = some j' ∧ j'.ident = j.ident ∧ j'.locked = j.locked ∧
      j'.syns = .additive reg ((os.map (fun out => heardBy out j.ident.uid)).foldl (additiveStep o)
        ⟨j.locked, reg, syns, post⟩).syns pre post ∧
      ((∀ y ∈ syns, 0 ≤ y.tauMinus + y.tauPlus ∧ y.preTimes = [] ∧ y.postTimes = []) →
        ∃ syns', j'.syns = .additive reg syns' pre post ∧ ∀ y ∈ syns', WithinLimit y) := by
  obtain ⟨_, _, f3, _⟩ := Learn.learnRun_ok _ _ _ _ _ _ _ (flow h) h.projUids (queueOk h)
  obtain ⟨es, j', h1, h2, h3, _⟩ := f3 n j hj
  have gen : ∀ {t : Nat} {a b : Learn.Proj F} {es : List (Learn.Entry F)}, Learn.Trace o t a es b →
      ∀ ss, a.syns = .additive reg ss pre post → b.ident = a.ident ∧ b.locked = a.locked ∧
        b.syns = .additive reg ((es.map (fun e => e.msgs)).foldl (additiveStep o) ⟨a.locked, reg, ss, post⟩).syns pre post := by
    intro t a b es htr
    induction htr with
    | nil t a => intro ss hss; exact ⟨rfl, rfl, hss⟩
    | @cons t a mid b ms es p1 p2 ih =>
      intro ss hss
      have hm := p1.other (by intro a b c d he; rw [hss] at he; cases he)
      subst hm
      obtain ⟨i1, i2, i3⟩ := ih ((initProjection ⟨mid.locked, reg, ss, post⟩ ms).1.syns.map (modifyWeight o)) (by
        unfold Learn.projStep; rw [hss])
      obtain ⟨k1, k2⟩ := Learn.projStep_ident o t mid ms
      refine ⟨i1.trans k1, i2.trans k2, ?_⟩
      rw [i3, List.map_cons, List.foldl_cons, k2]
      have hst : additiveStep o ⟨mid.locked, reg, ss, post⟩ ms =
          ⟨mid.locked, reg, (initProjection ⟨mid.locked, reg, ss, post⟩ ms).1.syns.map (modifyWeight o), post⟩ := by
        obtain ⟨q1, q2, q3⟩ := initProjection_keeps ms ⟨mid.locked, reg, ss, post⟩
        unfold additiveStep
        simp only [q1, q2, q3]
      rw [hst]
  obtain ⟨g1, g2, g3⟩ := gen h2 syns hs
  rw [h3] at g3
  refine ⟨j', h1, g1, g2, g3, fun hy => ⟨_, g3, ?_⟩⟩
  exact C89_bounded_history o _ _ hy

/-! ## C112 -/

/-- Did neuron `n` spike in the messages of a step? -/
def spikedIn (n : Nat) (ms : List SpikeMessage) : Prop := ∃ m ∈ ms, n ∈ m.neuronIndexes

instance (n : Nat) (ms : List SpikeMessage) : Decidable (spikedIn n ms) := by unfold spikedIn; infer_instance

/-- The last step in which neuron `n` was heard, or `init`. -/
def lastHeard (n : Nat) : Nat → Nat → List (List SpikeMessage) → Nat
  | _, init, [] => init
  | t, init, ms :: mss =>
    lastHeard n (t + 1) (if spikedIn n ms then t else init) mss

theorem lastHeard_spec (n : Nat) : ∀ (mss : List (List SpikeMessage)) (t init : Nat),
    (∀ i (_ : i < mss.length), spikedIn n mss[i] → (∀ i' (_ : i' < mss.length), i < i' → ¬ spikedIn n mss[i']) →
      lastHeard n t init mss = t + i) ∧
    ((∀ i (_ : i < mss.length), ¬ spikedIn n mss[i]) → lastHeard n t init mss = init) := by
  intro mss
  induction mss with
  | nil => intro t init; exact ⟨fun i h => by simp at h, fun _ => rfl⟩
  | cons ms mss ih =>
    intro t init
    unfold lastHeard
    obtain ⟨h1, h2⟩ := ih (t + 1) (if spikedIn n ms then t else init)
    refine ⟨?_, ?_⟩
    · intro i hi hs hl
      cases i with
      | zero =>
        have hs' : spikedIn n ms := hs
        have hz : ∀ i (_ : i < mss.length), ¬ spikedIn n mss[i] := fun i hi' =>
          hl (i + 1) (by simpa using hi') (by omega)
        rw [h2 hz, if_pos hs']; rfl
      | succ i =>
        have := h1 i (by simpa using hi) hs (fun i' hi' hlt => hl (i' + 1) (by simpa using hi') (by omega))
        rw [this]; omega
    · intro hz
      have hs' : ¬ spikedIn n ms := hz 0 (by simp)
      rw [h2 (fun i hi' => hz (i + 1) (by simpa using hi')), if_neg hs']

/-- C112. `last_spike_step` of a resource synapse is, after any run, the last step in which its source neuron was in a spike
message the projection heard; if there was none, it is as loaded.  Training reads this value (C90). -/
theorem C112_last_spike_step (h : LearnRun o pops projs inputs chans envs s os) (n : Nat) (j : Learn.Proj F)
    (hj : projs[n]? = some j) (sp : List (UID × Processing)) (syns : List (RSyn F)) (pre post : Nat → List Nat)
    (hs : j.syns = .resource sp syns pre post)
    (hfind : ∀ (m k : Nat) (y : RSyn F), syns[k]? = some y → (k ∈ pre m ↔ y.source = m))
    (k : Nat) (y : RSyn F) (hy : syns[k]? = some y) :
    ∃ j' syns' y', s.projs[n]? = some j' ∧ j'.syns = .resource sp syns' pre post ∧ syns'[k]? = some y' ∧
      (∀ i (_ : i < os.length), spikedIn y.source (heardBy os[i] j.ident.uid) →
        (∀ i' (_ : i' < os.length), i < i' → ¬ spikedIn y.source (heardBy os[i'] j.ident.uid)) →
        y'.rule.lastSpikeStep = i) ∧
      ((∀ i (_ : i < os.length), ¬ spikedIn y.source (heardBy os[i] j.ident.uid)) →
        y'.rule.lastSpikeStep = y.rule.lastSpikeStep) := by
  obtain ⟨f1, _, f3, _⟩ := Learn.learnRun_ok _ _ _ _ _ _ _ (flow h) h.projUids (queueOk h)
  obtain ⟨es, j', h1, h2, h3, _⟩ := f3 n j hj
  have gen : ∀ {t : Nat} {a b : Learn.Proj F} {es : List (Learn.Entry F)}, Learn.Trace o t a es b →
      ∀ ss, a.syns = .resource sp ss pre post → Learn.PreOk pre ss → ∀ (y : RSyn F), ss[k]? = some y →
        ∃ ss' y', b.syns = .resource sp ss' pre post ∧ ss'[k]? = some y' ∧
          y'.rule.lastSpikeStep = lastHeard y.source t y.rule.lastSpikeStep (es.map (fun e => e.msgs)) := by
    intro t a b es htr
    induction htr with
    | nil t a => intro ss hss _ y hy; exact ⟨ss, y, hss, hy, rfl⟩
    | @cons t a mid b ms es p1 p2 ih =>
      intro ss hss hp y hy
      obtain ⟨s1, q1, q2, q3⟩ := p1.syns _ _ _ _ hss
      have hp1 : Learn.PreOk pre s1 := by
        intro n' k' y' hy'
        have hlt : k' < ss.length := by
          rw [← q2]; exact (List.getElem?_eq_some_iff.1 hy').1
        obtain ⟨y2, r1, r2, _⟩ := q3 k' ss[k'] (List.getElem?_eq_getElem hlt)
        have : y2 = y' := Option.some.inj (r1.symm.trans hy')
        subst this
        rw [hp n' k' ss[k'] (List.getElem?_eq_getElem hlt), r2.1]
      have e1 : (Learn.projStep o t mid ms).1.syns = .resource sp (Learn.touchAll t pre ms s1) pre post := by
        unfold Learn.projStep; rw [q1]
      obtain ⟨y1, r1, r2, _⟩ := q3 k y hy
      have hk := Learn.touchAll_get t pre k ms s1 y1 hp1 r1
      have hp2 : Learn.PreOk pre (Learn.touchAll t pre ms s1) := by
        intro n' k' y' hy'
        have hlt : k' < s1.length := by
          rw [← Learn.touchAll_length t pre ms s1]; exact (List.getElem?_eq_some_iff.1 hy').1
        have := Learn.touchAll_get t pre k' ms s1 _ hp1 (List.getElem?_eq_getElem hlt)
        rw [hy'] at this
        have hsrc : y'.source = s1[k'].source := by
          rw [Option.some.inj this]; split <;> rfl
        rw [hsrc]
        exact hp1 n' k' _ (List.getElem?_eq_getElem hlt)
      obtain ⟨ss', y', g1, g2, g3⟩ := ih _ e1 hp2 _ hk
      refine ⟨ss', y', g1, g2, ?_⟩
      rw [g3, List.map_cons]
      have hsrc : y1.source = y.source := r2.1
      have hlast : y1.rule.lastSpikeStep = y.rule.lastSpikeStep := r2.2.2.2.2.2.2.2.2
      conv_rhs => unfold lastHeard
      by_cases hc : spikedIn y.source ms
      · have hc' : ∃ m ∈ ms, y1.source ∈ m.neuronIndexes := by rw [hsrc]; exact hc
        rw [if_pos hc', if_pos hc]
        show lastHeard y1.source _ _ _ = _
        rw [hsrc]; rfl
      · have hc' : ¬ ∃ m ∈ ms, y1.source ∈ m.neuronIndexes := by rw [hsrc]; exact hc
        rw [if_neg hc', if_neg hc, hsrc, hlast]
  obtain ⟨ss', y', g1, g2, g3⟩ := gen h2 syns hs hfind y hy
  obtain ⟨l1, l2⟩ := lastHeard_spec y.source (es.map (fun e => e.msgs)) 0 y.rule.lastSpikeStep
  rw [← g3, h3] at l1 l2
  refine ⟨j', ss', y', h1, g1, g2, ?_, ?_⟩
  · intro i hi a1 a2
    have := l1 i (by simpa using hi) (by simpa using a1) (fun i' hi' hlt => by
      have := a2 i' (by simpa using hi') hlt
      simpa using this)
    omega
  · intro a
    exact l2 (fun i hi => by
      have := a i (by simpa using hi)
      simpa using this)

/-! ## C113 -/

/-- The messages a projection turns into impacts: all it hears, except that an additive STDP projection only learns from
populations registered as `STDPOnly`. -/
def conducted (j : Learn.Proj F) (ms : List SpikeMessage) : List SpikeMessage :=
  match j.syns with
  | .additive pops _ _ _ => ms.filter (fun m => !decide (processingOf pops m.header.senderUid = some .stdpOnly))
  | _ => ms

/-- How many steps must be over for a synapse to have the weight used in step `t`: populations train before projections send, an
additive projection changes its weights after it sent. -/
def weightAfter (j : Learn.Proj F) (t : Nat) : Nat :=
  match j.syns with
  | .additive _ _ _ _ => t
  | _ => t + 1

/-- The impacts of synapse `k` of projection `u` among the given messages. -/
def impactsThrough (u : UID) (k : Nat) (ms : List (SynapticImpactMessage F)) : List (SynapticImpact F) :=
  ((ms.filter (fun m => m.header.senderUid == u)).flatMap (·.impacts)).filter (fun im => im.connectionIndex == k)

private theorem spikesOf_heeded (pops : List (UID × Processing)) (n : Nat) : ∀ ms : List SpikeMessage,
    spikesOf n (ms.map (Learn.heeded pops)) =
      spikesOf n (ms.filter (fun m => !decide (processingOf pops m.header.senderUid = some .stdpOnly))) := by
  intro ms
  induction ms with
  | nil => rfl
  | cons m ms ih =>
    have e : ∀ (a : SpikeMessage) l, spikesOf n (a :: l) = a.neuronIndexes.count n + spikesOf n l := by
      intro a l; simp [spikesOf]
    rw [List.map_cons, e, ih]
    by_cases hm : processingOf pops m.header.senderUid = some .stdpOnly
    · rw [List.filter_cons_of_neg (by simp [hm])]
      simp [Learn.heeded, hm]
    · rw [List.filter_cons_of_pos (by simpa using hm), e]
      simp [Learn.heeded, hm]

private theorem trace_additive {t : Nat} {j j' : Learn.Proj F} {es : List (Learn.Entry F)} (h : Learn.Trace o t j es j')
    {pops : List (UID × Processing)} {pre post : Nat → List Nat} :
    ∀ syns, j.syns = .additive pops syns pre post →
      (∃ ss, j'.syns = .additive pops ss pre post) ∧ ∀ e ∈ es, ∃ ss, e.mid.syns = .additive pops ss pre post := by
  induction h with
  | nil t j => intro syns hs; exact ⟨⟨syns, hs⟩, fun e he => by simp at he⟩
  | @cons t j mid j' ms es h1 h2 ih =>
    intro syns hs
    have hm := h1.other (by intro a b c d he; rw [hs] at he; cases he)
    subst hm
    obtain ⟨i1, i2⟩ := ih ((initProjection ⟨mid.locked, pops, syns, post⟩ ms).1.syns.map (modifyWeight o)) (by
      unfold Learn.projStep
      rw [hs])
    refine ⟨i1, fun e he => ?_⟩
    rcases List.mem_cons.1 he with rfl | he
    · exact ⟨syns, hs⟩
    · exact i2 e he

/-- What a projection of a running network sends in step `t`. -/
private theorem sends (h : LearnRun o pops projs inputs chans envs s os) (n : Nat) (j : Learn.Proj F)
    (hj : projs[n]? = some j) (hfind : ExactFind j.syns.view) (hsound : Sound envs.length j.syns.view)
    (t : Nat) (ht : t < os.length) :
    (∀ (k : Nat) (y : Delta.Syn F), j.syns.view.synapses[k]? = some y →
      (t < y.delay - 1 → impactsThrough j.ident.uid k os[t].impacts = []) ∧
      (∀ a, t = a + (y.delay - 1) → ∃ s1 os1 j1 w, LearnRun o pops projs inputs chans (envs.take (weightAfter j a)) s1 os1 ∧
        s1.projs[n]? = some j1 ∧ j1.syns.view.synapses[k]? = some w ∧
        impactsThrough j.ident.uid k os[t].impacts =
          List.replicate (spikesOf y.source (conducted j (heardBy (os.getD a ⟨[], [], [], []⟩) j.ident.uid)))
            ⟨k, w.weight, y.outType, y.source, y.target⟩)) ∧
    (∀ m ∈ os[t].impacts, m.header.senderUid = j.ident.uid → ∀ im ∈ m.impacts, ∃ y : Delta.Syn F,
      j.syns.view.synapses[im.connectionIndex]? = some y ∧
        im = ⟨im.connectionIndex, im.impactValue, y.outType, y.source, y.target⟩) := by
  obtain ⟨f1, _, f3, _⟩ := Learn.learnRun_ok _ _ _ _ _ _ _ (flow h) h.projUids (queueOk h)
  rw [List.length_map] at f1
  obtain ⟨es, j', h1, htr, hmsgs, houts, hpre⟩ := f3 n j hj
  have hlen : es.length = os.length := by simpa using congrArg List.length hmsgs
  obtain ⟨_, hsame⟩ := htr.same
  have hq : j.queue = [] := h.queues j (List.mem_of_getElem? hj)
  have hsend := htr.sends
  rw [hq] at hsend
  -- the hypotheses of C42
  let hs := es.map (fun e => Learn.used e.mid e.msgs)
  have hhs : hs = es.map (fun e => Learn.used e.mid e.msgs) := rfl
  have hskel : ∀ x ∈ hs, Learn.skeleton x.proj = Learn.skeleton j.syns.view := by
    intro x hx
    obtain ⟨e, he, rfl⟩ := List.mem_map.1 hx
    rw [Learn.used_proj]
    exact (hsame e he).2.2
  have hF : ∀ x ∈ hs, ExactFind x.proj := fun x hx => Learn.skeleton_find (hskel x hx) hfind
  have hS : ∀ i (hi : i < hs.length), Sound (0 + i) hs[i].proj := by
    intro i hi
    refine Learn.skeleton_sound (hskel _ (List.getElem_mem hi)) ?_
    intro y hy
    obtain ⟨a, b, c, d⟩ := hsound y hy
    have : i < os.length := by rw [← hlen]; simpa [hhs] using hi
    exact ⟨a, b, c, by omega⟩
  have hti : t < hs.length := by simp [hhs, hlen, ht]
  have hte : t < es.length := by omega
  have hout : os[t].impacts.filter (fun m => m.header.senderUid == j.ident.uid) = es[t].out.toList := by
    have := congrArg (fun l => l[t]?) houts
    simp only [List.getElem?_map, List.getElem?_eq_getElem hte, List.getElem?_eq_getElem ht, Option.map_some,
      Option.some.injEq] at this
    exact this.symm
  have hdel : (es[t].out.toList).flatMap (·.impacts) = delivered es[t].out := by
    cases es[t].out <;> simp [delivered]
  refine ⟨?_, ?_⟩
  · intro k y hy
    have hk : ∀ x ∈ hs, ∃ z, x.proj.synapses[k]? = some z ∧ z.delay = y.delay := by
      intro x hx
      obtain ⟨z, z1, _, _, z2, _⟩ := Learn.skeleton_get (hskel x hx) hy
      exact ⟨z, z1, z2⟩
    obtain ⟨out, o1, _, o3⟩ := C42_changing_weights j.ident 0 hs hF hS k y.delay hk t hti
    rw [hsend, List.getElem?_map, List.getElem?_eq_getElem hte, Option.map_some, Option.some.injEq] at o1
    subst o1
    have himp : impactsThrough j.ident.uid k os[t].impacts = (delivered es[t].out).filter (fun im => im.connectionIndex == k) := by
      unfold impactsThrough
      rw [hout, hdel]
    refine ⟨?_, ?_⟩
    · intro hlt
      rw [himp, o3, dif_neg (by omega)]
    · intro a ha
      have hae : a < es.length := by omega
      have hao : a < os.length := by omega
      rw [dif_pos (by omega)] at o3
      have e1 : t - (y.delay - 1) = a := by omega
      have hsa : sentThrough (hs[t - (y.delay - 1)]'(by simp [hhs]; omega)) k = sentThrough (Learn.used es[a].mid es[a].msgs) k := by
        congr 1
        simp only [hhs, List.getElem_map, e1]
      rw [hsa] at o3
      have hma : es[a].msgs = heardBy os[a] j.ident.uid := by
        have := congrArg (fun l => l[a]?) hmsgs
        simp only [List.getElem?_map, List.getElem?_eq_getElem hae, List.getElem?_eq_getElem hao, Option.map_some,
          Option.some.injEq] at this
        exact this
      have hgd : os.getD a ⟨[], [], [], []⟩ = os[a] := by
        rw [List.getD_eq_getElem?_getD, List.getElem?_eq_getElem hao]; rfl
      have hmid := hsame es[a] (List.getElem_mem hae)
      obtain ⟨s1, hr1⟩ := h.upTo (weightAfter j a)
      have hfl := flow hr1
      rw [List.map_take] at hfl
      obtain ⟨j1, p1, p2⟩ := hpre _ _ _ hfl
      -- the projection after that many steps is as the impact calculation sees it
      have hview : j1.syns.view = es[a].mid.syns.view := by
        by_cases hadd : ∃ pops ss pre post, j.syns = .additive pops ss pre post
        · obtain ⟨pp, ss, pre, post, hadd⟩ := hadd
          have hw : weightAfter j a = a := by unfold weightAfter; rw [hadd]
          rw [hw] at p2
          obtain ⟨⟨ss', hj1⟩, _⟩ := trace_additive p2 ss hadd
          rw [(htr.enter a hae j1 p2).other (by intro a b c d he; rw [hj1] at he; cases he)]
        · have hw : weightAfter j a = a + 1 := by
            unfold weightAfter
            cases hc : j.syns with
            | additive a b c d => exact absurd ⟨_, _, _, _, hc⟩ hadd
            | delta p => rfl
            | resource a b c d => rfl
          rw [hw] at p2
          have hl := p2.last a (by rw [List.length_take]; omega)
          rw [List.getElem_take] at hl
          rw [hl]
          refine Learn.projStep_view_other o _ _ ?_
          rw [hmid.2.1]
          cases hc : j.syns with
          | additive a b c d => exact absurd ⟨_, _, _, _, hc⟩ hadd
          | delta p => simp [Learn.kindOf]
          | resource a b c d => simp [Learn.kindOf]
      obtain ⟨w, w1, w2, w3, w4, w5⟩ := Learn.skeleton_get hmid.2.2 hy
      refine ⟨s1, os.take (weightAfter j a), j1, w, hr1, p1, by rw [hview]; exact w1, ?_⟩
      rw [himp, o3]
      unfold sentThrough
      rw [Learn.used_proj, w1]
      simp only
      rw [w2, w3, w5, hgd, ← hma]
      congr 1
      unfold conducted
      cases hc : j.syns with
      | additive pp ss pre post =>
        obtain ⟨ss', hm⟩ := (trace_additive htr ss hc).2 es[a] (List.getElem_mem hae)
        rw [Learn.used_additive hm]
        exact spikesOf_heeded pp _ _
      | delta p =>
        rw [Learn.used_other]
        intro a b c d he
        have := hmid.2.1
        rw [he, hc] at this
        simp [Learn.kindOf] at this
      | resource a b c d =>
        rw [Learn.used_other]
        intro a b c d he
        have := hmid.2.1
        rw [he, hc] at this
        simp [Learn.kindOf] at this
  · intro m hm hu im him
    obtain ⟨out, o1, o2⟩ := C42_only_synapses j.ident 0 hs hS t hti
    rw [hsend, List.getElem?_map, List.getElem?_eq_getElem hte, Option.map_some, Option.some.injEq] at o1
    subst o1
    have hmem : m ∈ es[t].out.toList := by
      rw [← hout]; exact List.mem_filter.2 ⟨hm, by simpa using hu⟩
    obtain ⟨x, hx, z, z1, z2⟩ := o2 im (by rw [← hdel]; exact List.mem_flatMap.2 ⟨m, hmem, him⟩)
    obtain ⟨y, y1, y2, y3, _, y5⟩ := Learn.skeleton_get (hskel x hx).symm z1
    refine ⟨y, y1, ?_⟩
    rw [y2, y3, y5]
    rw [z2]

omit [Field F] [LinearOrder F] in
theorem view_wired (x : Learn.Syns F) : x.view = wired x := by
  cases x <;> rfl

/-- C113. C105 while the network learns: in step `T` the postsynaptic population is given, from a synapse with delay `D`, one
impact for every spike of its source neuron in the messages the projection conducts in step `T - D` (none before step `D`), with
the weight that training had given the synapse when the spike was heard, not when the impact arrives. -/
theorem C113_end_to_end (h : LearnRun o pops projs inputs chans envs s os) (p : Learn.Pop N B F) (hp : p ∈ pops)
    (hp0 : p.uid ≠ 0) (n : Nat) (j : Learn.Proj F) (hj : projs[n]? = some j) (hpost : j.ident.post = p.uid)
    (hfind : ExactFind (wired j.syns)) (hsound : Sound envs.length (wired j.syns))
    (hforge : ∀ env ∈ envs, ∀ e im, Bus.Op.send e (.impact im) ∈ env → im.header.senderUid ≠ j.ident.uid)
    (T : Nat) (hT : T < os.length) :
    (∀ (k : Nat) (y : Delta.Syn F), (wired j.syns).synapses[k]? = some y →
      (T < y.delay → impactsThrough j.ident.uid k (givenTo os[T] p.uid) = []) ∧
      (y.delay ≤ T → ∃ s1 os1 j1 w,
        LearnRun o pops projs inputs chans (envs.take (weightAfter j (T - y.delay))) s1 os1 ∧
        s1.projs[n]? = some j1 ∧ (wired j1.syns).synapses[k]? = some w ∧
        impactsThrough j.ident.uid k (givenTo os[T] p.uid) =
          List.replicate (spikesOf y.source (conducted j (heardBy (os.getD (T - y.delay) ⟨[], [], [], []⟩) j.ident.uid)))
            ⟨k, w.weight, y.outType, y.source, y.target⟩)) ∧
    (∀ m ∈ givenTo os[T] p.uid, m.header.senderUid = j.ident.uid → ∀ im ∈ m.impacts, ∃ y : Delta.Syn F,
      (wired j.syns).synapses[im.connectionIndex]? = some y ∧
        im = ⟨im.connectionIndex, im.impactValue, y.outType, y.source, y.target⟩) := by
  simp only [← view_wired] at hfind hsound ⊢
  obtain ⟨f1, _, _, f4, f5⟩ := Learn.learnRun_ok _ _ _ _ _ _ _ (flow h) h.projUids (queueOk h)
  rw [List.length_map] at f1
  have hpu : p.uid ∈ pops.map Learn.Pop.uid := List.mem_map.2 ⟨p, hp, rfl⟩
  have hext : ∀ i, (Sys.impactsIn ((envs.map (extOf chans)).getD i [])).filter (fun m => m.header.senderUid == j.ident.uid) = [] := by
    intro i
    rw [List.filter_eq_nil_iff]
    intro m hm
    by_cases hi : i < envs.length
    · rw [List.getD_eq_getElem?_getD, List.getElem?_map, List.getElem?_eq_getElem hi] at hm
      simp only [Option.map_some, Option.getD_some] at hm
      unfold Sys.impactsIn at hm
      obtain ⟨m', hm', he⟩ := List.mem_filterMap.1 hm
      cases m' with
      | spike x => simp at he
      | impact x =>
        simp only [Option.some.injEq] at he
        subst he
        unfold extOf sentVia at hm'
        obtain ⟨e, _, h2⟩ := List.mem_flatMap.1 hm'
        obtain ⟨op, hop, h3⟩ := List.mem_filterMap.1 h2
        cases op with
        | send e' m'' =>
          simp only at h3
          split at h3
          · simp only [Option.some.injEq] at h3
            subst h3
            have := hforge envs[i] (List.getElem_mem hi) e' x hop
            simpa using this
          · simp at h3
        | _ => simp at h3
    · rw [List.getD_eq_getElem?_getD, List.getElem?_eq_none (by simp; omega)] at hm
      simp [Sys.impactsIn] at hm
  have hhear : (learnHearing projs inputs).impact p.uid j.ident.uid = true := by
    simp only [learnHearing, decide_eq_true_eq]
    exact ⟨hp0, j, List.mem_of_getElem? hj, hpost, rfl⟩
  have hsel : ∀ l : List (SynapticImpactMessage F),
      (l.filter (fun m => (learnHearing projs inputs).impact p.uid m.header.senderUid)).filter
      (fun m => m.header.senderUid == j.ident.uid) = l.filter (fun m => m.header.senderUid == j.ident.uid) := by
    intro l
    rw [List.filter_filter]
    apply List.filter_congr
    intro m _
    by_cases hm : m.header.senderUid = j.ident.uid
    · simp [hm, hhear]
    · have : (m.header.senderUid == j.ident.uid) = false := by simpa using hm
      rw [this, Bool.false_and]
  have hpos : ∀ (k : Nat) (y : Delta.Syn F), j.syns.view.synapses[k]? = some y → 1 ≤ y.delay := by
    intro k y hy
    exact (hsound y (List.mem_of_getElem? hy)).2.2.1
  cases T with
  | zero =>
    have hg : (givenTo os[0] p.uid).filter (fun m => m.header.senderUid == j.ident.uid) = [] := by
      rw [f4 hT p.uid hpu, hsel, List.nil_append, hext]
    refine ⟨fun k y hy => ⟨fun _ => ?_, fun hle => ?_⟩, fun m hm hu => ?_⟩
    · unfold impactsThrough; rw [hg]; rfl
    · have := hpos k y hy; omega
    · have : m ∈ (givenTo os[0] p.uid).filter (fun m => m.header.senderUid == j.ident.uid) :=
        List.mem_filter.2 ⟨hm, by simpa using hu⟩
      rw [hg] at this
      simp at this
  | succ t =>
    have hg : (givenTo os[t + 1] p.uid).filter (fun m => m.header.senderUid == j.ident.uid) =
        (os[t].impacts).filter (fun m => m.header.senderUid == j.ident.uid) := by
      rw [f5 t hT p.uid hpu, hsel, List.filter_append, hext, List.append_nil]
    have hthr : ∀ k, impactsThrough j.ident.uid k (givenTo os[t + 1] p.uid) = impactsThrough j.ident.uid k os[t].impacts := by
      intro k; unfold impactsThrough; rw [hg]
    obtain ⟨q1, q2⟩ := sends h n j hj hfind hsound t (by omega)
    refine ⟨fun k y hy => ⟨fun hlt => ?_, fun hle => ?_⟩, fun m hm hu => ?_⟩
    · rw [hthr]
      exact (q1 k y hy).1 (by omega)
    · rw [hthr]
      have h1 := hpos k y hy
      exact (q1 k y hy).2 (t + 1 - y.delay) (by omega)
    · have hm' : m ∈ (givenTo os[t + 1] p.uid).filter (fun m => m.header.senderUid == j.ident.uid) :=
        List.mem_filter.2 ⟨hm, by simpa using hu⟩
      rw [hg] at hm'
      exact q2 m (List.mem_filter.1 hm').1 hu

/-- C113, nothing else: whatever impact message a population is given comes from a projection that ends in it - or claims to: messages of the
rest of the program are heard if they carry such a projection's UID. -/
theorem C113_senders (h : LearnRun o pops projs inputs chans envs s os) (p : Learn.Pop N B F) (hp : p ∈ pops) (T : Nat) (hT : T < os.length) :
    ∀ m ∈ givenTo os[T] p.uid, p.uid ≠ 0 ∧ ∃ j ∈ projs, j.ident.post = p.uid ∧ j.ident.uid = m.header.senderUid := by
  obtain ⟨_, _, _, f4, f5⟩ := Learn.learnRun_ok _ _ _ _ _ _ _ (flow h) h.projUids (queueOk h)
  have hpu : p.uid ∈ pops.map Learn.Pop.uid := List.mem_map_of_mem hp
  intro m hm
  have key : (learnHearing projs inputs).impact p.uid m.header.senderUid = true := by
    cases T with
    | zero => rw [f4 hT p.uid hpu] at hm; exact (List.mem_filter.1 hm).2
    | succ t => rw [f5 t hT p.uid hpu] at hm; exact (List.mem_filter.1 hm).2
  unfold learnHearing at key
  simp only [decide_eq_true_eq] at key
  exact key

/-! ## C115 -/

/-- A synapse without the step of its last spike. -/
def untimed (y : RSyn F) : RSyn F := { y with rule := { y.rule with lastSpikeStep := 0 } }

/-- What happens in step `t` of a run, with the states before and after it. -/
private theorem stepAt (h : LearnRun o pops projs inputs chans envs s os) (t : Nat) (ht : t < os.length)
    {s0 s1 : Learn.State (Learn.Pop N B F) (Learn.Proj F) F} {os0 os1 : List (Sys.StepOut F)}
    (h0 : LearnRun o pops projs inputs chans (envs.take t) s0 os0)
    (h1 : LearnRun o pops projs inputs chans (envs.take (t + 1)) s1 os1) (n : Nat) (p : Learn.Pop N B F)
    (hp : s0.pops[n]? = some p) :
    ∃ a a' p1 sp, Learn.popStep o t p a (givenTo os[t] p.uid) = .ok ((p1, a'), sp) ∧ s1.pops[n]? = some p1 ∧
      (∀ (m : Nat) (j : Learn.Proj F), s0.projs[m]? = some j → Trains p.uid j.toR → a[m]? = some j) ∧
      (∀ (m : Nat) (j : Learn.Proj F), a'[m]? = some j → Trains p.uid j.toR →
        ∃ ms, s1.projs[m]? = some (Learn.projStep o t j ms).1) ∧
      ∀ x, x.header.senderUid = p.uid → (x ∈ os[t].spikes ↔ x ∈ sp.toList) := by
  obtain ⟨st0, st1, pend, ext, e1, e2, e3⟩ := Learn.learnRun_at _ _ _ _ _ _ _ t ht (flow h)
  have f0 := flow h0
  have f1 := flow h1
  rw [List.map_take, e1] at f0
  rw [List.map_take, e2] at f1
  simp only [Outcome.ok.injEq, Prod.mk.injEq] at f0 f1
  rw [f0.1, f1.1, Nat.zero_add] at e3
  have hnd : (s0.pops.map Learn.Pop.uid).Nodup := by
    have := Learn.learnRun_popUids _ _ _ _ _ _ _ (flow h0)
    rw [this]; exact h.popUids
  exact Learn.learnStep_at e3 hnd n p hp

omit [Field F] [LinearOrder F] in
/-- The neurons of a population in one step, and the message it sends. -/
private theorem neuronsAt {M : Type} {k : Kind M F} {u : UID} {t : Nat} {ns ns' : List M} {ms : List (SynapticImpactMessage F)}
    {sp : Option SpikeMessage} (h : stepPopulation k u t ns ms = .ok (ns', sp)) (i : Nat) (x : M) (hx : ns[i]? = some x) :
    ∃ x' b, neuronStep k x (addressed i ms) = .ok (x', b) ∧ ns'[i]? = some x' ∧
      (b = true ↔ ∃ m ∈ sp.toList, m.header = ⟨u, t⟩ ∧ i ∈ m.neuronIndexes) := by
  obtain ⟨_, spiked, hl, hn, hs⟩ := C55_each_neuron k u t ns ns' ms sp h
  obtain ⟨x', b, e1, e2, e3⟩ := hn i x hx
  refine ⟨x', b, e1, e2, ?_⟩
  have hi : i < ns.length := (List.getElem?_eq_some_iff.1 hx).1
  constructor
  · intro hb
    subst hb
    have hall : ¬ (spiked.all (fun b => !b)) = true := by
      rw [List.all_eq_true]
      intro hc
      have := hc true (List.mem_of_getElem? e3)
      simp at this
    rw [if_neg hall] at hs
    refine ⟨_, by rw [hs]; exact List.mem_singleton.2 rfl, rfl, ?_⟩
    simp [hi, e3]
  · rintro ⟨m, hm, _, hmi⟩
    rw [hs] at hm
    split at hm
    · simp at hm
    · simp only [Option.toList_some, List.mem_singleton] at hm
      subst hm
      have := (List.mem_filter.1 hmi).2
      rw [e3] at this
      simpa using this

/-- C115. A neuron in a running network: in step `t` every neuron of a plain population takes its own step with exactly the impacts
addressed to it in the messages the population is given, and it is in the population's spike message of that step exactly if that
step says it spikes.  Nothing else touches it. -/
theorem C115_plain_neuron (h : LearnRun o pops projs inputs chans envs s os) (t : Nat) (ht : t < os.length)
    {s0 s1 : Learn.State (Learn.Pop N B F) (Learn.Proj F) F} {os0 os1 : List (Sys.StepOut F)}
    (h0 : LearnRun o pops projs inputs chans (envs.take t) s0 os0)
    (h1 : LearnRun o pops projs inputs chans (envs.take (t + 1)) s1 os1) (n : Nat) (u : UID) (k : Kind N F) (ns : List N)
    (hp : s0.pops[n]? = some (.plain u k ns)) :
    ∃ ns', s1.pops[n]? = some (.plain u k ns') ∧ ns'.length = ns.length ∧
      ∀ (i : Nat) (x : N), ns[i]? = some x → ∃ x' b, neuronStep k x (addressed i (givenTo os[t] u)) = .ok (x', b) ∧
        ns'[i]? = some x' ∧ (b = true ↔ ∃ m ∈ os[t].spikes, m.header = ⟨u, t⟩ ∧ i ∈ m.neuronIndexes) := by
  obtain ⟨a, a', p1, sp, e1, e2, _, _, e5⟩ := stepAt h t ht h0 h1 n _ hp
  unfold Learn.popStep at e1
  simp only [Learn.Pop.uid] at e1 e5
  cases hs : stepPopulation k u t ns (givenTo os[t] u) with
  | throw w => rw [hs] at e1; cases e1
  | ub => rw [hs] at e1; cases e1
  | ok r =>
    rw [hs] at e1
    simp only [Outcome.ok.injEq, Prod.mk.injEq] at e1
    refine ⟨r.1, by rw [e2, ← e1.1.1], (C55_each_neuron k u t ns r.1 _ r.2 hs).1, ?_⟩
    intro i x hx
    obtain ⟨x', b, g1, g2, g3⟩ := neuronsAt hs i x hx
    refine ⟨x', b, g1, g2, g3.trans ?_⟩
    rw [e1.2]
    constructor
    · rintro ⟨m, hm, hh, hi⟩; exact ⟨m, (e5 m (by rw [hh])).2 hm, hh, hi⟩
    · rintro ⟨m, hm, hh, hi⟩; exact ⟨m, (e5 m (by rw [hh])).1 hm, hh, hi⟩

/-- C115, the message: the only spike message of a plain population in step `t`, if any, names exactly the neurons whose step says they spike, ascending;
there is one exactly if a neuron spikes. -/
theorem C115_message (h : LearnRun o pops projs inputs chans envs s os) (t : Nat) (ht : t < os.length)
    {s0 s1 : Learn.State (Learn.Pop N B F) (Learn.Proj F) F} {os0 os1 : List (Sys.StepOut F)}
    (h0 : LearnRun o pops projs inputs chans (envs.take t) s0 os0)
    (h1 : LearnRun o pops projs inputs chans (envs.take (t + 1)) s1 os1) (n : Nat) (u : UID) (k : Kind N F) (ns : List N)
    (hp : s0.pops[n]? = some (.plain u k ns)) :
    ∃ spiked : List Bool, spiked.length = ns.length ∧
      (∀ (i : Nat) (x : N), ns[i]? = some x → ∃ x' b, neuronStep k x (addressed i (givenTo os[t] u)) = .ok (x', b) ∧ spiked[i]? = some b) ∧
      ∀ m, m.header.senderUid = u → (m ∈ os[t].spikes ↔
        true ∈ spiked ∧ m = ⟨⟨u, t⟩, (List.range ns.length).filter (fun i => spiked[i]? == some true)⟩) := by
  obtain ⟨a, a', p1, sp, e1, e2, _, _, e5⟩ := stepAt h t ht h0 h1 n _ hp
  unfold Learn.popStep at e1
  simp only [Learn.Pop.uid] at e1 e5
  cases hs : stepPopulation k u t ns (givenTo os[t] u) with
  | throw w => rw [hs] at e1; cases e1
  | ub => rw [hs] at e1; cases e1
  | ok r =>
    rw [hs] at e1
    simp only [Outcome.ok.injEq, Prod.mk.injEq] at e1
    obtain ⟨_, spiked, hl, hn, hsent⟩ := C55_each_neuron k u t ns r.1 _ r.2 hs
    refine ⟨spiked, hl, fun i x hx => ?_, fun m hm => ?_⟩
    · obtain ⟨x', b, g1, _, g3⟩ := hn i x hx
      exact ⟨x', b, g1, g3⟩
    · rw [e5 m hm, ← e1.2, hsent]
      have hall : (spiked.all (fun b => !b)) = true ↔ true ∉ spiked := by
        rw [List.all_eq_true]
        constructor
        · intro hc ht
          have := hc true ht
          simp at this
        · intro hc b hb
          cases b with
          | false => rfl
          | true => exact absurd hb hc
      by_cases hc : true ∈ spiked
      · rw [if_neg (fun h => hall.1 h hc)]
        simp [hc]
      · rw [if_pos (hall.2 hc)]
        simp [hc]

/-- C115 for trained neurons: as for a plain population, and then the population is trained, exactly once, with the neurons that
spiked, this step and the unlocked resource projections that end in it, all as they were before the step; what training left is
what the next step starts from (only the recorded spike steps of the synapses change after it, C112). -/
theorem C115_trained_neuron (h : LearnRun o pops projs inputs chans envs s os) (t : Nat) (ht : t < os.length)
    {s0 s1 : Learn.State (Learn.Pop N B F) (Learn.Proj F) F} {os0 os1 : List (Sys.StepOut F)}
    (h0 : LearnRun o pops projs inputs chans (envs.take t) s0 os0)
    (h1 : LearnRun o pops projs inputs chans (envs.take (t + 1)) s1 os1) (n : Nat) (u : UID) (k : Kind (Res B F) F)
    (b : BaseOps B F) (ns : List (Res B F)) (hp : s0.pops[n]? = some (.trained u k b ns)) :
    ∃ (mid : List (Res B F)) (spiked : List Nat) (js : List (Learn.Proj F)) (st : Stdp.State B F),
      mid.length = ns.length ∧
      (∀ (i : Nat) (x : Res B F), ns[i]? = some x → ∃ x' c, neuronStep k x (addressed i (givenTo os[t] u)) = .ok (x', c) ∧
        mid[i]? = some x' ∧ (c = true ↔ i ∈ spiked)) ∧
      (∀ i, i ∈ spiked ↔ ∃ m ∈ os[t].spikes, m.header = ⟨u, t⟩ ∧ i ∈ m.neuronIndexes) ∧
      train o b u spiked t ⟨mid, js.map trainable⟩ = .ok st ∧
      s1.pops[n]? = some (.trained u k b st.neurons) ∧
      ∀ (m : Nat) (j : Learn.Proj F), s0.projs[m]? = some j → j.ident.post = u → j.locked = false →
        ∀ sp ss pre post, j.syns = .resource sp ss pre post → js[m]? = some j ∧
          ∃ r j1 ss1, st.projs[m]? = some r ∧ s1.projs[m]? = some j1 ∧ j1.ident = j.ident ∧ j1.locked = false ∧
            j1.syns = .resource sp ss1 pre post ∧ ss1.map untimed = r.syns.map untimed := by
  simp only [← toR_eq]
  obtain ⟨a, a', p1, sp, e1, e2, e3, e4, e5⟩ := stepAt h t ht h0 h1 n _ hp
  unfold Learn.popStep at e1
  simp only [Learn.Pop.uid] at e1 e3 e4 e5
  cases hs : stepPopulation k u t ns (givenTo os[t] u) with
  | throw w => rw [hs] at e1; cases e1
  | ub => rw [hs] at e1; cases e1
  | ok r =>
    rw [hs] at e1
    simp only at e1
    cases htr : train o b u (Learn.spikedIn r.2) t ⟨r.1, a.map Learn.Proj.toR⟩ with
    | throw w => rw [htr] at e1; cases e1
    | ub => rw [htr] at e1; cases e1
    | ok st =>
      rw [htr] at e1
      simp only [Outcome.ok.injEq, Prod.mk.injEq] at e1
      obtain ⟨⟨q1, q2⟩, q3⟩ := e1
      have hsend : ∀ m ∈ sp.toList, m.header = ⟨u, t⟩ := by
        obtain ⟨_, _, _, _, he⟩ := C55_each_neuron k u t ns r.1 _ r.2 hs
        intro m hm
        rw [← q3, he] at hm
        split at hm
        · simp at hm
        · simp only [Option.toList_some, List.mem_singleton] at hm
          rw [hm]
      have hin : ∀ i, i ∈ Learn.spikedIn r.2 ↔ ∃ m ∈ sp.toList, m.header = ⟨u, t⟩ ∧ i ∈ m.neuronIndexes := by
        intro i
        rw [q3]
        cases sp with
        | none => simp [Learn.spikedIn]
        | some m =>
          have := hsend m (by simp)
          simp [Learn.spikedIn, this]
      refine ⟨r.1, Learn.spikedIn r.2, a, st, (C55_each_neuron k u t ns r.1 _ r.2 hs).1, ?_, ?_, htr, by rw [e2, ← q1], ?_⟩
      · intro i x hx
        obtain ⟨x', c, g1, g2, g3⟩ := neuronsAt hs i x hx
        refine ⟨x', c, g1, g2, g3.trans ?_⟩
        rw [hin, q3]
      · intro i
        rw [hin]
        constructor
        · rintro ⟨m, hm, hh, hi⟩; exact ⟨m, (e5 m (by rw [hh])).2 hm, hh, hi⟩
        · rintro ⟨m, hm, hh, hi⟩; exact ⟨m, (e5 m (by rw [hh])).1 hm, hh, hi⟩
      · intro m j hj hpo hlo pp ss pre post hsy
        have hT : Trains u j.toR := by
          unfold Learn.Proj.toR; rw [hsy]; exact ⟨hpo, hlo⟩
        have ha := e3 m j hj hT
        refine ⟨ha, ?_⟩
        obtain ⟨fr1, _⟩ := train_frame htr
        obtain ⟨r', w1, w2, w3, w4, w5, _⟩ := shape_get fr1 (i := m) (p := j.toR) (by simp [ha])
        have hput : a'[m]? = some (j.putR r') := by
          rw [← q2]
          unfold Learn.putAll
          rw [List.getElem?_zipWith, ha, w1]
        have hps : j.putR r' = { j with syns := .resource pp r'.syns pre post } := by
          unfold Learn.Proj.putR; rw [hsy]
        obtain ⟨ms, hms⟩ := e4 m _ hput (by rw [hps]; exact ⟨hpo, hlo⟩)
        rw [hps] at hms
        exact ⟨r', _, _, w1, hms, rfl, hlo, rfl, Learn.touchAll_untimed t pre ms r'.syns⟩

end

/-! ## A learning network

Channel 50 feeds projection 10 of resource synapses into population 2 (resource BLIFAT, trained).  Population 2 feeds population 1
(LIF) through the delta projection 20 and through the additive projection 30, which also learns from population 1; projection 40 is
a locked resource projection beside 10. -/

namespace LearnEx

/-- Exact rational arithmetic. -/
@[reducible] def arith : Arith ℚ where
  lt a b := decide (a < b)
  le a b := decide (a ≤ b)
  ofInt a := a
  toI64 _ := none
  signbit a := decide (a < 0)
  abs a := if a < 0 then -a else a
  round a := a

/-- A BLIFAT neuron with threshold 1, without decay, dopamine or blocking. -/
def blifat : Blifat ℚ := ⟨5, 1, 0, 0, 0, 0, 0, 0, 0, 0, 0, 0, 0, 0, 0, 0, 0, 0, 0, 0, -9, 9, 0⟩
/-- Synapses with 2 and 3 units of resource; the second has delay 2. -/
def syns : List (RSyn ℚ) :=
  [⟨0, 0, 2, 1, .excitatory, ⟨2, 0, 4, 1/4, 3, 0, false, false⟩⟩, ⟨1, 0, 2, 2, .excitatory, ⟨3, 0, 4, 1/4, 3, 0, false, false⟩⟩]
/-- The lookup of `syns` by source. -/
def pre (n : Nat) : List Nat := if n = 0 then [0] else if n = 1 then [1] else []
/-- The lookup of `syns` by target. -/
def post (n : Nat) : List Nat := if n = 0 then [0, 1] else []
/-- The populations. -/
def pops : List (Learn.Pop (Lif ℚ) (Blifat ℚ) ℚ) :=
  [.plain 1 (@lif ℚ arith) [⟨0, 0, 1, 1, 0, 0⟩],
   .trained 2 (@resBlifat ℚ arith) blifatOps [⟨blifat, StdpEx.rule 0⟩]]
/-- The projections. -/
def projs : List (Learn.Proj ℚ) :=
  [⟨⟨10, 0, 2, false⟩, false, .resource [] syns pre post, []⟩,
   ⟨⟨20, 2, 1, true⟩, true, .delta ⟨[⟨0, 0, 3, 2, .excitatory⟩], fun n => if n = 0 then [0] else []⟩, []⟩,
   ⟨⟨30, 2, 1, false⟩, false, .additive [(1, .stdpOnly), (2, .stdpAndSpike)] [⟨0, 0, 1/2, 1, .excitatory, 1, 1, [], []⟩]
      (fun n => if n = 0 then [0] else []) (fun n => if n = 0 then [0] else []), []⟩,
   ⟨⟨40, 0, 2, false⟩, true, .resource [(1, .stdpOnly)] syns pre post, []⟩]
/-- Six steps; the channel sends before steps 0, 1 and 3. -/
def envs : List (Sys.Env ℚ) :=
  [[.send 1 (.spike ⟨⟨50, 0⟩, [0, 1]⟩)], [.send 1 (.spike ⟨⟨50, 1⟩, [0, 1]⟩)], [], [.send 1 (.spike ⟨⟨50, 3⟩, [1]⟩), .receiveAll 1],
   [], []]
/-- The run. -/
def result := Learn.runSingle (Learn.machine StdpEx.o) (Learn.boot (Learn.machine StdpEx.o) pops projs [(10, 50)] 1) envs

/-- What the steps did. -/
def outs : Outcome (Learn.State (Learn.Pop (Lif ℚ) (Blifat ℚ) ℚ) (Learn.Proj ℚ) ℚ × List (Sys.StepOut ℚ)) → List (Sys.StepOut ℚ)
  | .ok r => r.2
  | _ => []
/-- The projections at the end. -/
def final : Outcome (Learn.State (Learn.Pop (Lif ℚ) (Blifat ℚ) ℚ) (Learn.Proj ℚ) ℚ × List (Sys.StepOut ℚ)) → List (Learn.Proj ℚ)
  | .ok r => r.1.projs
  | _ => []

/-- The populations at the end. -/
def finalPops : Outcome (Learn.State (Learn.Pop (Lif ℚ) (Blifat ℚ) ℚ) (Learn.Proj ℚ) ℚ × List (Sys.StepOut ℚ)) →
    List (Learn.Pop (Lif ℚ) (Blifat ℚ) ℚ)
  | .ok r => r.1.pops
  | _ => []
/-- Weight, resource and last spike step of resource synapses. -/
def shown (j : Learn.Proj ℚ) : List (ℚ × ℚ × Nat) :=
  match j.syns with
  | .resource _ s _ _ => s.map (fun y => (y.weight, y.rule.resource, y.rule.lastSpikeStep))
  | _ => []
/-- Free resource of trained neurons. -/
def frees : Learn.Pop (Lif ℚ) (Blifat ℚ) ℚ → List ℚ
  | .trained _ _ _ ns => ns.map (fun n => n.rule.free)
  | _ => []

/-- The run satisfies `LearnRun`. -/
theorem run : ∃ s, LearnRun StdpEx.o pops projs [(10, 50)] 1 envs s (outs result) := by
  have hok : result.isOk = true := by decide +kernel
  cases hr : result with
  | throw w => rw [hr] at hok; cases hok
  | ub => rw [hr] at hok; cases hok
  | ok x =>
    refine ⟨x.1, by decide +kernel, by decide +kernel, ?_, by simp [envs, Foreign], hr⟩
    intro j hj
    simp only [projs, List.mem_cons, List.not_mem_nil, or_false] at hj
    rcases hj with rfl | rfl | rfl | rfl <;> rfl

/-- Population 2 fires from step 1 on, population 1 from step 3 on; the impacts show the weights changing. -/
example : (outs result).map (fun o => o.spikes.map (fun m => (m.header.senderUid, m.neuronIndexes))) =
    [[], [(2, [0])], [(2, [0])], [(1, [0]), (2, [0])], [(1, [0]), (2, [0])], [(1, [0]), (2, [0])]] := by decide +kernel
example : (outs result).map (fun o => o.impacts.map (fun m => (m.header.senderUid,
      m.impacts.map (fun i => (i.connectionIndex, i.impactValue))))) =
    [[(10, [(0, 2)])], [(10, [(1, 2), (0, 28 / 23)]), (30, [(0, 1 / 2)])],
     [(10, [(1, 52 / 29)]), (20, [(0, 3)]), (30, [(0, 1 / 2)])],
     [(20, [(0, 3)]), (30, [(0, 9 / 2)]), (40, [(0, 2)])],
     [(10, [(1, 60 / 31)]), (20, [(0, 3)]), (30, [(0, 9 / 2)]), (40, [(0, 2)])],
     [(20, [(0, 3)]), (30, [(0, 17 / 2)]), (40, [(0, 2)])]] := by decide +kernel
/-- C57, C58, C112: the unlocked projection 10 is trained, the locked projection 40 is not. -/
example : ((final result)[0]?).map shown = some [(28 / 23, 7 / 4, 1), (68 / 33, 17 / 4, 3)] := by decide +kernel
example : ((final result)[3]?).map shown = some [(2, 2, 5), (2, 3, 0)] := by decide +kernel
/-- C56: one unit of the free resource has gone to the synapses. -/
example : ((finalPops result)[1]?).map frees = some [3] := by decide +kernel
example : (∀ j ∈ projs, FindOk (trainable j)) ∧ fanIn 2 (projs.map trainable) 0 = 2 := by
  refine ⟨?_, by decide +kernel⟩
  intro j hj n
  simp only [projs, List.mem_cons, List.not_mem_nil, or_false] at hj
  rcases hj with rfl | rfl | rfl | rfl
  all_goals
    refine ⟨?_, fun k => ?_⟩
    · by_cases h : n = 0 <;> simp [trainable, post, h]
    · rcases k with _ | _ | k <;> by_cases h : n = 0 <;> simp [trainable, syns, post, h] <;> omega
/-- C113: projection 10, synapse 1 (delay 2): the spike of step 1 arrives in step 3 with the weight training gave in step 1. -/
example : impactsThrough 10 1 (givenTo ((outs result).getD 3 ⟨[], [], [], []⟩) 2) = [⟨1, 52 / 29, .excitatory, 1, 0⟩] ∧
    spikesOf 1 (heardBy ((outs result).getD 1 ⟨[], [], [], []⟩) 10) = 1 := by decide +kernel
example : ∀ j ∈ projs, ExactFind (wired j.syns) ∧ Sound envs.length (wired j.syns) := by
  intro j hj
  simp only [projs, List.mem_cons, List.not_mem_nil, or_false] at hj
  rcases hj with rfl | rfl | rfl | rfl
  all_goals
    refine ⟨fun n => ⟨?_, fun k => ?_⟩, fun y hy => ?_⟩
    · by_cases h : n = 0 <;> by_cases h1 : n = 1 <;> simp [wired, pre, h, h1]
    · rcases k with _ | _ | k <;>
      by_cases h : n = 0 <;> by_cases h1 : n = 1 <;> simp [wired, syns, pre, h, h1] <;> omega
    · simp only [wired, syns, List.map_cons, List.map_nil, List.mem_cons, List.not_mem_nil, or_false] at hy
      rcases hy with rfl | rfl <;> decide +kernel

/-- C115: `LearnRun.upTo` gives the runs before and after step 1, in which the neuron of population 2 spikes and training moves
resource between its synapses. -/
example : (∃ s0, LearnRun StdpEx.o pops projs [(10, 50)] 1 (envs.take 1) s0 ((outs result).take 1)) ∧
    (∃ s1, LearnRun StdpEx.o pops projs [(10, 50)] 1 (envs.take 2) s1 ((outs result).take 2)) := by
  obtain ⟨s, h⟩ := run
  exact ⟨h.upTo 1, h.upTo 2⟩
example : ([1, 2].map (fun i => ((final (Learn.runSingle (Learn.machine StdpEx.o)
    (Learn.boot (Learn.machine StdpEx.o) pops projs [(10, 50)] 1) (envs.take i)))[0]?).map shown)) =
      [some [(2, 2, 0), (2, 3, 0)], some [(28 / 23, 7 / 4, 1), (52 / 29, 13 / 4, 1)]] ∧
    (addressed 0 (givenTo ((outs result).getD 1 ⟨[], [], [], []⟩) 2)).map (fun x => (x.1.connectionIndex, x.1.impactValue)) =
      [(0, 2)] := by decide +kernel
/-- C89_run: projection 30 has heard spikes, learned and forgotten its histories. -/
example : ((final result)[2]?).map (fun j => match j.syns with
      | .additive _ ss _ _ => ss.map (fun y : ASyn ℚ => (y.weight, y.preTimes.length, y.postTimes.length, y.tauPlus + y.tauMinus))
      | _ => []) = some [(17 / 2, 1, 2, 2)] := by decide +kernel

end LearnEx

/-! ## C114 -/

section
variable {N B F : Type} [Field F] [LinearOrder F]
variable {o : Ops F} {pops : List (Learn.Pop N B F)} {projs : List (Learn.Proj F)} {inputs : List (UID × UID)}
  {chans : Nat} {envs : List (Sys.Env F)} {s : Learn.State (Learn.Pop N B F) (Learn.Proj F) F} {os : List (Sys.StepOut F)}

/-- C114, additive STDP, in a running network: spikes of a population registered as `STDPOnly` cause no impacts - if the source
neuron of a synapse spiked in step `T - D` only in messages of such populations, the synapse delivers nothing in step `T`. -/
theorem C114_additive_partial (h : LearnRun o pops projs inputs chans envs s os) (p : Learn.Pop N B F) (hp : p ∈ pops)
    (hp0 : p.uid ≠ 0) (n : Nat) (j : Learn.Proj F) (hj : projs[n]? = some j) (hpost : j.ident.post = p.uid)
    (hfind : ExactFind (wired j.syns)) (hsound : Sound envs.length (wired j.syns))
    (hforge : ∀ env ∈ envs, ∀ e im, Bus.Op.send e (.impact im) ∈ env → im.header.senderUid ≠ j.ident.uid)
    (reg : List (UID × Processing)) (syns : List (ASyn F)) (pre post : Nat → List Nat) (ha : j.syns = .additive reg syns pre post)
    (T : Nat) (hT : T < os.length) (k : Nat) (y : ASyn F) (hy : syns[k]? = some y) (hd : y.delay ≤ T)
    (honly : ∀ m ∈ heardBy (os.getD (T - y.delay) ⟨[], [], [], []⟩) j.ident.uid, y.source ∈ m.neuronIndexes →
      processingOf reg m.header.senderUid = some .stdpOnly) :
    impactsThrough j.ident.uid k (givenTo os[T] p.uid) = [] := by
  have hv : (wired j.syns).synapses[k]? = some (Learn.ofA y) := by
    rw [ha]; simp [wired, Learn.ofA, hy]
  obtain ⟨s1, os1, j1, w, _, _, _, e⟩ :=
    ((C113_end_to_end h p hp hp0 n j hj hpost hfind hsound hforge T hT).1 k _ hv).2 hd
  rw [e]
  have hz : spikesOf (Learn.ofA y).source (conducted j (heardBy (os.getD (T - (Learn.ofA y).delay) ⟨[], [], [], []⟩) j.ident.uid)) = 0 := by
    unfold conducted spikesOf
    rw [ha]
    simp only
    rw [List.sum_eq_zero]
    intro c hc
    obtain ⟨m, hm, rfl⟩ := List.mem_map.1 hc
    obtain ⟨hm1, hm2⟩ := List.mem_filter.1 hm
    rw [List.count_eq_zero]
    intro hin
    have := honly m hm1 hin
    simp [this] at hm2
  rw [hz]
  rfl

end

/-- C114 is false for synaptic-resource projections: `init` subscribes them to the populations they are registered with
(init.h:46-110), but only the additive rule takes the spikes of `STDPOnly` populations out.  In the run above projection 40 starts
from no population, has no input channel and is registered with population 1 as `STDPOnly`; it sends an impact for every spike of
population 1. -/
theorem C114_resource_refuted : ∃ s os, LearnRun StdpEx.o LearnEx.pops LearnEx.projs [(10, 50)] 1 LearnEx.envs s os ∧
    ∃ j, LearnEx.projs[3]? = some j ∧ j.ident.pre = 0 ∧
      (∃ syns pre post, j.syns = .resource [(1, .stdpOnly)] syns pre post) ∧
      ∃ h : 3 < os.length, (heardBy os[3] j.ident.uid).map (fun m => m.header.senderUid) = [1] ∧
        (impactsThrough j.ident.uid 0 os[3].impacts).length = 1 := by
  obtain ⟨s, h⟩ := LearnEx.run
  refine ⟨s, _, h, _, rfl, rfl, ⟨_, _, _, rfl⟩, by decide +kernel, ?_, ?_⟩ <;> decide +kernel

end Knp.Props
