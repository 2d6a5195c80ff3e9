import Verif.Lemmas.LearnMultiTrace
import Verif.Props.LearnMulti

/-! # C126 (and C56-C58, C112 over whole runs): a learning network on the multi-threaded backend, under every schedule -/

namespace Knp.Props
open Knp Knp.Bus Knp.Spec Knp.Neurons Knp.Stdp Knp.Lemmas.Stdp

section
variable {N B F : Type} [Field F] [LinearOrder F]

/-- A network on the multi-threaded backend and a run of it, under some schedules of the threads, that ended normally. -/
structure LearnRunM (o : Ops F) (c : Sys.Config F) (pops : List (Learn.Pop N B F)) (projs : List (Learn.Proj F))
    (inputs : List (UID × UID)) (chans : Nat) (envs : List (Sys.Env F × Learn.Sched))
    (s : Learn.State (Learn.Pop N B F) (Learn.Proj F) F) (os : List (Sys.StepOut F)) : Prop where
  popUids : (pops.map Learn.Pop.uid).Nodup
  projUids : (projs.map (fun j => j.ident.uid)).Nodup
  queues : ∀ j ∈ projs, j.queue = []
  foreign : ∀ env ∈ envs, ∀ op ∈ env.1, Foreign chans op
  run : Learn.runMulti (Learn.machine o) (Learn.threads o c) (Learn.boot (Learn.machine o) pops projs inputs chans) envs =
    some (.ok (s, os))

variable {o : Ops F} {c : Sys.Config F} {pops : List (Learn.Pop N B F)} {projs : List (Learn.Proj F)} {inputs : List (UID × UID)}
  {chans : Nat} {envs : List (Sys.Env F × Learn.Sched)} {s : Learn.State (Learn.Pop N B F) (Learn.Proj F) F}
  {os : List (Sys.StepOut F)}

private theorem flow (h : LearnRunM o c pops projs inputs chans envs s os) :
    learnRunM (Learn.machine o) (Learn.threads o c) (learnHearing projs inputs) 0 pops projs []
      (envs.map (fun e => (extOf chans e.1, e.2))) = some (.ok ((s.pops, s.projs), os)) := by
  rw [← C123_dataflow o c pops projs inputs chans h.popUids h.projUids envs h.foreign, h.run]
  rfl

/-- A prefix of such a run is such a run. -/
theorem LearnRunM.upTo (h : LearnRunM o c pops projs inputs chans envs s os) (i : Nat) :
    ∃ s1, LearnRunM o c pops projs inputs chans (envs.take i) s1 (os.take i) := by
  obtain ⟨st, hst⟩ := Learn.learnRunM_take _ _ _ _ _ _ _ i (flow h)
  rw [← List.map_take] at hst
  have hf : ∀ env ∈ envs.take i, ∀ op ∈ env.1, Foreign chans op := fun env he => h.foreign env (List.mem_of_mem_take he)
  have href := C123_dataflow o c pops projs inputs chans h.popUids h.projUids (envs.take i) hf
  rw [hst] at href
  rcases hr : Learn.runMulti (Learn.machine o) (Learn.threads o c) (Learn.boot (Learn.machine o) pops projs inputs chans)
      (envs.take i) with _ | (x | w | _)
  all_goals rw [hr] at href; simp [learnVisible] at href
  exact ⟨x.1, h.popUids, h.projUids, h.queues, hf, by rw [hr, ← href.2]⟩

private theorem queueOk (h : LearnRunM o c pops projs inputs chans envs s os) : ∀ j ∈ projs, Learn.QueueOk j := by
  intro j hj e he
  rw [h.queues j hj] at he
  simp at he

/-! ## C58, C57, C56 -/

/-- C58 on the multi-threaded backend, under every schedule: a locked projection of resource synapses is, after any run, exactly as
loaded except for the recorded spike steps (and its queue). -/
theorem C58_threads (h : LearnRunM o c pops projs inputs chans envs s os) (n : Nat) (j : Learn.Proj F) (hj : projs[n]? = some j)
    (hl : j.locked = true) (sp : List (UID × Processing)) (syns : List (RSyn F)) (pre post : Nat → List Nat)
    (hs : j.syns = .resource sp syns pre post) :
    ∃ j' syns', s.projs[n]? = some j' ∧ j'.syns = .resource sp syns' pre post ∧ syns'.length = syns.length ∧
      ∀ (k : Nat) (y y' : RSyn F), syns[k]? = some y → syns'[k]? = some y' →
        y' = { y with rule := { y.rule with lastSpikeStep := y'.rule.lastSpikeStep } } := by
  obtain ⟨_, _, f3, _⟩ := Learn.learnRunM_ok _ _ _ _ _ _ _ (flow h) h.projUids (queueOk h)
  obtain ⟨es, j', h1, h2, _⟩ := f3 n j hj
  have gen : ∀ {t : Nat} {a b : Learn.Proj F} {es : List (Learn.Entry F)}, Learn.TraceM o c t a es b → a.locked = true →
      ∀ ss, a.syns = .resource sp ss pre post → ∃ ss', b.syns = .resource sp ss' pre post ∧
        ss'.map (Learn.touch 0) = ss.map (Learn.touch 0) := by
    intro t a b es htr
    induction htr with
    | nil t a => intro _ ss hss; exact ⟨ss, hss, rfl⟩
    | @cons t a mid a1 b ms out es p1 ps p2 ih =>
      intro hl ss hss
      have hm := p1.lock hl
      subst hm
      obtain ⟨ss', g1, g2⟩ := ih (ps.locked.trans hl) _ (ps.resource _ _ _ _ hss)
      exact ⟨ss', g1, g2.trans (Learn.markAll_steps _ _ _ _)⟩
  obtain ⟨ss', g1, g2⟩ := gen h2 hl syns hs
  refine ⟨j', ss', h1, g1, by simpa using congrArg List.length g2, ?_⟩
  intro k y y' hy hy'
  have := congrArg (fun l => l[k]?) g2
  simp only [List.getElem?_map, hy, hy', Option.map_some, Option.some.injEq] at this
  exact retime y' y this

/-- C57 on the multi-threaded backend, under every schedule: after any run every resource synapse has its loaded weight and
resource, or the weight its resource demands, which lies in `[w_min, w_max)` if `w_min < w_max`. -/
theorem C57_threads [IsStrictOrderedRing F] (h : LearnRunM o c pops projs inputs chans envs s os) (n : Nat) (j : Learn.Proj F)
    (hj : projs[n]? = some j) (sp : List (UID × Processing)) (syns : List (RSyn F)) (pre post : Nat → List Nat)
    (hs : j.syns = .resource sp syns pre post) :
    ∃ j' syns', s.projs[n]? = some j' ∧ j'.syns = .resource sp syns' pre post ∧ syns'.length = syns.length ∧
      ∀ (k : Nat) (y : RSyn F), syns[k]? = some y → ∃ y', syns'[k]? = some y' ∧
        y'.rule.wMin = y.rule.wMin ∧ y'.rule.wMax = y.rule.wMax ∧
        ((y'.weight = y.weight ∧ y'.rule.resource = y.rule.resource) ∨
         (y'.weight = weightOf o y'.rule ∧
          (y.rule.wMin < y.rule.wMax → y.rule.wMin ≤ y'.weight ∧ y'.weight < y.rule.wMax))) := by
  obtain ⟨_, _, f3, _⟩ := Learn.learnRunM_ok _ _ _ _ _ _ _ (flow h) h.projUids (queueOk h)
  obtain ⟨es, j', h1, h2, _⟩ := f3 n j hj
  have gen : ∀ {t : Nat} {a b : Learn.Proj F} {es : List (Learn.Entry F)}, Learn.TraceM o c t a es b →
      ∀ ss, a.syns = .resource sp ss pre post → ∃ ss', b.syns = .resource sp ss' pre post ∧ ss'.length = ss.length ∧
        ∀ (k : Nat) (y : RSyn F), ss[k]? = some y → ∃ y', ss'[k]? = some y' ∧
          y'.rule.wMin = y.rule.wMin ∧ y'.rule.wMax = y.rule.wMax ∧ Recalculated o y y' := by
    intro t a b es htr
    induction htr with
    | nil t a => intro ss hss; exact ⟨ss, hss, rfl, fun k y hy => ⟨y, hy, rfl, rfl, Or.inl ⟨rfl, rfl⟩⟩⟩
    | @cons t a mid a1 b ms out es p1 ps p2 ih =>
      intro ss hss
      obtain ⟨s1, q1, q2, q3⟩ := p1.syns _ _ _ _ hss
      obtain ⟨ss', g1, g2, g3⟩ := ih _ (ps.resource _ _ _ _ q1)
      have hun := Learn.markAll_steps t c.projPart ms s1
      have hlen : (Learn.markAll t c.projPart ms s1).length = s1.length := by simpa using congrArg List.length hun
      refine ⟨ss', g1, ?_, ?_⟩
      · rw [g2, hlen, q2]
      · intro k y hy
        obtain ⟨y1, r1, r2, r3⟩ := q3 k y hy
        have hk := congrArg (fun l => l[k]?) hun
        simp only [List.getElem?_map, r1, Option.map_some] at hk
        obtain ⟨y2, u1, u2⟩ := Option.map_eq_some_iff.1 hk
        obtain ⟨y3, v1, v2, v3, v4⟩ := g3 k y2 u1
        have hy2 := retime y2 y1 u2
        have w1 : y2.rule.wMin = y1.rule.wMin := by rw [hy2]
        have w2 : y2.rule.wMax = y1.rule.wMax := by rw [hy2]
        have w3 : y2.rule.resource = y1.rule.resource := by rw [hy2]
        have w4 : y2.weight = y1.weight := by rw [hy2]
        obtain ⟨_, _, _, _, x5, x6, _⟩ := r2
        refine ⟨y3, v1, v2.trans (w1.trans x5), v3.trans (w2.trans x6), ?_⟩
        have c1 : Recalculated o y y2 := by
          rcases r3 with ⟨a1, a2⟩ | a
          · exact Or.inl ⟨w4.trans a1, w3.trans a2⟩
          · right; rw [w4, a, weightOf_congr o w1 w2 w3]
        rcases v4 with ⟨a1, a2⟩ | a
        · rcases c1 with ⟨b1, b2⟩ | b
          · exact Or.inl ⟨a1.trans b1, a2.trans b2⟩
          · right; rw [a1, b, weightOf_congr o v2 v3 a2]
        · exact Or.inr a
  obtain ⟨ss', g1, g2, g3⟩ := gen h2 syns hs
  refine ⟨j', ss', h1, g1, g2, fun k y hy => ?_⟩
  obtain ⟨y', a1, a2, a3, a4⟩ := g3 k y hy
  refine ⟨y', a1, a2, a3, ?_⟩
  rcases a4 with a4 | a4
  · exact Or.inl a4
  · right
    refine ⟨a4, fun hlt => ?_⟩
    have b := C57_bounds o y'.rule (by rw [a2, a3]; exact hlt)
    rw [a2, a3] at b
    rw [a4]
    exact ⟨b.1, b.2.1⟩

/-- C56 on the multi-threaded backend, under every schedule (part sizes, moves of the tasks, order of the training tasks): the free
resource of a neuron plus the resource of its trainable synapses stays as loaded.  Partial as `C56_run_partial`. -/
theorem C56_threads_partial [IsStrictOrderedRing F] (h : LearnRunM o c pops projs inputs chans envs s os) (n : Nat) (u : UID)
    (k : Kind (Res B F) F) (b : BaseOps B F) (ns : List (Res B F)) (hn : pops[n]? = some (.trained u k b ns))
    (hk : Learn.KeepsResource k) (hf : ∀ j ∈ projs, FindOk (trainable j))
    (hd : ∀ i r, ns[i]? = some r → r.rule.drain = 0 ∧ 0 < fanIn u (projs.map trainable) i) :
    ∃ ns', s.pops[n]? = some (.trained u k b ns') ∧
      ∀ i, Spec.total u ⟨ns', s.projs.map trainable⟩ i = Spec.total u ⟨ns, projs.map trainable⟩ i := by
  simp only [← toR_eq] at hf hd ⊢
  obtain ⟨ns', h1, h2⟩ := Learn.learnRunM_history hk _ _ _ _ _ _ _ (flow h) h.popUids n ns hn (.start _)
  refine ⟨ns', h1, fun i => C56_history_partial ?_ hd h2 i⟩
  intro p hp
  obtain ⟨j, hj, rfl⟩ := List.mem_map.1 hp
  exact hf j hj

/-! ## C112 -/

omit [Field F] [LinearOrder F] in
private theorem take1 (y : Nat) (ms : List SpikeMessage) (m : SpikeMessage) : spikedIn y ((m :: ms).take 1) ↔ y ∈ m.neuronIndexes := by
  unfold spikedIn; simp

/-- C112 on the multi-threaded backend, under every schedule: `last_spike_step` of a resource synapse is, after any run, the last step
in which its source neuron was in the first spike message the projection heard in that step (the others are dropped there); if
there was none, it is as loaded.  No lookup is involved. -/
theorem C112_threads (h : LearnRunM o c pops projs inputs chans envs s os) (hpart : 1 ≤ c.projPart ∧ c.projPart < two64) (n : Nat)
    (j : Learn.Proj F) (hj : projs[n]? = some j) (sp : List (UID × Processing)) (syns : List (RSyn F)) (pre post : Nat → List Nat)
    (hs : j.syns = .resource sp syns pre post) (hsize : syns.length ≤ 2 ^ 63) (k : Nat) (y : RSyn F) (hy : syns[k]? = some y) :
    ∃ j' syns' y', s.projs[n]? = some j' ∧ j'.syns = .resource sp syns' pre post ∧ syns'[k]? = some y' ∧
      (∀ i (_ : i < os.length), spikedIn y.source ((heardBy os[i] j.ident.uid).take 1) →
        (∀ i' (_ : i' < os.length), i < i' → ¬ spikedIn y.source ((heardBy os[i'] j.ident.uid).take 1)) →
        y'.rule.lastSpikeStep = i) ∧
      ((∀ i (_ : i < os.length), ¬ spikedIn y.source ((heardBy os[i] j.ident.uid).take 1)) →
        y'.rule.lastSpikeStep = y.rule.lastSpikeStep) := by
  obtain ⟨f1, _, f3, _⟩ := Learn.learnRunM_ok _ _ _ _ _ _ _ (flow h) h.projUids (queueOk h)
  obtain ⟨es, j', h1, h2, h3, _⟩ := f3 n j hj
  have gen : ∀ {t : Nat} {a b : Learn.Proj F} {es : List (Learn.Entry F)}, Learn.TraceM o c t a es b →
      ∀ ss, a.syns = .resource sp ss pre post → ss.length ≤ 2 ^ 63 → ∀ (y : RSyn F), ss[k]? = some y →
        ∃ ss' y', b.syns = .resource sp ss' pre post ∧ ss'[k]? = some y' ∧
          y'.rule.lastSpikeStep = lastHeard y.source t y.rule.lastSpikeStep ((es.map (fun e => e.msgs)).map (List.take 1)) := by
    intro t a b es htr
    induction htr with
    | nil t a => intro ss hss _ y hy; exact ⟨ss, y, hss, hy, rfl⟩
    | @cons t a mid a1 b ms out es p1 ps p2 ih =>
      intro ss hss hsz y hy
      obtain ⟨s1, q1, q2, q3⟩ := p1.syns _ _ _ _ hss
      have hsz1 : s1.length ≤ 2 ^ 63 := by rw [q2]; exact hsz
      have e1 := ps.resource _ _ _ _ q1
      have hlen : (Learn.markAll t c.projPart ms s1).length = s1.length := by
        simpa using congrArg List.length (Learn.markAll_steps t c.projPart ms s1)
      obtain ⟨y1, r1, r2, _⟩ := q3 k y hy
      have hsrc : y1.source = y.source := r2.1
      have hlast : y1.rule.lastSpikeStep = y.rule.lastSpikeStep := r2.2.2.2.2.2.2.2.2
      have hk : (Learn.markAll t c.projPart ms s1)[k]? =
          some (if spikedIn y.source (ms.take 1) then Learn.touch t y1 else y1) := by
        cases ms with
        | nil =>
          have : ¬ spikedIn y.source (([] : List SpikeMessage).take 1) := by unfold spikedIn; simp
          rw [if_neg this]
          exact r1
        | cons m ms =>
          rw [Learn.markAll_eq t c.projPart hpart m ms s1 hsz1, List.getElem?_map, r1, Option.map_some]
          unfold Learn.mark
          rw [hsrc]
          congr 1
          by_cases hc : y.source ∈ m.neuronIndexes
          · rw [if_pos hc, if_pos ((take1 _ _ _).2 hc)]
          · rw [if_neg hc, if_neg (fun hx => hc ((take1 _ _ _).1 hx))]
      obtain ⟨ss', y', g1, g2, g3⟩ := ih _ e1 (by rw [hlen]; exact hsz1) _ hk
      refine ⟨ss', y', g1, g2, ?_⟩
      rw [g3, List.map_cons, List.map_cons]
      conv_rhs => unfold lastHeard
      by_cases hc : spikedIn y.source (ms.take 1)
      · rw [if_pos hc, if_pos hc]
        show lastHeard y1.source _ _ _ = _
        rw [hsrc]; rfl
      · rw [if_neg hc, if_neg hc, hsrc, hlast]
  obtain ⟨ss', y', g1, g2, g3⟩ := gen h2 syns hs hsize y hy
  obtain ⟨l1, l2⟩ := lastHeard_spec y.source ((es.map (fun e => e.msgs)).map (List.take 1)) 0 y.rule.lastSpikeStep
  rw [← g3, h3] at l1 l2
  refine ⟨j', ss', y', h1, g1, g2, ?_, ?_⟩
  · intro i hi a1 a2
    have := l1 i (by simpa using hi) (by simpa using a1) (fun i' hi' hlt => by
      have := a2 i' (by simpa using hi') hlt
      simpa using this)
    simpa using this
  · intro hz
    exact l2 (fun i hi => by
      have := hz i (by simpa using hi)
      simpa using this)

/-! ## C126 -/

/-- How often neuron `n` is in the first of these messages. -/
def firstCount (n : Nat) : List SpikeMessage → Nat
  | [] => 0
  | m :: _ => m.neuronIndexes.count n

/-- C126. C113 for the multi-threaded backend, under every schedule: in step `T` the postsynaptic population is given, through a
synapse with delay `D`, at most one impact, namely if its source neuron is in the first message the projection heard in step
`T - D`; it is the weight training had given the synapse in that step times the number of spikes in that message.  Unlike the
single-threaded backend (C113) the lookup of the synapses is not used. -/
theorem C126_end_to_end (h : LearnRunM o c pops projs inputs chans envs s os) (hpart : 1 ≤ c.projPart ∧ c.projPart < two64)
    (p : Learn.Pop N B F) (hp : p ∈ pops) (hp0 : p.uid ≠ 0) (n : Nat) (j : Learn.Proj F) (hj : projs[n]? = some j)
    (hpost : j.ident.post = p.uid) (hsound : Sound envs.length (wired j.syns)) (hsize : (wired j.syns).synapses.length ≤ 2 ^ 63)
    (hforge : ∀ env ∈ envs, ∀ e im, Bus.Op.send e (.impact im) ∈ env.1 → im.header.senderUid ≠ j.ident.uid)
    (T : Nat) (hT : T < os.length) :
    (∀ (k : Nat) (y : Delta.Syn F), (wired j.syns).synapses[k]? = some y →
      (T < y.delay → impactsThrough j.ident.uid k (givenTo os[T] p.uid) = []) ∧
      (y.delay ≤ T → ∃ s1 os1 j1 w,
        LearnRunM o c pops projs inputs chans (envs.take (T - y.delay + 1)) s1 os1 ∧
        s1.projs[n]? = some j1 ∧ (wired j1.syns).synapses[k]? = some w ∧
        impactsThrough j.ident.uid k (givenTo os[T] p.uid) =
          let spikes := firstCount y.source (heardBy (os.getD (T - y.delay) ⟨[], [], [], []⟩) j.ident.uid)
          if 0 < spikes then [⟨k, c.scale w.weight spikes, y.outType, y.source, y.target⟩] else [])) ∧
    (∀ m ∈ givenTo os[T] p.uid, m.header.senderUid = j.ident.uid → ∀ im ∈ m.impacts, ∃ y : Delta.Syn F,
      (wired j.syns).synapses[im.connectionIndex]? = some y ∧
        im = ⟨im.connectionIndex, im.impactValue, y.outType, y.source, y.target⟩) := by
  simp only [← view_wired] at hsound hsize ⊢
  obtain ⟨f1, _, f3, f4, f5⟩ := Learn.learnRunM_ok _ _ _ _ _ _ _ (flow h) h.projUids (queueOk h)
  rw [List.length_map] at f1
  have hpu : p.uid ∈ pops.map Learn.Pop.uid := List.mem_map.2 ⟨p, hp, rfl⟩
  have hext : ∀ i, (Sys.impactsIn ((envs.map (fun e => (extOf chans e.1, e.2))).getD i ([], ⟨[], [], []⟩)).1).filter
      (fun m => m.header.senderUid == j.ident.uid) = [] := by
    intro i
    rw [List.filter_eq_nil_iff]
    intro m hm
    by_cases hi : i < envs.length
    · rw [List.getD_eq_getElem?_getD, List.getElem?_map, List.getElem?_eq_getElem hi] at hm
      simp only [Option.map_some, Option.getD_some] at hm
      unfold Sys.impactsIn at hm
      obtain ⟨m', hm', he⟩ := List.mem_filterMap.1 hm
      cases m' with
      | spike x => simp at he
      | impact x =>
        simp only [Option.some.injEq] at he
        subst he
        unfold extOf sentVia at hm'
        obtain ⟨e, _, h2⟩ := List.mem_flatMap.1 hm'
        obtain ⟨op, hop, h3⟩ := List.mem_filterMap.1 h2
        cases op with
        | send e' m'' =>
          simp only at h3
          split at h3
          · simp only [Option.some.injEq] at h3
            subst h3
            have := hforge envs[i] (List.getElem_mem hi) e' x hop
            simpa using this
          · simp at h3
        | _ => simp at h3
    · rw [List.getD_eq_getElem?_getD, List.getElem?_eq_none (by simp; omega)] at hm
      simp [Sys.impactsIn] at hm
  have hhear : (learnHearing projs inputs).impact p.uid j.ident.uid = true := by
    simp only [learnHearing, decide_eq_true_eq]
    exact ⟨hp0, j, List.mem_of_getElem? hj, hpost, rfl⟩
  have hsel : ∀ l : List (SynapticImpactMessage F),
      (l.filter (fun m => (learnHearing projs inputs).impact p.uid m.header.senderUid)).filter
      (fun m => m.header.senderUid == j.ident.uid) = l.filter (fun m => m.header.senderUid == j.ident.uid) := by
    intro l
    rw [List.filter_filter]
    apply List.filter_congr
    intro m _
    by_cases hm : m.header.senderUid = j.ident.uid
    · simp [hm, hhear]
    · have : (m.header.senderUid == j.ident.uid) = false := by simpa using hm
      rw [this, Bool.false_and]
  have hpos : ∀ (k : Nat) (y : Delta.Syn F), j.syns.view.synapses[k]? = some y → 1 ≤ y.delay := by
    intro k y hy
    exact (hsound y (List.mem_of_getElem? hy)).2.2.1
  obtain ⟨es, j', _, htr, hmsgs, houts, hpre⟩ := f3 n j hj
  have hlen : es.length = os.length := by simpa using congrArg List.length hmsgs
  obtain ⟨_, hsame⟩ := htr.same
  obtain ⟨orders, hsch, hsend⟩ := htr.sends
  rw [h.queues j (List.mem_of_getElem? hj)] at hsend
  have hsz : ∀ x ∈ es.map (fun e => (⟨e.mid.syns.view, e.msgs⟩ : Delta.StepIn F)), x.proj.synapses.length ≤ 2 ^ 63 := by
    intro x hx
    obtain ⟨e, he, rfl⟩ := List.mem_map.1 hx
    simp only
    rw [Learn.skeleton_length (hsame e he).2.2]
    exact hsize
  have hso : ∀ i (hi : i < (es.map (fun e => (⟨e.mid.syns.view, e.msgs⟩ : Delta.StepIn F))).length),
      Sound (0 + i) ((es.map (fun e => (⟨e.mid.syns.view, e.msgs⟩ : Delta.StepIn F)))[i]).proj := by
    intro i hi
    rw [List.length_map] at hi
    rw [List.getElem_map]
    have := Learn.skeleton_sound (hsame es[i] (List.getElem_mem hi)).2.2 hsound
    intro x hx
    obtain ⟨a1, a2, a3, a4⟩ := this x hx
    exact ⟨a1, a2, a3, by omega⟩
  cases T with
  | zero =>
    have hg : (givenTo os[0] p.uid).filter (fun m => m.header.senderUid == j.ident.uid) = [] := by
      rw [f4 hT p.uid hpu, hsel]; rfl
    refine ⟨fun k y hy => ⟨fun _ => ?_, fun hle => ?_⟩, fun m hm hu => ?_⟩
    · unfold impactsThrough; rw [hg]; rfl
    · have := hpos k y hy; omega
    · have : m ∈ (givenTo os[0] p.uid).filter (fun m => m.header.senderUid == j.ident.uid) :=
        List.mem_filter.2 ⟨hm, by simpa using hu⟩
      rw [hg] at this
      simp at this
  | succ t =>
    have hte : t < es.length := by omega
    have hg : (givenTo os[t + 1] p.uid).filter (fun m => m.header.senderUid == j.ident.uid) = es[t].out.toList := by
      rw [f5 t hT p.uid hpu, hsel, List.filter_append, hext, List.nil_append]
      have := congrArg (fun l => l[t]?) houts
      simp only [List.getElem?_map, List.getElem?_eq_getElem hte, List.getElem?_eq_getElem (show t < os.length by omega),
        Option.map_some, Option.some.injEq] at this
      exact this.symm
    have hdel : ∀ k, impactsThrough j.ident.uid k (givenTo os[t + 1] p.uid) =
        (delivered es[t].out).filter (fun im => im.connectionIndex == k) := by
      intro k
      unfold impactsThrough
      rw [hg]
      unfold delivered
      cases es[t].out <;> simp
    refine ⟨fun k y hy => ?_, fun m hm hu im him => ?_⟩
    · have hkD : ∀ x ∈ es.map (fun e => (⟨e.mid.syns.view, e.msgs⟩ : Delta.StepIn F)), ∃ z, x.proj.synapses[k]? = some z ∧ z.delay = y.delay := by
        intro x hx
        obtain ⟨e, he, rfl⟩ := List.mem_map.1 hx
        obtain ⟨w, w1, _, _, w4, _⟩ := Learn.skeleton_get (hsame e he).2.2 hy
        exact ⟨w, w1, w4⟩
      obtain ⟨out, o1, _, o3⟩ := C42_threads c.scale j.ident 0 c.projPart hpart.1 hpart.2 _ hsz hso orders hsch k y.delay hkD t
        (by simpa using hte)
      rw [hsend, List.getElem?_map, List.getElem?_eq_getElem hte, Option.map_some, Option.some.injEq] at o1
      subst o1
      rw [← hdel] at o3
      have h1 := hpos k y hy
      refine ⟨fun hlt => ?_, fun hle => ?_⟩
      · rw [o3, dif_neg (by omega)]
      · rw [dif_pos (by omega)] at o3
        obtain ⟨a, ha⟩ : ∃ a, a = t - (y.delay - 1) := ⟨_, rfl⟩
        have ha' : t + 1 - y.delay = a := by omega
        have hae : a < es.length := by omega
        have hao : a < os.length := by omega
        rw [ha']
        simp only [← ha, List.getElem_map] at o3
        obtain ⟨s1, hr1⟩ := h.upTo (a + 1)
        have hfl := flow hr1
        rw [List.map_take] at hfl
        obtain ⟨j1, p1, p2⟩ := hpre _ _ _ hfl
        have hview := p2.last a (by rw [List.length_take]; omega)
        rw [List.getElem_take] at hview
        obtain ⟨w, w1, w2, w3, w4, w5⟩ := Learn.skeleton_get (hsame es[a] (List.getElem_mem hae)).2.2 hy
        refine ⟨s1, os.take (a + 1), j1, w, hr1, p1, by rw [hview]; exact w1, ?_⟩
        rw [o3]
        unfold countedThrough
        simp only [w1]
        have hma : es[a].msgs = heardBy os[a] j.ident.uid := by
          have := congrArg (fun l => l[a]?) hmsgs
          simpa [List.getElem?_eq_getElem hae, List.getElem?_eq_getElem hao] using this
        have hgd : os.getD a ⟨[], [], [], []⟩ = os[a] := by
          rw [List.getD_eq_getElem?_getD, List.getElem?_eq_getElem hao]; rfl
        rw [hma, hgd]
        unfold firstCount
        cases heardBy os[a] j.ident.uid with
        | nil => simp
        | cons m ms =>
          simp only [List.count_pos_iff]
          rw [w2, w3, w5]
    · obtain ⟨out, o1, o2⟩ := C42_threads_only c.scale j.ident 0 c.projPart hpart.1 hpart.2 _ hsz hso orders hsch t (by simpa using hte)
      rw [hsend, List.getElem?_map, List.getElem?_eq_getElem hte, Option.map_some, Option.some.injEq] at o1
      subst o1
      have hm' : m ∈ es[t].out.toList := by
        rw [← hg]; exact List.mem_filter.2 ⟨hm, by simpa using hu⟩
      have hin : im ∈ delivered es[t].out := by
        unfold delivered
        cases ho : es[t].out with
        | none => rw [ho] at hm'; simp at hm'
        | some x =>
          rw [ho] at hm'
          simp only [Option.toList_some, List.mem_singleton] at hm'
          subst hm'
          simpa using him
      obtain ⟨x, hx, hc⟩ := o2 im hin
      obtain ⟨e, he, rfl⟩ := List.mem_map.1 hx
      unfold countedThrough at hc
      cases hk : e.mid.syns.view.synapses[im.connectionIndex]? with
      | none => simp only [hk] at hc; simp at hc
      | some w =>
        obtain ⟨y, y1, y2, y3, _, y5⟩ := Learn.skeleton_get (hsame e he).2.2.symm hk
        refine ⟨y, y1, ?_⟩
        rw [y2, y3, y5]
        simp only [hk] at hc
        cases hms : e.msgs with
        | nil => rw [hms] at hc; simp at hc
        | cons m1 m2 =>
          rw [hms] at hc
          simp only at hc
          split at hc
          · simp only [List.mem_singleton] at hc
            rw [hc]
          · simp at hc

end

namespace LearnMultiEx
open LearnEx

/-- The run of `LearnMultiEx` is a `LearnRunM`. -/
theorem run : ∃ s, LearnRunM StdpEx.o config pops projs inputs 1 envs s (outs (multi.getD .ub)) := by
  have hok : (multi.getD .ub).isOk = true := by decide +kernel
  cases hr : multi with
  | none => rw [hr] at hok; cases hok
  | some x =>
    rw [hr] at hok
    cases x with
    | throw w => cases hok
    | ub => cases hok
    | ok x =>
      refine ⟨x.1, by decide +kernel, by decide +kernel, ?_, by simp [envs, flags, calls, Foreign], hr⟩
      intro j hj
      simp only [projs, List.mem_cons, List.not_mem_nil, or_false] at hj
      rcases hj with rfl | rfl | rfl | rfl <;> rfl

/-- C56: the loaded rule has no drain and both neurons of population 2 have a synapse. -/
example : (StdpEx.rule 0).drain = 0 ∧ [0, 1].map (fanIn 2 (projs.map trainable)) = [1, 1] ∧ fanIn 3 (projs.map trainable) 0 = 2 := by
  decide +kernel
/-- C126: the hypotheses hold for every projection ... -/
example : ∀ j ∈ projs, Sound envs.length (wired j.syns) ∧ (wired j.syns).synapses.length ≤ 2 ^ 63 := by
  intro j hj
  simp only [projs, List.mem_cons, List.not_mem_nil, or_false] at hj
  rcases hj with rfl | rfl | rfl | rfl
  all_goals
    refine ⟨fun y hy => ?_, by decide⟩
    simp only [wired, syns, syns2, List.map_cons, List.map_nil, List.mem_cons, List.not_mem_nil, or_false] at hy
    rcases hy with rfl | rfl <;> decide +kernel
/-- ... and the spikes of step 1 arrive in step 2 with the weights training gave in step 1. -/
example : [0, 1].map (fun k => impactsThrough 10 k (givenTo ((outs (multi.getD .ub)).getD 2 ⟨[], [], [], []⟩) 2)) =
    [[⟨0, 28 / 23, .excitatory, 0, 0⟩], [⟨1, 44 / 27, .excitatory, 1, 1⟩]] ∧
    firstCount 1 (heardBy ((outs (multi.getD .ub)).getD 1 ⟨[], [], [], []⟩) 10) = 1 := by decide +kernel

end LearnMultiEx
end Knp.Props
