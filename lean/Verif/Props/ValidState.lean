import Verif.Lemmas.ValidStateMulti
import Verif.Props.Valid
import Verif.Props.AltaiRuns
import Verif.Props.MnistAltai

/-!
# C181: a network whose neurons stay in safe states never fails

C162 asks that neurons take the impacts they get in every state.  AltAI-LIF neurons do not take negative blocking impacts in every state, so C162
says nothing about the AltAI network of the MNIST example.  `ValidNetIn` (`Verif/Spec/ValidState.lean`) asks it only for the states the neurons
can get into.
-/

namespace Knp.Props
open Knp Knp.Bus Knp.Spec Knp.Neurons Knp.Stdp Knp.Lemmas.Stdp

section
variable {N B F : Type} [Field F] [LinearOrder F]

private theorem runsIn_ok (o : Ops F) {I : N → Prop} {J : B → Prop} {pops : List (Learn.Pop N B F)} {projs : List (Learn.Proj F)}
    (hv : ValidNetIn I J (fun w v => v = w) pops projs) : RunsOk o pops projs := by
  intro inputs chans envs hf hs
  have h1 := C111_dataflow o pops projs inputs chans hv.popUids hv.projUids envs hf
  obtain ⟨st, os, h2, _⟩ := Learn.learnRun_in (I := I) (J := J) (o := o) (H := learnHearing projs inputs) (envs.map (extOf chans)) 0 pops projs []
    (Learn.stableIn_self pops hv.steady) (Learn.in_safe hv inputs) (by simp) (by
      intro ext he
      obtain ⟨env, hen, rfl⟩ := List.mem_map.1 he
      exact hs env hen)
  rw [h2] at h1
  cases hr : Learn.runSingle (Learn.machine o) (Learn.boot (Learn.machine o) pops projs inputs chans) envs with
  | throw w => rw [hr] at h1; cases h1
  | ub => rw [hr] at h1; cases h1
  | ok x => exact ⟨x.1, x.2, rfl⟩

/-- C181. On the single-threaded backend every run of a network that is valid in safe states, of any length and with any calls of the rest of the
program that send only spikes, ends normally. -/
theorem C181_runs (o : Ops F) {I : N → Prop} {J : B → Prop} {pops : List (Learn.Pop N B F)} {projs : List (Learn.Proj F)}
    (hv : ValidNetIn I J (fun w v => v = w) pops projs) (inputs : List (UID × UID)) (chans : Nat) (envs : List (Sys.Env F))
    (hf : ∀ env ∈ envs, ∀ op ∈ env, Foreign chans op) (hs : ∀ env ∈ envs, OnlySpikes env) :
    ∃ s os, Learn.runSingle (Learn.machine o) (Learn.boot (Learn.machine o) pops projs inputs chans) envs = .ok (s, os) :=
  runsIn_ok o hv inputs chans envs hf (fun env he => Learn.onlySpikes_ext (hs env he))

open Knp.Prog in
/-- C181 for programs: whatever the generators, handlers and observers do, every sequence of iterations, stops and reads ends normally. -/
theorem C181_program {σ : Type} (o : Ops F) (L : Layout) (c : Code σ F) {I : N → Prop} {J : B → Prop} {pops : List (Learn.Pop N B F)}
    {projs : List (Learn.Proj F)} (hv : ValidNetIn I J (fun w v => v = w) pops projs) (inputs : List (UID × UID))
    (u0 : σ) (acts : List (Act σ)) (ha : ∀ a ∈ acts, CanRead L a) :
    ∃ s tr, Prog.run ((Prog.Backend.single : Prog.Backend F).step o) L c (Prog.boot (Learn.machine o) L pops projs inputs u0) acts =
      .ok (s, tr) :=
  program_ok o L c (runsIn_ok o hv) hv.popUids hv.projUids hv.queues inputs u0 acts ha

omit [Field F] [LinearOrder F] in
private theorem safeMIn (c : Sys.Config F) {I : N → Prop} {J : B → Prop} {pops : List (Learn.Pop N B F)} {projs : List (Learn.Proj F)}
    (hv : ValidNetIn I J (fun w v => ∃ n, v = c.scale w n) pops projs) (inputs : List (UID × UID)) :
    Learn.SafeMIn I J (learnHearing projs inputs) c pops pops projs [] := by
  refine ⟨Learn.stableIn_self pops hv.steady, ?_, Learn.in_safe hv inputs, by simp⟩
  intro p hp
  rw [← Learn.size_eq]
  exact Nat.le_trans (hv.sizes p hp) (by decide)

private theorem runsInM_ok (o : Ops F) (c : Sys.Config F) (hc : 1 ≤ c.popPart ∧ c.popPart < two64) {I : N → Prop} {J : B → Prop}
    {pops : List (Learn.Pop N B F)} {projs : List (Learn.Proj F)} (hv : ValidNetIn I J (fun w v => ∃ n, v = c.scale w n) pops projs) :
    RunsOkM o c pops projs := by
  intro inputs chans envs hf hs r hr
  have h1 := C123_dataflow o c pops projs inputs chans hv.popUids hv.projUids envs hf
  rw [hr, Option.map_some] at h1
  have := Learn.learnRunM_in (I := I) (J := J) hc _ _ _ _ _ _ (safeMIn c hv inputs) (by
    intro ext he
    obtain ⟨env, hen, rfl⟩ := List.mem_map.1 he
    exact hs env hen) h1.symm
  cases r with
  | ok x => rfl
  | throw w => cases this
  | ub => cases this

private theorem goesInM_ok (o : Ops F) (c : Sys.Config F) (hc : 1 ≤ c.popPart ∧ c.popPart < two64) {I : N → Prop} {J : B → Prop}
    {pops : List (Learn.Pop N B F)} {projs : List (Learn.Proj F)} (hv : ValidNetIn I J (fun w v => ∃ n, v = c.scale w n) pops projs)
    (hk : ∀ j ∈ projs, ∀ a b d e, j.syns ≠ .additive a b d e) : GoesOnM o c pops projs := by
  intro inputs chans envs hf hs r hr next hfn hsn
  have hk' : ∀ j ∈ projs, Learn.kindOf j.syns ≠ 2 := by
    intro j hj
    have := hk j hj
    cases hsy : j.syns with
    | delta p => simp [Learn.kindOf]
    | resource a b d e => simp [Learn.kindOf]
    | additive a b d e => exact absurd hsy (this a b d e)
  have h1 := C123_dataflow o c pops projs inputs chans hv.popUids hv.projUids envs hf
  rw [hr, Option.map_some] at h1
  obtain ⟨sc, r', h2⟩ := Learn.learnRunM_inMore (I := I) (J := J) hc (extOf chans next) _ _ _ _ _ _ (safeMIn c hv inputs) hk' (by
    intro ext he
    obtain ⟨env, hen, rfl⟩ := List.mem_map.1 he
    exact hs env hen) hsn h1.symm
  have h3 := C123_dataflow o c pops projs inputs chans hv.popUids hv.projUids (envs ++ [(next, sc)]) (by
    intro env he
    rcases List.mem_append.1 he with he | he
    · exact hf env he
    · simp only [List.mem_cons, List.not_mem_nil, or_false] at he
      subst he; exact hfn)
  rw [List.map_append, List.map_cons, List.map_nil, h2] at h3
  refine ⟨sc, ?_⟩
  cases hm : Learn.runMulti (Learn.machine o) (Learn.threads o c) (Learn.boot (Learn.machine o) pops projs inputs chans)
      (envs ++ [(next, sc)]) with
  | none => rw [hm] at h3; cases h3
  | some x =>
    rw [hm] at h3
    cases x with
    | ok r => exact ⟨r, rfl⟩
    | throw w => cases h3
    | ub => cases h3

/-- C181 on the multi-threaded backend: whatever its threads do, no step fails; impacts carry the weight times the number of spikes there. -/
theorem C181_threads (o : Ops F) (c : Sys.Config F) (hc : 1 ≤ c.popPart ∧ c.popPart < two64) {I : N → Prop} {J : B → Prop}
    {pops : List (Learn.Pop N B F)} {projs : List (Learn.Proj F)} (hv : ValidNetIn I J (fun w v => ∃ n, v = c.scale w n) pops projs)
    (inputs : List (UID × UID)) (chans : Nat) (envs : List (Sys.Env F × Learn.Sched)) (hf : ∀ env ∈ envs, ∀ op ∈ env.1, Foreign chans op)
    (hs : ∀ env ∈ envs, OnlySpikes env.1) {r}
    (hr : Learn.runMulti (Learn.machine o) (Learn.threads o c) (Learn.boot (Learn.machine o) pops projs inputs chans) envs = some r) :
    r.isOk = true :=
  runsInM_ok o c hc hv inputs chans envs hf (fun env he => Learn.onlySpikes_ext (hs env he)) hr

open Knp.Prog in
/-- C181 for programs on the multi-threaded backend: no order the threads can take fails. -/
theorem C181_program_threads {σ : Type} (o : Ops F) (L : Layout) (c : Code σ F) {config : Sys.Config F}
    (hc : 1 ≤ config.popPart ∧ config.popPart < two64) {I : N → Prop} {J : B → Prop} {pops : List (Learn.Pop N B F)}
    {projs : List (Learn.Proj F)} (hv : ValidNetIn I J (fun w v => ∃ n, v = config.scale w n) pops projs)
    (sched : Nat → Learn.Sched) (inputs : List (UID × UID)) (u0 : σ) (acts : List (Act σ)) (ha : ∀ a ∈ acts, CanRead L a) :
    (∃ s tr, Prog.run ((Prog.Backend.multi config sched).step o) L c (Prog.boot (Learn.machine o) L pops projs inputs u0) acts =
      .ok (s, tr)) ∨
    Prog.run ((Prog.Backend.multi config sched).step o) L c (Prog.boot (Learn.machine o) L pops projs inputs u0) acts =
      .throw "not a schedule" :=
  program_threads_ok o L c (runsInM_ok o config hc hv) hv.popUids hv.projUids hv.queues sched inputs u0 acts ha

open Knp.Prog in
/-- C181: and the threads do not get stuck. -/
theorem C181_program_progress {σ : Type} (o : Ops F) (L : Layout) (c : Code σ F) {config : Sys.Config F}
    (hc : 1 ≤ config.popPart ∧ config.popPart < two64) {I : N → Prop} {J : B → Prop} {pops : List (Learn.Pop N B F)}
    {projs : List (Learn.Proj F)} (hv : ValidNetIn I J (fun w v => ∃ n, v = config.scale w n) pops projs)
    (hk : ∀ j ∈ projs, ∀ a b d e, j.syns ≠ .additive a b d e)
    (inputs : List (UID × UID)) (u0 : σ) (acts : List (Act σ)) (ha : ∀ a ∈ acts, CanRead L a) :
    ∃ sched s tr, Prog.run ((Prog.Backend.multi config sched).step o) L c (Prog.boot (Learn.machine o) L pops projs inputs u0) acts =
      .ok (s, tr) :=
  program_progress_ok o L c (goesInM_ok o config hc hv hk) hv.popUids hv.projUids hv.queues inputs u0 acts ha

omit [Field F] [LinearOrder F] in
/-- C181 covers C162: a valid network is valid in safe states, with all states safe. -/
theorem C181_covers {out : F → F → Prop} {pops : List (Learn.Pop N B F)} {projs : List (Learn.Proj F)} (hv : ValidNet out pops projs) :
    ValidNetIn (fun _ => True) (fun _ => True) out pops projs := by
  have ht : ∀ {A : Type} (k : Kind A F) ty v, Takes k ty v → TakesIn (fun _ => True) k ty v := by
    intro A k ty v h n i b _ h1 h2
    have := h n i b h1 h2
    cases hk : k.impact n i b with
    | ok n' => exact ⟨n', rfl, trivial⟩
    | throw w => rw [hk] at this; cases this
    | ub => rw [hk] at this; cases this
  refine ⟨hv.popUids, hv.projUids, hv.queues, hv.sizes, ?_, hv.targets, ?_⟩
  · intro p _
    cases p with
    | plain u k ns => exact ⟨⟨fun _ _ => trivial, fun _ _ => trivial⟩, fun _ _ => trivial⟩
    | trained u k b ns => exact ⟨⟨fun _ _ => trivial, fun _ _ => trivial⟩, fun _ _ _ => trivial, fun _ _ => trivial⟩
  · intro j hj p hp hpost s hs v hc
    have := hv.types j hj p hp hpost s hs v hc
    cases p with
    | plain u k ns => exact ht k _ _ this
    | trained u k b ns => exact ht k _ _ this

end

/-! ## AltAI-LIF neurons -/

section
variable {F : Type}

/-- C181: AltAI-LIF neurons stay above the least activity time, and there they take every good impact. -/
theorem C181_altai [Arith F] (ty : OutputType) (v : F) (h : AltaiGood ty v) :
    (Steady (fun n => least64 < n.activity) (altai (F := F)) ∧ TakesIn (fun n => least64 < n.activity) (altai (F := F)) ty v) ∧
    (Steady (fun n => least64 < n.base.activity) (resAltai (F := F)) ∧
      TakesIn (fun n => least64 < n.base.activity) (resAltai (F := F)) ty v) := by
  refine ⟨⟨⟨fun _ h => h, altaiSafe_post⟩, ?_⟩, ⟨fun _ h => h, fun n h => altaiSafe_post n.base h⟩, ?_⟩
  · intro n i b hn h1 h2
    exact altaiSafe_impact n i b hn (by rw [h1, h2]; exact h)
  · intro n i b hn h1 h2
    obtain ⟨m, h3, h4⟩ := altaiSafe_impact n.base i b hn (by rw [h1, h2]; exact h)
    refine ⟨{ base := m, rule := if i.synapseType = .excitatory then { n.rule with forced := n.rule.forced || b } else n.rule }, ?_, h4⟩
    show resAltaiImpact n i b = _
    unfold resAltaiImpact
    rw [h3]
    rfl

/-! ## The MNIST example with AltAI neurons -/

open Knp.Mnist

variable [Field F] [LinearOrder F] [IsStrictOrderedRing F]

/-- C181: the network of the MNIST example with AltAI neurons is valid in safe states, if the values its blocking synapses can
carry are good: -10 on one thread, some multiple of it on several. -/
theorem C181_mnist_valid {N : Type} (I : N → Prop) (arith : Arith F) (out : F → F → Prop)
    (hb : ∀ v, out (-10) v → ∃ z, arith.toI64 v = some z ∧ least64 < z) (p : Altai.Params F)
    (h : MnistAltai.Fit p) (hsmall : p.perColumn * p.classes ≤ 2 ^ 32) (hn : least64 < p.inputNeuron.base.activity)
    (hn' : least64 < p.otherNeuron.base.activity) (fresh : Nat) (a : Altai.Annotated (Altai.Body F) (JBody F))
    (ha : Altai.construct p fresh = .ok a) :
    ValidNetIn I (fun n : AltAi F => least64 < n.activity) out (Altai.loadPops (N := N) arith a.builder.network)
      (Altai.loadProjs a.builder.network) := by
  obtain ⟨a', ha', hpops, hdraw, _⟩ := C179_network p h fresh
  rw [ha] at ha'
  simp only [Outcome.ok.injEq] at ha'
  subst ha'
  have hcl : p.classes ≤ p.perColumn * p.classes := Nat.le_mul_of_pos_left _ h.column
  have hpop : ∀ q ∈ Altai.loadPops (N := N) arith a.builder.network, ∃ (k n : Nat) (x : Res (AltAi F) F),
      q = .trained (fresh + k) (@resAltai F arith) altaiOps (List.replicate n x) ∧ least64 < x.base.activity ∧
      ((k = 0 ∧ n = p.perColumn * p.classes) ∨ (k = 1 ∧ n = p.classes) ∨ (k = 2 ∧ n = p.classes)) := by
    intro q hq
    unfold Altai.loadPops at hq
    rw [hpops] at hq
    simp only [List.map_cons, List.map_nil, List.mem_cons, List.not_mem_nil, or_false] at hq
    rcases hq with rfl | rfl | rfl
    · exact ⟨0, _, _, rfl, hn, .inl ⟨rfl, rfl⟩⟩
    · exact ⟨1, _, _, rfl, hn', .inr (.inl ⟨rfl, rfl⟩)⟩
    · exact ⟨2, _, _, rfl, hn', .inr (.inr ⟨rfl, rfl⟩)⟩
  have harrow : ∀ j ∈ Altai.loadProjs a.builder.network, ∃ ar : Arrow F, ar ∈ MnistAltai.arrows p fresh ∧ Draws j ar := by
    intro j hj
    obtain ⟨n, hn, rfl⟩ := List.getElem_of_mem hj
    have hn2 := hn
    rw [hdraw.length_eq] at hn2
    exact ⟨_, List.getElem_mem hn2, hdraw.get hn hn2⟩
  have hcol : ∀ {c i : Nat}, MnistAltai.InColumn p c i → i < p.perColumn * p.classes ∧ c < p.classes := by
    rintro c i ⟨h1, rfl⟩
    exact ⟨h1, Nat.div_lt_of_lt_mul h1⟩
  constructor
  · unfold Altai.loadPops
    rw [hpops]
    simp [Learn.Pop.uid]
  · have : (Altai.loadProjs a.builder.network).map (fun j => j.ident.uid) = (MnistAltai.arrows p fresh).map (fun ar => ar.uid) := by
      have := hdraw
      generalize Altai.loadProjs a.builder.network = l at *
      generalize MnistAltai.arrows p fresh = r at *
      clear harrow hdraw
      induction this with
      | nil => rfl
      | cons hd _ ih => simp only [List.map_cons, ih, hd.uid]
    rw [this]
    simp [MnistAltai.arrows]
  · intro j hj
    obtain ⟨ar, _, hd⟩ := harrow j hj
    exact hd.fresh
  · intro q hq
    obtain ⟨k, n, x, rfl, _, hk⟩ := hpop q hq
    show (List.replicate n x).length ≤ 2 ^ 32
    rw [List.length_replicate]
    rcases hk with ⟨_, hn⟩ | ⟨_, hn⟩ | ⟨_, hn⟩ <;> omega
  · intro q hq
    obtain ⟨k, n, x, rfl, hx, _⟩ := hpop q hq
    refine ⟨(@C181_altai F arith .excitatory 0 ⟨(by intro h; cases h), (fun h => by cases h)⟩).2.1, fun _ _ h => h, ?_⟩
    intro m hm
    rw [(List.mem_replicate.1 hm).2]
    exact hx
  · intro j hj q hq hpost y hy
    obtain ⟨ar, har, hd⟩ := harrow j hj
    obtain ⟨k, n, x, rfl, _, hk⟩ := hpop q hq
    have hcon : ar.connects y.source y.target := by
      by_contra hno
      exact hd.only _ _ hno (List.mem_map.2 ⟨y, hy, rfl⟩)
    rw [hd.post] at hpost
    change fresh + k = ar.post at hpost
    show y.target < (List.replicate n x).length
    rw [List.length_replicate]
    simp only [MnistAltai.arrows, List.mem_cons, List.not_mem_nil, or_false] at har
    rcases har with rfl | rfl | rfl | rfl | rfl | rfl | rfl
    · have hpost : (fresh + k : Nat) = fresh := hpost
      have hcon : _ ∧ _ := hcon
      have e : p.inputs = p.perColumn * p.classes := rfl
      rcases hk with ⟨_, hn⟩ | ⟨_, hn⟩ | ⟨_, hn⟩ <;> omega
    · have hpost : (fresh + k : Nat) = fresh := hpost
      have hcon := hcol hcon
      rcases hk with ⟨_, hn⟩ | ⟨_, hn⟩ | ⟨_, hn⟩ <;> omega
    · have hpost : (fresh + k : Nat) = fresh := hpost
      have hcon : _ ∧ _ := hcon
      have e : p.inputs = p.perColumn * p.classes := rfl
      rcases hk with ⟨_, hn⟩ | ⟨_, hn⟩ | ⟨_, hn⟩ <;> omega
    · have hpost : (fresh + k : Nat) = fresh + 2 := hpost
      have hcon : _ ∧ _ := hcon
      rcases hk with ⟨_, hn⟩ | ⟨_, hn⟩ | ⟨_, hn⟩ <;> omega
    · have hpost : (fresh + k : Nat) = fresh + 1 := hpost
      have hcon := hcol hcon
      rcases hk with ⟨_, hn⟩ | ⟨_, hn⟩ | ⟨_, hn⟩ <;> omega
    · have hpost : (fresh + k : Nat) = fresh + 2 := hpost
      have hcon : _ ∧ _ := hcon
      rcases hk with ⟨_, hn⟩ | ⟨_, hn⟩ | ⟨_, hn⟩ <;> omega
    · have hpost : (fresh + k : Nat) = fresh := hpost
      have hcon := hcol hcon
      rcases hk with ⟨_, hn⟩ | ⟨_, hn⟩ | ⟨_, hn⟩ <;> omega
  · intro j hj q hq hpost y hy v hv
    obtain ⟨ar, har, hd⟩ := harrow j hj
    obtain ⟨k, n, x, rfl, _, hk⟩ := hpop q hq
    refine (@C181_altai F arith y.outType v ?_).2.2
    obtain ⟨hw, _, ht⟩ := hd.alike y hy
    simp only [MnistAltai.arrows, List.mem_cons, List.not_mem_nil, or_false] at har
    rcases har with rfl | rfl | rfl | rfl | rfl | rfl | rfl
    · exact ⟨(by rw [ht]; intro h; cases h), (fun h => by rw [ht] at h; cases h)⟩
    · exact ⟨(by rw [ht]; intro h; cases h), (fun h => by rw [ht] at h; cases h)⟩
    · exact ⟨(by rw [ht]; intro h; cases h), (fun h => by rw [ht] at h; cases h)⟩
    · exact ⟨(by rw [ht]; intro h; cases h), (fun h => by rw [ht] at h; cases h)⟩
    · exact ⟨(by rw [ht]; intro h; cases h), (fun h => by rw [ht] at h; cases h)⟩
    · refine ⟨(by rw [ht]; intro h; cases h), fun _ => ?_⟩
      obtain ⟨d, hs⟩ := hd.plain rfl
      rw [hs] at hv
      have hv' : out y.weight v := hv
      rw [hw] at hv'
      exact hb v hv'
    · exact ⟨(by rw [ht]; intro h; cases h), (fun h => by rw [ht] at h; cases h)⟩

open Knp.Prog in
/-- C181: no program on the network of the AltAI MNIST example fails on the single-threaded backend: whatever images and labels its generators send,
whatever winner-take-all and the loggers do, any number of steps ends normally. -/
theorem C181_mnist {σ N : Type} (arith : Arith F) (hb : ∃ z, arith.toI64 (-10) = some z ∧ least64 < z) (p : Altai.Params F)
    (h : MnistAltai.Fit p) (hsmall : p.perColumn * p.classes ≤ 2 ^ 32) (hn : least64 < p.inputNeuron.base.activity)
    (hn' : least64 < p.otherNeuron.base.activity) (fresh : Nat) (a : Altai.Annotated (Altai.Body F) (JBody F))
    (ha : Altai.construct p fresh = .ok a) (o : Ops F) (L : Layout) (c : Code σ F) (inputs : List (UID × UID))
    (u0 : σ) (acts : List (Act σ)) (hr : ∀ x ∈ acts, CanRead L x) :
    ∃ s tr, Prog.run ((Prog.Backend.single : Prog.Backend F).step o) L c
      (Prog.boot (Learn.machine o) L (Altai.loadPops (N := N) arith a.builder.network) (Altai.loadProjs a.builder.network) inputs u0) acts = .ok (s, tr) :=
  C181_program o L c (C181_mnist_valid (fun _ => True) arith _ (fun v hv => by subst hv; exact hb) p h hsmall hn hn' fresh a ha) inputs u0 acts hr

end

/-! ## It is not empty -/

/-- The hypotheses of `C181_threads`, `C181_program_threads` and `C181_program_progress` hold for the network of C124's examples. -/
example : ValidNetIn (fun _ => True) (fun _ => True) (fun w v => ∃ n, v = LearnMultiEx.config.scale w n) LearnMultiEx.pops LearnMultiEx.projs :=
  C181_covers ValidEx.validM

namespace AltaiEx
open Knp.Mnist

/-- Rational arithmetic; conversion to 64 bits as in C++. -/
@[reducible] def arith : Arith ℚ where
  add := (· + ·)
  sub := (· - ·)
  mul := (· * ·)
  neg := (- ·)
  zero := 0
  one := 1
  lt a b := decide (a < b)
  le a b := decide (a ≤ b)
  ofInt a := a
  toI64 a :=
    let z := if 0 ≤ a then a.floor else a.ceil
    if least64 ≤ z ∧ z < 2 ^ 63 then some z else none
  signbit a := decide (a < 0)
  abs a := |a|
  round a := (a + 1 / 2).floor

/-- The hypotheses of `C181_mnist` hold for the sizes of the repository. -/
example : (∃ z, arith.toI64 (-10) = some z ∧ least64 < z) ∧ repository.perColumn * repository.classes ≤ 2 ^ 32 ∧
    least64 < repository.inputNeuron.base.activity ∧ least64 < repository.otherNeuron.base.activity ∧
    ∃ a, Altai.construct repository 1 = .ok a :=
  ⟨⟨-10, by decide +kernel, by decide +kernel⟩, by decide, by decide +kernel, by decide +kernel, by
    obtain ⟨a, ha, _⟩ := C179_network repository
      ⟨by decide, by decide, by decide, by decide, by decide +kernel, by decide +kernel, by decide +kernel⟩ 1
    exact ⟨a, ha⟩⟩

/-- It is not covered by C162: in some state its gate neurons do not take the blocking impact -10. -/
example : ¬ Takes (@resAltai ℚ arith) .blocking (-10) := by
  intro h
  have := h ⟨{ base 0 with activity := least64 }, StdpEx.rule 0⟩ ⟨0, -10, .blocking, 0, 0⟩ false rfl rfl
  exact absurd this (by decide +kernel)

end AltaiEx
end Knp.Props
