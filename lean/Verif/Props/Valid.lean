import Verif.Lemmas.Valid
import Verif.Props.ProgramThreads

/-!
# C162: a network whose parts fit together never fails

`ValidNet` (`Verif/Spec/Valid.lean`) is what a user checks before running a network: different UIDs, every synapse into a population
ends in one of its neurons, and its neurons handle the synapse's output type.  Then no step of any run throws or has undefined
behaviour, on either CPU backend and for every schedule of the threads of the multi-threaded one.
-/

namespace Knp.Props
open Knp Knp.Bus Knp.Spec Knp.Neurons Knp.Stdp Knp.Lemmas.Stdp

section
variable {N B F : Type} [Field F] [LinearOrder F]

private theorem run_ok (o : Ops F) {pops : List (Learn.Pop N B F)} {projs : List (Learn.Proj F)} (hv : ValidNet (fun w v => v = w) pops projs)
    (inputs : List (UID × UID)) (chans : Nat) (envs : List (Sys.Env F)) (hf : ∀ env ∈ envs, ∀ op ∈ env, Foreign chans op)
    (hs : ∀ env ∈ envs, Sys.impactsIn (extOf chans env) = []) :
    ∃ s os, Learn.runSingle (Learn.machine o) (Learn.boot (Learn.machine o) pops projs inputs chans) envs = .ok (s, os) := by
  have h1 := C111_dataflow o pops projs inputs chans hv.popUids hv.projUids envs hf
  obtain ⟨st, os, h2, _⟩ := Learn.learnRun_valid (o := o) (H := learnHearing projs inputs) (envs.map (extOf chans)) 0 pops projs []
    (Learn.stable_self pops) (Learn.valid_safe hv inputs) (by simp) (by
      intro ext he
      obtain ⟨env, hen, rfl⟩ := List.mem_map.1 he
      exact hs env hen)
  rw [h2] at h1
  cases hr : Learn.runSingle (Learn.machine o) (Learn.boot (Learn.machine o) pops projs inputs chans) envs with
  | throw w => rw [hr] at h1; cases h1
  | ub => rw [hr] at h1; cases h1
  | ok x => exact ⟨x.1, x.2, rfl⟩

/-- C162. On the single-threaded backend every run of a valid network, of any length and with any calls of the rest of the program
that send only spikes, ends normally. -/
theorem C162_valid_runs (o : Ops F) {pops : List (Learn.Pop N B F)} {projs : List (Learn.Proj F)}
    (hv : ValidNet (fun w v => v = w) pops projs) (inputs : List (UID × UID)) (chans : Nat) (envs : List (Sys.Env F))
    (hf : ∀ env ∈ envs, ∀ op ∈ env, Foreign chans op) (hs : ∀ env ∈ envs, OnlySpikes env) :
    ∃ s os, Learn.runSingle (Learn.machine o) (Learn.boot (Learn.machine o) pops projs inputs chans) envs = .ok (s, os) :=
  run_ok o hv inputs chans envs hf (fun env he => Learn.onlySpikes_ext (hs env he))

private theorem safeM (c : Sys.Config F) {pops : List (Learn.Pop N B F)} {projs : List (Learn.Proj F)}
    (hv : ValidNet (fun w v => ∃ n, v = c.scale w n) pops projs) (inputs : List (UID × UID)) :
    Learn.SafeM (learnHearing projs inputs) c pops pops projs [] := by
  refine ⟨Learn.stable_self pops, ?_, Learn.valid_safe hv inputs, by simp⟩
  intro p hp
  rw [← Learn.size_eq]
  exact Nat.le_trans (hv.sizes p hp) (by decide)

private theorem runM_ok (o : Ops F) (c : Sys.Config F) (hc : 1 ≤ c.popPart ∧ c.popPart < two64) {pops : List (Learn.Pop N B F)}
    {projs : List (Learn.Proj F)} (hv : ValidNet (fun w v => ∃ n, v = c.scale w n) pops projs) (inputs : List (UID × UID)) (chans : Nat)
    (envs : List (Sys.Env F × Learn.Sched)) (hf : ∀ env ∈ envs, ∀ op ∈ env.1, Foreign chans op)
    (hs : ∀ env ∈ envs, Sys.impactsIn (extOf chans env.1) = []) {r}
    (hr : Learn.runMulti (Learn.machine o) (Learn.threads o c) (Learn.boot (Learn.machine o) pops projs inputs chans) envs = some r) :
    r.isOk = true := by
  have h1 := C123_dataflow o c pops projs inputs chans hv.popUids hv.projUids envs hf
  rw [hr, Option.map_some] at h1
  have := Learn.learnRunM_valid hc _ _ _ _ _ _ (safeM c hv inputs) (by
    intro ext he
    obtain ⟨env, hen, rfl⟩ := List.mem_map.1 he
    exact hs env hen) h1.symm
  cases r with
  | ok x => rfl
  | throw w => cases this
  | ub => cases this

/-- C162 on the multi-threaded backend: whatever its threads do - `runMulti` is `none` only for orders that are no schedule of the
tasks - no step fails.  Impacts carry the weight times the number of spikes there. -/
theorem C162_threads (o : Ops F) (c : Sys.Config F) (hc : 1 ≤ c.popPart ∧ c.popPart < two64) {pops : List (Learn.Pop N B F)}
    {projs : List (Learn.Proj F)} (hv : ValidNet (fun w v => ∃ n, v = c.scale w n) pops projs) (inputs : List (UID × UID)) (chans : Nat)
    (envs : List (Sys.Env F × Learn.Sched)) (hf : ∀ env ∈ envs, ∀ op ∈ env.1, Foreign chans op)
    (hs : ∀ env ∈ envs, OnlySpikes env.1) {r}
    (hr : Learn.runMulti (Learn.machine o) (Learn.threads o c) (Learn.boot (Learn.machine o) pops projs inputs chans) envs = some r) :
    r.isOk = true :=
  runM_ok o c hc hv inputs chans envs hf (fun env he => Learn.onlySpikes_ext (hs env he)) hr

private theorem runM_more (o : Ops F) (c : Sys.Config F) (hc : 1 ≤ c.popPart ∧ c.popPart < two64) {pops : List (Learn.Pop N B F)}
    {projs : List (Learn.Proj F)} (hv : ValidNet (fun w v => ∃ n, v = c.scale w n) pops projs)
    (hk : ∀ j ∈ projs, Learn.kindOf j.syns ≠ 2) (inputs : List (UID × UID)) (chans : Nat)
    (envs : List (Sys.Env F × Learn.Sched)) (hf : ∀ env ∈ envs, ∀ op ∈ env.1, Foreign chans op)
    (hs : ∀ env ∈ envs, Sys.impactsIn (extOf chans env.1) = []) {r}
    (hr : Learn.runMulti (Learn.machine o) (Learn.threads o c) (Learn.boot (Learn.machine o) pops projs inputs chans) envs = some r)
    (next : Sys.Env F) (hfn : ∀ op ∈ next, Foreign chans op) (hsn : Sys.impactsIn (extOf chans next) = []) :
    ∃ sc r', Learn.runMulti (Learn.machine o) (Learn.threads o c) (Learn.boot (Learn.machine o) pops projs inputs chans)
      (envs ++ [(next, sc)]) = some (.ok r') := by
  have h1 := C123_dataflow o c pops projs inputs chans hv.popUids hv.projUids envs hf
  rw [hr, Option.map_some] at h1
  obtain ⟨sc, r', h2⟩ := Learn.learnRunM_more hc (extOf chans next) _ _ _ _ _ _ (safeM c hv inputs) hk (by
    intro ext he
    obtain ⟨env, hen, rfl⟩ := List.mem_map.1 he
    exact hs env hen) hsn h1.symm
  have h3 := C123_dataflow o c pops projs inputs chans hv.popUids hv.projUids (envs ++ [(next, sc)]) (by
    intro env he
    rcases List.mem_append.1 he with he | he
    · exact hf env he
    · simp only [List.mem_cons, List.not_mem_nil, or_false] at he
      subst he; exact hfn)
  rw [List.map_append, List.map_cons, List.map_nil, h2] at h3
  refine ⟨sc, ?_⟩
  cases hm : Learn.runMulti (Learn.machine o) (Learn.threads o c) (Learn.boot (Learn.machine o) pops projs inputs chans)
      (envs ++ [(next, sc)]) with
  | none => rw [hm] at h3; cases h3
  | some x =>
    rw [hm] at h3
    cases x with
    | ok r => exact ⟨r, rfl⟩
    | throw w => cases h3
    | ub => cases h3

/-- C162: and the threads do not get stuck.  After any run there is a schedule of the next step, whatever the rest of the program
does before it.  (A projection with additive STDP is left out: the multi-threaded backend cannot load one.) -/
theorem C162_threads_progress (o : Ops F) (c : Sys.Config F) (hc : 1 ≤ c.popPart ∧ c.popPart < two64) {pops : List (Learn.Pop N B F)}
    {projs : List (Learn.Proj F)} (hv : ValidNet (fun w v => ∃ n, v = c.scale w n) pops projs)
    (hk : ∀ j ∈ projs, ∀ a b d e, j.syns ≠ .additive a b d e) (inputs : List (UID × UID)) (chans : Nat)
    (envs : List (Sys.Env F × Learn.Sched)) (hf : ∀ env ∈ envs, ∀ op ∈ env.1, Foreign chans op)
    (hs : ∀ env ∈ envs, OnlySpikes env.1) {r}
    (hr : Learn.runMulti (Learn.machine o) (Learn.threads o c) (Learn.boot (Learn.machine o) pops projs inputs chans) envs = some r)
    (next : Sys.Env F) (hfn : ∀ op ∈ next, Foreign chans op) (hsn : OnlySpikes next) :
    ∃ sc r', Learn.runMulti (Learn.machine o) (Learn.threads o c) (Learn.boot (Learn.machine o) pops projs inputs chans)
      (envs ++ [(next, sc)]) = some (.ok r') := by
  refine runM_more o c hc hv ?_ inputs chans envs hf (fun env he => Learn.onlySpikes_ext (hs env he)) hr next hfn (Learn.onlySpikes_ext hsn)
  intro j hj
  have := hk j hj
  cases hsy : j.syns with
  | delta p => simp [Learn.kindOf]
  | resource a b d e => simp [Learn.kindOf]
  | additive a b d e => exact absurd hsy (this a b d e)

end

/-! ## Which neurons take what -/

section
variable {F : Type} [Arith F]

/-- C162: LIF neurons take excitatory and inhibitory-current impacts and no others. -/
theorem C162_lif (ty : OutputType) (v : F) : Takes (lif (F := F)) ty v ↔ ty = .excitatory ∨ ty = .inhibitoryCurrent := by
  constructor
  · intro h
    have := h ⟨0, 0, 0, 0, 0, 0⟩ ⟨0, v, ty, 0, 0⟩ false rfl rfl
    cases ty <;> first | exact .inl rfl | exact .inr rfl | cases this
  · intro h n i f h1 _
    simp only [lif, lifImpact, h1]
    rcases h with rfl | rfl <;> rfl

/-- C162: BLIFAT neurons take everything, but a blocking impact must have a value that a 64-bit integer can hold. -/
theorem C162_blifat (ty : OutputType) (v : F) : Takes (blifat (F := F)) ty v ↔ (ty = .blocking → (Arith.toI64 v).isSome = true) := by
  constructor
  · intro h ht
    subst ht
    have := h ⟨0, 0, 0, 0, 0, 0, 0, 0, 0, 0, 0, 0, 0, 0, 0, 0, 0, 0, 0, 0, 0, 0, 0⟩ ⟨0, v, .blocking, 0, 0⟩ false rfl rfl
    simp only [blifat, blifatImpact] at this
    cases hv : Arith.toI64 v with
    | none => rw [hv] at this; cases this
    | some x => rfl
  · intro h n i f h1 h2
    simp only [blifat, blifatImpact, h1, h2]
    cases ty <;> try rfl
    have := h rfl
    cases hv : Arith.toI64 v with
    | none => rw [hv] at this; cases this
    | some x => rfl

/-- C162: AltAI neurons take excitatory, inhibitory-current and dopamine impacts; blocking impacts in every state only if the value is
not negative and a 64-bit integer can hold it. -/
theorem C162_altai (ty : OutputType) (v : F) : Takes (altai (F := F)) ty v ↔
    ty = .excitatory ∨ ty = .inhibitoryCurrent ∨ ty = .dopamine ∨
      (ty = .blocking ∧ Arith.signbit v = false ∧ (Arith.toI64 v).isSome = true) := by
  constructor
  · intro h
    cases ty with
    | excitatory => exact .inl rfl
    | inhibitoryCurrent => exact .inr (.inl rfl)
    | dopamine => exact .inr (.inr (.inl rfl))
    | inhibitoryConductance =>
      have := h ⟨false, false, false, false, false, 0, 0, 0, 0, 0, 0, 0, 0, 0⟩ ⟨0, v, .inhibitoryConductance, 0, 0⟩ false rfl rfl
      cases this
    | blocking =>
      refine .inr (.inr (.inr ⟨rfl, ?_, ?_⟩))
      · cases hs : Arith.signbit v with
        | false => rfl
        | true =>
          have := h ⟨false, false, false, false, false, 0, 0, 0, 0, 0, 0, 0, 0, -(i64max + 1)⟩ ⟨0, v, .blocking, 0, 0⟩ false rfl rfl
          simp only [altai, altaiImpact, hs] at this
          have hneg : decide (-(i64max + 1) < 0) = true := by decide
          rw [hneg] at this
          cases this
      · cases hs : Arith.signbit v with
        | false =>
          have := h ⟨false, false, false, false, false, 0, 0, 0, 0, 0, 0, 0, 0, -1⟩ ⟨0, v, .blocking, 0, 0⟩ false rfl rfl
          simp only [altai, altaiImpact, hs] at this
          cases hv : Arith.toI64 v with
          | none => rw [hv] at this; cases this
          | some x => rfl
        | true =>
          have := h ⟨false, false, false, false, false, 0, 0, 0, 0, 0, 0, 0, 0, 1⟩ ⟨0, v, .blocking, 0, 0⟩ false rfl rfl
          simp only [altai, altaiImpact, hs] at this
          cases hv : Arith.toI64 v with
          | none => rw [hv] at this; cases this
          | some x => rfl
  · intro h n i f h1 h2
    simp only [altai, altaiImpact, h1, h2]
    rcases h with rfl | rfl | rfl | ⟨rfl, h3, h4⟩
    · rfl
    · rfl
    · rfl
    · obtain ⟨x, hx⟩ := Option.isSome_iff_exists.1 h4
      simp only [h3, hx]
      split
      · rfl
      · rename_i hb
        split
        · rename_i hm
          rw [hm] at hb
          exact absurd hb (by decide)
        · split <;> rfl

/-- C162: a neuron with resources takes what its base neuron takes. -/
theorem C162_resource (ty : OutputType) (v : F) : (Takes (resBlifat (F := F)) ty v ↔ Takes (blifat (F := F)) ty v) ∧
    (Takes (resAltai (F := F)) ty v ↔ Takes (altai (F := F)) ty v) := by
  have r0 : Rule F := ⟨0, 0, 0, 0, 0, 0, 0, 0, 0, 0, .notInPeriod, 0, 0, 0, false⟩
  refine ⟨⟨fun h n i f h1 h2 => ?_, fun h n i f h1 h2 => ?_⟩, ⟨fun h n i f h1 h2 => ?_, fun h n i f h1 h2 => ?_⟩⟩
  · have := h ⟨n, r0⟩ i f h1 h2
    simp only [resBlifat, resBlifatImpact] at this
    simp only [blifat]
    cases hb : blifatImpact n i f with
    | ok x => rfl
    | throw w => rw [hb] at this; cases this
    | ub => rw [hb] at this; cases this
  · have := h n.base i f h1 h2
    simp only [blifat] at this
    simp only [resBlifat, resBlifatImpact]
    cases hb : blifatImpact n.base i f with
    | ok x => rfl
    | throw w => rw [hb] at this; cases this
    | ub => rw [hb] at this; cases this
  · have := h ⟨n, r0⟩ i f h1 h2
    simp only [resAltai, resAltaiImpact] at this
    simp only [altai]
    cases hb : altaiImpact n i f with
    | ok x => rfl
    | throw w => rw [hb] at this; cases this
    | ub => rw [hb] at this; cases this
  · have := h n.base i f h1 h2
    simp only [altai] at this
    simp only [resAltai, resAltaiImpact]
    cases hb : altaiImpact n.base i f with
    | ok x => rfl
    | throw w => rw [hb] at this; cases this
    | ub => rw [hb] at this; cases this

end

/-! ## Programs -/

section
open Knp.Prog
variable {σ N B F : Type} [Field F] [LinearOrder F]

omit [Field F] [LinearOrder F] in
private theorem after_more {P J : Type} {step : Stepper P J F} (env : List (Op F)) : ∀ (envs : List (List (Op F)))
    {s0 sB : Learn.State P J F} {os : List (Sys.StepOut F)}, after step s0 envs = .ok (sB, os) →
    (after step s0 (envs ++ [env])).isOk = true → (step { sB with world := sB.world.run env }).isOk = true := by
  intro envs
  induction envs with
  | nil =>
    intro s0 sB os h1 h2
    simp only [after, Outcome.ok.injEq, Prod.mk.injEq] at h1
    obtain ⟨rfl, rfl⟩ := h1
    simp only [List.nil_append, after] at h2
    cases hx : step { s0 with world := s0.world.run env } with
    | ok x => rfl
    | throw w => rw [hx] at h2; cases h2
    | ub => rw [hx] at h2; cases h2
  | cons en envs ih =>
    intro s0 sB os h1 h2
    unfold after at h1
    rw [List.cons_append] at h2
    unfold after at h2
    cases h3 : step { s0 with world := s0.world.run en } with
    | throw w => rw [h3] at h1; cases h1
    | ub => rw [h3] at h1; cases h1
    | ok x =>
      rw [h3] at h1 h2
      simp only at h1 h2
      cases h4 : after step x.1 envs with
      | throw w => rw [h4] at h1; cases h1
      | ub => rw [h4] at h1; cases h1
      | ok y =>
        rw [h4] at h1
        simp only [Outcome.ok.injEq, Prod.mk.injEq] at h1
        obtain ⟨rfl, rfl⟩ := h1
        apply ih h4
        cases h5 : after step x.1 (envs ++ [env]) with
        | ok z => rfl
        | throw w => rw [h5] at h2; cases h2
        | ub => rw [h5] at h2; cases h2

omit [Field F] [LinearOrder F] in
private theorem multi_more {P J : Type} {m : Learn.Machine P J F} {th : Learn.Threads P J F} (env : Sys.Env F × Learn.Sched) :
    ∀ (envs : List (Sys.Env F × Learn.Sched)) {s0 sB : Learn.State P J F} {os : List (Sys.StepOut F)},
    Learn.runMulti m th s0 envs = some (.ok (sB, os)) →
    Learn.runMulti m th s0 (envs ++ [env]) = (Learn.stepMulti m th { sB with world := sB.world.run env.1 } env.2).map
      (fun r => match r with | .ok (s1, o) => .ok (s1, os ++ [o]) | .throw w => .throw w | .ub => .ub) := by
  intro envs
  induction envs with
  | nil =>
    intro s0 sB os h1
    simp only [Learn.runMulti, Option.some.injEq, Outcome.ok.injEq, Prod.mk.injEq] at h1
    obtain ⟨rfl, rfl⟩ := h1
    simp only [List.nil_append, Learn.runMulti]
    rcases Learn.stepMulti m th { s0 with world := s0.world.run env.1 } env.2 with _ | (x | w | _) <;> rfl
  | cons en envs ih =>
    intro s0 sB os h1
    unfold Learn.runMulti at h1
    rw [List.cons_append]
    conv => lhs; unfold Learn.runMulti
    rcases h3 : Learn.stepMulti m th { s0 with world := s0.world.run en.1 } en.2 with _ | (x | w | _)
    all_goals rw [h3] at h1
    · cases h1
    · simp only at h1 ⊢
      rcases h4 : Learn.runMulti m th x.1 envs with _ | (y | w | _)
      all_goals rw [h4] at h1
      · cases h1
      · simp only [Option.some.injEq, Outcome.ok.injEq, Prod.mk.injEq] at h1
        obtain ⟨rfl, rfl⟩ := h1
        rw [ih h4]
        rcases Learn.stepMulti m th { y.1 with world := y.1.world.run env.1 } env.2 with _ | (x | w | _) <;> rfl
      · cases h1
      · cases h1
    · cases h1
    · cases h1

/-- The calls a program can make: it reads channels that exist, with a window that is not empty and small enough to be stored. -/
def CanRead (L : Layout) : Act σ → Prop
  | .iterate _ => True
  | .halt _ => True
  | .read n start final maxSize =>
    n < L.outputs.length ∧ start ≤ final ∧ start + final + 1 ≤ maxSize ∧ start + final + 1 < two64

variable {o : Ops F} {L : Layout} {c : Code σ F} {pops : List (Learn.Pop N B F)} {projs : List (Learn.Proj F)}
  {inputs : List (UID × UID)} {u0 : σ}

private theorem inv_of {be : Prog.Backend F} {acts : List (Act σ)} {s : Prog.State σ (Learn.Pop N B F) (Learn.Proj F) F}
    {tr : List (Item F)} (h : ProgRun be o L c pops projs inputs u0 acts s tr) :
    ∃ envs sB env pending e0, Inv (be.step o) (Learn.machine o) (hearingOfWires (projs.map (Learn.machine (N := N) (B := B) o).wire)
      (inputs ++ L.handlerInputs)) L (Learn.boot (Learn.machine o) pops projs (inputs ++ L.handlerInputs) L.chans) s tr envs sB env
      pending e0 := by
  obtain ⟨e0, hb⟩ := Prog.boot_inv (be.step o) (m := Learn.machine o) L pops projs inputs u0 h.popUids h.projUids
  have hs : ∀ H, Serves (be.step o) (Learn.machine (N := N) (B := B) o) H L.chans := by
    intro H
    cases be with
    | single => exact serves_single (Learn.machine_keeps o) H L.chans
    | multi config sched => exact serves_threads (Learn.threads_keep o config) sched H L.chans
  have := Prog.run_spec (hs _) c acts hb h.run
  simpa using this.2

/-- What the backend is asked next after a run of a program: the calls of all iterations, and the calls before the next step. -/
private theorem next_calls {be : Prog.Backend F} {acts : List (Act σ)} {s : Prog.State σ (Learn.Pop N B F) (Learn.Proj F) F}
    {tr : List (Item F)} (h : ProgRun be o L c pops projs inputs u0 acts s tr) :
    ∃ (envs : List (List (Op F))) (env : List (Op F)) (sB : Learn.State (Learn.Pop N B F) (Learn.Proj F) F) (os : List (Sys.StepOut F)),
      after (be.step o) (Learn.boot (Learn.machine o) pops projs (inputs ++ L.handlerInputs) L.chans) envs = .ok (sB, os) ∧
      (preStep L c s).1.core = { sB with world := sB.world.run env } ∧ sB.step = s.core.step ∧ sB.step = envs.length ∧
      (∀ en ∈ envs ++ [env], ∀ op ∈ en, Foreign L.chans op) ∧ (∀ en ∈ envs ++ [env], Sys.impactsIn (extOf L.chans en) = []) := by
  obtain ⟨envs, sB, env, pending, e0, hi⟩ := inv_of h
  obtain ⟨u', fed, ops, f1, f2, f3, f4⟩ := preStep_spec hi c
  have hsb : sB.step = (iters tr).length := by
    have := hi.time; rw [hi.core] at this; exact this
  have hlen : envs.length = (iters tr).length := by
    have h1 := congrArg List.length hi.exts
    rw [List.length_map, List.length_map] at h1
    rw [h1]
    unfold externals
    have : ∀ (b a : List (Item F)), (externalsFrom L a b).length = (iters b).length := by
      intro b
      induction b with
      | nil => intro a; rfl
      | cons it b ih => intro a; cases it <;> simp [externalsFrom, iters, ih]
    exact this tr []
  have hlc : (List.zipWith (· ++ ·) (waiting L tr).channels (fedBy L s.core.step fed)).length = L.inputs.length := by
    rw [zipWith_length _ _ _ (by rw [hi.lenC]; unfold fedBy; rw [zipWith_length _ _ _ f2]), hi.lenC]
  have hext := ext_of_eps hi.between f3 f4 (epsOf_length L ⟨List.zipWith (· ++ ·) (waiting L tr).channels (fedBy L s.core.step fed), (waiting L tr).handlers⟩ hlc hi.lenH)
  rw [epsOf_out L ⟨List.zipWith (· ++ ·) (waiting L tr).channels (fedBy L s.core.step fed), (waiting L tr).handlers⟩ hi.lenH] at hext
  refine ⟨envs, env ++ ops, sB, _, hi.past, by rw [f1], by rw [hi.core], by rw [hsb, hlen], ?_, ?_⟩
  · intro en hen
    rcases List.mem_append.1 hen with he | he
    · exact hi.foreigns en he
    · simp only [List.mem_cons, List.not_mem_nil, or_false] at he
      subst he; exact f3
  · intro en hen
    rcases List.mem_append.1 hen with he | he
    · have : extOf L.chans en ∈ envs.map (extOf L.chans) := List.mem_map.2 ⟨en, he, rfl⟩
      rw [hi.exts] at this
      obtain ⟨l, _, hl⟩ := List.mem_map.1 this
      rw [← hl, Sys.impactsIn_spikes]
    · simp only [List.mem_cons, List.not_mem_nil, or_false] at he
      subst he
      rw [hext, Sys.impactsIn_spikes]

omit [Field F] [LinearOrder F] in
private theorem run_snoc {P J : Type} {step : Stepper P J F} (a : Act σ) : ∀ (acts : List (Act σ)) (s : Prog.State σ P J F),
    Prog.run step L c s (acts ++ [a]) = match Prog.run step L c s acts with
      | .ok (s1, is) => (match Prog.act step L c s1 a with | .ok (s2, i) => .ok (s2, is ++ [i]) | .throw w => .throw w | .ub => .ub)
      | .throw w => .throw w
      | .ub => .ub := by
  intro acts
  induction acts with
  | nil =>
    intro s
    simp only [List.nil_append, Prog.run]
    cases Prog.act step L c s a <;> rfl
  | cons x acts ih =>
    intro s
    rw [List.cons_append]
    unfold Prog.run
    cases Prog.act step L c s x with
    | throw w => rfl
    | ub => rfl
    | ok y =>
      simp only [ih]
      cases Prog.run step L c y.1 acts with
      | throw w => rfl
      | ub => rfl
      | ok z =>
        simp only
        cases Prog.act step L c z.1 a <;> rfl

/-- An action after a run fails only if the backend's step does. -/
private theorem act_total {be : Prog.Backend F} {acts : List (Act σ)} {s : Prog.State σ (Learn.Pop N B F) (Learn.Proj F) F}
    {tr : List (Item F)} (h : ProgRun be o L c pops projs inputs u0 acts s tr) (a : Act σ) (ha : CanRead L a) :
    (∃ x, Prog.act (be.step o) L c s a = .ok x) ∨ ∃ p, a = .iterate p ∧
      ((∃ w, be.step o (preStep L c s).1.core = .throw w ∧ Prog.act (be.step o) L c s a = .throw w) ∨
        be.step o (preStep L c s).1.core = .ub ∧ Prog.act (be.step o) L c s a = .ub) := by
  cases a with
  | halt p => exact .inl ⟨_, rfl⟩
  | read n x y mx =>
    obtain ⟨h1, h2, h3, h4⟩ := ha
    obtain ⟨s', h5⟩ := C116_read_succeeds h n _ (List.getElem?_eq_getElem h1) x y mx h2 h3 h4
    exact .inl ⟨_, h5⟩
  | iterate p =>
    cases hb : be.step o (preStep L c s).1.core with
    | ok x =>
      refine .inl ?_
      simp only [Prog.act, Prog.iterate, hb]
      exact ⟨_, rfl⟩
    | throw w =>
      refine .inr ⟨p, rfl, .inl ⟨w, rfl, ?_⟩⟩
      simp only [Prog.act, Prog.iterate, hb]
    | ub =>
      refine .inr ⟨p, rfl, .inr ⟨rfl, ?_⟩⟩
      simp only [Prog.act, Prog.iterate, hb]

/-- No run of the network fails, whatever its inputs and the calls of the rest of the program that send no impacts. -/
def RunsOk (o : Ops F) (pops : List (Learn.Pop N B F)) (projs : List (Learn.Proj F)) : Prop :=
  ∀ (inputs : List (UID × UID)) (chans : Nat) (envs : List (Sys.Env F)), (∀ env ∈ envs, ∀ op ∈ env, Foreign chans op) →
    (∀ env ∈ envs, Sys.impactsIn (extOf chans env) = []) →
    ∃ s os, Learn.runSingle (Learn.machine o) (Learn.boot (Learn.machine o) pops projs inputs chans) envs = .ok (s, os)

private theorem single_step (hv : RunsOk o pops projs) {acts : List (Act σ)}
    {s : Prog.State σ (Learn.Pop N B F) (Learn.Proj F) F} {tr : List (Item F)} (h : ProgRun .single o L c pops projs inputs u0 acts s tr) :
    ((Prog.Backend.single : Prog.Backend F).step (N := N) (B := B) o (preStep L c s).1.core).isOk = true := by
  obtain ⟨envs, env, sB, os, h1, h2, h3, h4, h5, h6⟩ := next_calls h
  rw [h2]
  refine after_more env envs h1 ?_
  obtain ⟨s', os', h7⟩ := hv (inputs ++ L.handlerInputs) L.chans (envs ++ [env]) h5 h6
  have : (Prog.Backend.single : Prog.Backend F).step (N := N) (B := B) o = Learn.stepSingle (Learn.machine o) := rfl
  rw [this, after_single, h7]
  rfl

/-- If no run of the network fails, no program on it does. -/
theorem program_ok (o : Ops F) (L : Layout) (c : Code σ F) (hv : RunsOk o pops projs) (hu : (pops.map Learn.Pop.uid).Nodup)
    (hj : (projs.map (fun j => j.ident.uid)).Nodup) (hq : ∀ j ∈ projs, j.queue = []) (inputs : List (UID × UID))
    (u0 : σ) (acts : List (Act σ)) (ha : ∀ a ∈ acts, CanRead L a) :
    ∃ s tr, Prog.run ((Prog.Backend.single : Prog.Backend F).step o) L c (Prog.boot (Learn.machine o) L pops projs inputs u0) acts =
      .ok (s, tr) := by
  induction acts using List.reverseRecOn with
  | nil => exact ⟨_, _, rfl⟩
  | append_singleton acts a ih =>
    obtain ⟨s, tr, h1⟩ := ih (fun x hx => ha x (by simp [hx]))
    have h : ProgRun .single o L c pops projs inputs u0 acts s tr := ⟨hu, hj, hq, h1⟩
    rw [run_snoc, h1]
    simp only
    have hs := single_step hv h
    rcases act_total h a (ha a (by simp)) with ⟨x, hx⟩ | ⟨p, _, ⟨w, hw, _⟩ | ⟨hw, _⟩⟩
    · rw [hx]; exact ⟨_, _, rfl⟩
    · rw [hw] at hs; cases hs
    · rw [hw] at hs; cases hs

/-- C162 for programs on the single-threaded backend: with a valid network, whatever the generators, handlers and observers do, every
sequence of iterations, stops and reads ends normally. -/
theorem C162_program (o : Ops F) (L : Layout) (c : Code σ F) (hv : ValidNet (fun w v => v = w) pops projs) (inputs : List (UID × UID))
    (u0 : σ) (acts : List (Act σ)) (ha : ∀ a ∈ acts, CanRead L a) :
    ∃ s tr, Prog.run ((Prog.Backend.single : Prog.Backend F).step o) L c (Prog.boot (Learn.machine o) L pops projs inputs u0) acts =
      .ok (s, tr) :=
  program_ok o L c (fun inputs chans envs hf hs => run_ok o hv inputs chans envs hf hs) hv.popUids hv.projUids hv.queues inputs u0 acts ha

private theorem boot_step (o : Ops F) (inputs : List (UID × UID)) (chans : Nat) :
    (Learn.boot (Learn.machine (N := N) (B := B) o) pops projs inputs chans).step = 0 := rfl

/-- No run of the network on several threads fails. -/
def RunsOkM (o : Ops F) (config : Sys.Config F) (pops : List (Learn.Pop N B F)) (projs : List (Learn.Proj F)) : Prop :=
  ∀ (inputs : List (UID × UID)) (chans : Nat) (envs : List (Sys.Env F × Learn.Sched)), (∀ env ∈ envs, ∀ op ∈ env.1, Foreign chans op) →
    (∀ env ∈ envs, Sys.impactsIn (extOf chans env.1) = []) → ∀ {r},
    Learn.runMulti (Learn.machine o) (Learn.threads o config) (Learn.boot (Learn.machine o) pops projs inputs chans) envs = some r → r.isOk = true

private theorem multi_never {config : Sys.Config F} (hv : RunsOkM o config pops projs) {sched : Nat → Learn.Sched} {acts : List (Act σ)}
    {s : Prog.State σ (Learn.Pop N B F) (Learn.Proj F) F} {tr : List (Item F)}
    (h : ProgRun (.multi config sched) o L c pops projs inputs u0 acts s tr) :
    ∀ sc r, Learn.stepMulti (Learn.machine o) (Learn.threads o config) (preStep L c s).1.core sc = some r → r.isOk = true := by
  obtain ⟨envs, env, sB, os, h1, h2, h3, h4, h5, h6⟩ := next_calls h
  have hb : (Prog.Backend.multi config sched).step (N := N) (B := B) o =
      stepThreads (Learn.machine o) (Learn.threads o config) sched := rfl
  rw [hb] at h1
  have h7 := after_threads envs h1
  rw [boot_step] at h7
  rw [h2]
  have hfs : ∀ e ∈ scheduled sched 0 envs, e.1 ∈ envs := by
    intro e he
    rw [← scheduled_fst sched envs 0]
    exact List.mem_map.2 ⟨e, he, rfl⟩
  intro sc r hr
  have h8 := multi_more (env, sc) _ h7
  simp only [hr, Option.map_some] at h8
  have h9 := hv (inputs ++ L.handlerInputs) L.chans (scheduled sched 0 envs ++ [(env, sc)]) (by
    intro e he
    rcases List.mem_append.1 he with he | he
    · exact h5 e.1 (List.mem_append.2 (.inl (hfs e he)))
    · simp only [List.mem_cons, List.not_mem_nil, or_false] at he
      subst he; exact h5 env (by simp)) (by
    intro e he
    rcases List.mem_append.1 he with he | he
    · exact h6 e.1 (List.mem_append.2 (.inl (hfs e he)))
    · simp only [List.mem_cons, List.not_mem_nil, or_false] at he
      subst he; exact h6 env (by simp)) h8
  cases r with
  | ok x => rfl
  | throw w => cases h9
  | ub => cases h9
/-- After any run of the network on several threads there is a schedule of the next step. -/
def GoesOnM (o : Ops F) (config : Sys.Config F) (pops : List (Learn.Pop N B F)) (projs : List (Learn.Proj F)) : Prop :=
  ∀ (inputs : List (UID × UID)) (chans : Nat) (envs : List (Sys.Env F × Learn.Sched)), (∀ env ∈ envs, ∀ op ∈ env.1, Foreign chans op) →
    (∀ env ∈ envs, Sys.impactsIn (extOf chans env.1) = []) → ∀ {r},
    Learn.runMulti (Learn.machine o) (Learn.threads o config) (Learn.boot (Learn.machine o) pops projs inputs chans) envs = some r →
    ∀ (next : Sys.Env F), (∀ op ∈ next, Foreign chans op) → Sys.impactsIn (extOf chans next) = [] →
    ∃ sc r', Learn.runMulti (Learn.machine o) (Learn.threads o config) (Learn.boot (Learn.machine o) pops projs inputs chans)
      (envs ++ [(next, sc)]) = some (.ok r')

private theorem multi_goes {config : Sys.Config F} (hv : GoesOnM o config pops projs) {sched : Nat → Learn.Sched} {acts : List (Act σ)}
    {s : Prog.State σ (Learn.Pop N B F) (Learn.Proj F) F} {tr : List (Item F)}
    (h : ProgRun (.multi config sched) o L c pops projs inputs u0 acts s tr) :
    ∃ sc x, Learn.stepMulti (Learn.machine o) (Learn.threads o config) (preStep L c s).1.core sc = some (.ok x) := by
  obtain ⟨envs, env, sB, os, h1, h2, h3, h4, h5, h6⟩ := next_calls h
  have hb : (Prog.Backend.multi config sched).step (N := N) (B := B) o =
      stepThreads (Learn.machine o) (Learn.threads o config) sched := rfl
  rw [hb] at h1
  have h7 := after_threads envs h1
  rw [boot_step] at h7
  rw [h2]
  have hfs : ∀ e ∈ scheduled sched 0 envs, e.1 ∈ envs := by
    intro e he
    rw [← scheduled_fst sched envs 0]
    exact List.mem_map.2 ⟨e, he, rfl⟩
  obtain ⟨sc, r', h8⟩ := hv (inputs ++ L.handlerInputs) L.chans (scheduled sched 0 envs)
    (fun e he => h5 e.1 (List.mem_append.2 (.inl (hfs e he)))) (fun e he => h6 e.1 (List.mem_append.2 (.inl (hfs e he)))) h7
    env (h5 env (by simp)) (h6 env (by simp))
  have h9 := multi_more (env, sc) _ h7
  rw [h8] at h9
  refine ⟨sc, ?_⟩
  rcases hm : Learn.stepMulti (Learn.machine o) (Learn.threads o config) { sB with world := sB.world.run env } sc with _ | (x | w | _)
  all_goals simp only [hm] at h9
  · cases h9
  · exact ⟨x, rfl⟩
  · cases h9
  · cases h9

/-- If no run of the network on several threads fails, no program on it does. -/
theorem program_threads_ok (o : Ops F) (L : Layout) (c : Code σ F) {config : Sys.Config F}
    (hv : RunsOkM o config pops projs) (hu : (pops.map Learn.Pop.uid).Nodup)
    (hj : (projs.map (fun j => j.ident.uid)).Nodup) (hq : ∀ j ∈ projs, j.queue = [])
    (sched : Nat → Learn.Sched) (inputs : List (UID × UID)) (u0 : σ) (acts : List (Act σ)) (ha : ∀ a ∈ acts, CanRead L a) :
    (∃ s tr, Prog.run ((Prog.Backend.multi config sched).step o) L c (Prog.boot (Learn.machine o) L pops projs inputs u0) acts =
      .ok (s, tr)) ∨
    Prog.run ((Prog.Backend.multi config sched).step o) L c (Prog.boot (Learn.machine o) L pops projs inputs u0) acts =
      .throw "not a schedule" := by
  induction acts using List.reverseRecOn with
  | nil => exact .inl ⟨_, _, rfl⟩
  | append_singleton acts a ih =>
    rw [run_snoc]
    rcases ih (fun x hx => ha x (by simp [hx])) with ⟨s, tr, h1⟩ | h1
    · have h : ProgRun (.multi config sched) o L c pops projs inputs u0 acts s tr := ⟨hu, hj, hq, h1⟩
      rw [h1]
      simp only
      have hs := multi_never hv h (sched (preStep L c s).1.core.step)
      have hb : (Prog.Backend.multi config sched).step (N := N) (B := B) o (preStep L c s).1.core =
        match Learn.stepMulti (Learn.machine o) (Learn.threads o config) (preStep L c s).1.core (sched (preStep L c s).1.core.step) with
        | none => .throw "not a schedule"
        | some r => r := by
          show stepThreads _ _ _ _ = _
          unfold stepThreads
          cases Learn.stepMulti (Learn.machine o) (Learn.threads o config) (preStep L c s).1.core (sched (preStep L c s).1.core.step) <;> rfl
      rcases act_total h a (ha a (by simp)) with ⟨x, hx⟩ | ⟨p, _, ⟨w, hw, hw'⟩ | ⟨hw, hw'⟩⟩
      · rw [hx]; exact .inl ⟨_, _, rfl⟩
      · rw [hw'] 
        rw [hw] at hb
        cases hm : Learn.stepMulti (Learn.machine o) (Learn.threads o config) (preStep L c s).1.core (sched (preStep L c s).1.core.step) with
        | none => rw [hm] at hb; simp only [Outcome.throw.injEq] at hb; rw [hb]; exact .inr rfl
        | some r =>
          have := hs r hm
          rw [hm] at hb; simp only at hb
          rw [← hb] at this; cases this
      · rw [hw] at hb
        cases hm : Learn.stepMulti (Learn.machine o) (Learn.threads o config) (preStep L c s).1.core (sched (preStep L c s).1.core.step) with
        | none => rw [hm] at hb; cases hb
        | some r =>
          have := hs r hm
          rw [hm] at hb; simp only at hb
          rw [← hb] at this; cases this
    · rw [h1]; exact .inr rfl

/-- C162 for programs on the multi-threaded backend: whatever the threads do, nothing fails.  `"not a schedule"` is how the model says
that the given orders are none the threads can take. -/
theorem C162_program_threads (o : Ops F) (L : Layout) (c : Code σ F) {config : Sys.Config F}
    (hc : 1 ≤ config.popPart ∧ config.popPart < two64) (hv : ValidNet (fun w v => ∃ n, v = config.scale w n) pops projs)
    (sched : Nat → Learn.Sched) (inputs : List (UID × UID)) (u0 : σ) (acts : List (Act σ)) (ha : ∀ a ∈ acts, CanRead L a) :
    (∃ s tr, Prog.run ((Prog.Backend.multi config sched).step o) L c (Prog.boot (Learn.machine o) L pops projs inputs u0) acts =
      .ok (s, tr)) ∨
    Prog.run ((Prog.Backend.multi config sched).step o) L c (Prog.boot (Learn.machine o) L pops projs inputs u0) acts =
      .throw "not a schedule" :=
  program_threads_ok o L c (fun inputs chans envs hf hs _ hr => runM_ok o config hc hv inputs chans envs hf hs hr) hv.popUids hv.projUids hv.queues sched inputs u0 acts ha

omit [Field F] [LinearOrder F] in
/-- Only the schedules of the steps that were made matter. -/
private theorem run_congr {P J : Type} {m : Learn.Machine P J F} {th : Learn.Threads P J F} {sched sched' : Nat → Learn.Sched} :
    ∀ (acts : List (Act σ)) {s s' : Prog.State σ P J F} {tr : List (Item F)},
    Prog.run (stepThreads m th sched) L c s acts = .ok (s', tr) →
    s.core.step ≤ s'.core.step ∧ ((∀ t, t < s'.core.step → sched' t = sched t) → Prog.run (stepThreads m th sched') L c s acts = .ok (s', tr)) := by
  intro acts
  induction acts with
  | nil =>
    intro s s' tr h
    simp only [Prog.run, Outcome.ok.injEq, Prod.mk.injEq] at h
    obtain ⟨rfl, rfl⟩ := h
    exact ⟨Nat.le_refl _, fun _ => rfl⟩
  | cons a acts ih =>
    intro s s' tr h
    unfold Prog.run at h
    cases h1 : Prog.act (stepThreads m th sched) L c s a with
    | throw w => rw [h1] at h; cases h
    | ub => rw [h1] at h; cases h
    | ok y =>
      obtain ⟨s1, it⟩ := y
      rw [h1] at h
      simp only at h
      cases h2 : Prog.run (stepThreads m th sched) L c s1 acts with
      | throw w => rw [h2] at h; cases h
      | ub => rw [h2] at h; cases h
      | ok z =>
        obtain ⟨s2, is⟩ := z
        rw [h2] at h
        simp only [Outcome.ok.injEq, Prod.mk.injEq] at h
        obtain ⟨rfl, rfl⟩ := h
        obtain ⟨i1, i2⟩ := ih h2
        have key : s.core.step ≤ s1.core.step ∧ ((∀ t, t < s1.core.step → sched' t = sched t) →
            Prog.act (stepThreads m th sched') L c s a = .ok (s1, it)) := by
          cases a with
          | halt p =>
            simp only [Prog.act, Outcome.ok.injEq, Prod.mk.injEq] at h1 ⊢
            obtain ⟨rfl, rfl⟩ := h1
            exact ⟨Nat.le_refl _, fun _ => ⟨rfl, rfl⟩⟩
          | read n x y mx =>
            refine ⟨?_, fun _ => h1⟩
            simp only [Prog.act] at h1
            cases h3 : s.outs[n]? with
            | none => rw [h3] at h1; cases h1
            | some ch =>
              rw [h3] at h1
              simp only at h1
              cases h4 : ch.readSome mx x y with
              | throw w => rw [h4] at h1; cases h1
              | ub => rw [h4] at h1; cases h1
              | ok z =>
                rw [h4] at h1
                simp only [Outcome.ok.injEq, Prod.mk.injEq] at h1
                obtain ⟨rfl, _⟩ := h1
                exact Nat.le_refl _
          | iterate p =>
            simp only [Prog.act, Prog.iterate] at h1 ⊢
            cases h3 : stepThreads m th sched (preStep L c s).1.core with
            | throw w => rw [h3] at h1; cases h1
            | ub => rw [h3] at h1; cases h1
            | ok x =>
              obtain ⟨sx, ox⟩ := x
              have h4 := stepMulti_step (stepThreads_ok h3)
              have h5 : (preStep L c s).1.core.step = s.core.step := rfl
              rw [h3] at h1
              simp only [Outcome.ok.injEq, Prod.mk.injEq] at h1
              have h6 : s1.core.step = sx.step := by rw [← h1.1]; rfl
              refine ⟨by rw [h6, h4, h5]; omega, fun hagree => ?_⟩
              have h7 : stepThreads m th sched' (preStep L c s).1.core = .ok (sx, ox) := by
                unfold stepThreads
                rw [hagree _ (by rw [h6, h4]; omega)]
                exact h3
              rw [h7]
              simp only [Outcome.ok.injEq, Prod.mk.injEq]
              exact h1
        refine ⟨Nat.le_trans key.1 i1, fun hag => ?_⟩
        unfold Prog.run
        rw [key.2 (fun t ht => hag t (Nat.lt_of_lt_of_le ht i1))]
        simp only
        rw [i2 hag]

/-- If runs on several threads always go on, programs can be run to the end. -/
theorem program_progress_ok (o : Ops F) (L : Layout) (c : Code σ F) {config : Sys.Config F}
    (hv : GoesOnM o config pops projs) (hu : (pops.map Learn.Pop.uid).Nodup)
    (hj : (projs.map (fun j => j.ident.uid)).Nodup) (hq : ∀ j ∈ projs, j.queue = [])
    (inputs : List (UID × UID)) (u0 : σ) (acts : List (Act σ)) (ha : ∀ a ∈ acts, CanRead L a) :
    ∃ sched s tr, Prog.run ((Prog.Backend.multi config sched).step o) L c (Prog.boot (Learn.machine o) L pops projs inputs u0) acts =
      .ok (s, tr) := by
  induction acts using List.reverseRecOn with
  | nil => exact ⟨fun _ => ⟨[], [], []⟩, _, _, rfl⟩
  | append_singleton acts a ih =>
    obtain ⟨sched, s, tr, h1⟩ := ih (fun x hx => ha x (by simp [hx]))
    have h : ProgRun (.multi config sched) o L c pops projs inputs u0 acts s tr := ⟨hu, hj, hq, h1⟩
    obtain ⟨sc, x, hx⟩ := multi_goes hv h
    have h2 := (run_congr (sched' := fun t => if t = s.core.step then sc else sched t) acts h1).2 (fun t ht => by
      rw [if_neg (Nat.ne_of_lt ht)])
    have h' : ProgRun (.multi config (fun t => if t = s.core.step then sc else sched t)) o L c pops projs inputs u0 acts s tr :=
      ⟨hu, hj, hq, h2⟩
    refine ⟨fun t => if t = s.core.step then sc else sched t, ?_⟩
    rw [run_snoc]
    have h3 : Prog.run ((Prog.Backend.multi config (fun t => if t = s.core.step then sc else sched t)).step o) L c
      (Prog.boot (Learn.machine o) L pops projs inputs u0) acts = .ok (s, tr) := h2
    rw [h3]
    simp only
    have hb : (Prog.Backend.multi config (fun t => if t = s.core.step then sc else sched t)).step (N := N) (B := B) o
        (preStep L c s).1.core = .ok x := by
      show stepThreads (Learn.machine o) (Learn.threads o config) (fun t => if t = s.core.step then sc else sched t) (preStep L c s).1.core = _
      unfold stepThreads
      have : (preStep L c s).1.core.step = s.core.step := rfl
      simp only [this, if_pos, hx]
    rcases act_total h' a (ha a (by simp)) with ⟨y, hy⟩ | ⟨p, _, ⟨w, hw, _⟩ | ⟨hw, _⟩⟩
    · rw [hy]; exact ⟨_, _, rfl⟩
    · rw [hb] at hw; cases hw
    · rw [hb] at hw; cases hw

/-- C162: and it can always be run to the end. -/
theorem C162_program_progress (o : Ops F) (L : Layout) (c : Code σ F) {config : Sys.Config F}
    (hc : 1 ≤ config.popPart ∧ config.popPart < two64) (hv : ValidNet (fun w v => ∃ n, v = config.scale w n) pops projs)
    (hk : ∀ j ∈ projs, ∀ a b d e, j.syns ≠ .additive a b d e)
    (inputs : List (UID × UID)) (u0 : σ) (acts : List (Act σ)) (ha : ∀ a ∈ acts, CanRead L a) :
    ∃ sched s tr, Prog.run ((Prog.Backend.multi config sched).step o) L c (Prog.boot (Learn.machine o) L pops projs inputs u0) acts =
      .ok (s, tr) := by
  have hk' : ∀ j ∈ projs, Learn.kindOf j.syns ≠ 2 := by
    intro j hj
    have := hk j hj
    cases hsy : j.syns with
    | delta p => simp [Learn.kindOf]
    | resource a b d e => simp [Learn.kindOf]
    | additive a b d e => exact absurd hsy (this a b d e)
  exact program_progress_ok o L c (fun inputs chans envs hf hs _ hr next hn hm => runM_more o config hc hv hk' inputs chans envs hf hs hr next hn hm)
    hv.popUids hv.projUids hv.queues inputs u0 acts ha

end

/-! ## Examples -/

namespace ValidEx
open LearnEx

/-- The learning network of `LearnEx` - a LIF and a BLIFAT population, and every kind of projection - is valid. -/
theorem valid : ValidNet (fun w v => v = w) LearnEx.pops LearnEx.projs where
  popUids := by decide
  projUids := by decide
  queues := by intro j hj; simp only [LearnEx.projs, List.mem_cons, List.not_mem_nil, or_false] at hj; rcases hj with rfl | rfl | rfl | rfl <;> rfl
  sizes := by intro p hp; simp only [LearnEx.pops, List.mem_cons, List.not_mem_nil, or_false] at hp; rcases hp with rfl | rfl <;> simp [popSize]
  targets := by
    intro j hj p hp hu s hs
    simp only [LearnEx.projs, LearnEx.pops, List.mem_cons, List.not_mem_nil, or_false] at hj hp
    rcases hj with rfl | rfl | rfl | rfl <;> rcases hp with rfl | rfl <;> simp [Learn.Pop.uid] at hu <;>
      simp [wired, LearnEx.syns, LearnEx.syns] at hs <;> (rcases hs with rfl | rfl <;> simp [popSize])
  types := by
    intro j hj p hp hu s hs v _
    simp only [LearnEx.projs, LearnEx.pops, List.mem_cons, List.not_mem_nil, or_false] at hj hp
    rcases hj with rfl | rfl | rfl | rfl <;> rcases hp with rfl | rfl <;> simp [Learn.Pop.uid] at hu <;>
      simp [wired, LearnEx.syns] at hs
    all_goals first
      | (rcases hs with rfl | rfl <;> exact ((@C162_resource ℚ arith _ _).1.2 ((@C162_blifat ℚ arith _ _).2 (by simp))))
      | (subst hs; exact (@C162_lif ℚ arith _ _).2 (.inl rfl))

/-- ... so it runs for any number of steps, whatever its input. -/
example (n : Nat) (f : Nat → List Nat) : ∃ s os, Learn.runSingle (Learn.machine StdpEx.o)
    (Learn.boot (Learn.machine StdpEx.o) LearnEx.pops LearnEx.projs [(10, 50)] 1)
    ((List.range n).map (fun t => [.send 1 (.spike ⟨⟨50, t⟩, f t⟩)])) = .ok (s, os) :=
  C162_valid_runs StdpEx.o valid [(10, 50)] 1 _
    (by intro env he op hop; obtain ⟨t, _, rfl⟩ := List.mem_map.1 he
        simp only [List.mem_cons, List.not_mem_nil, or_false] at hop; subst hop; exact ⟨Nat.le_refl _, Nat.le_refl _⟩)
    (by intro env he e m hm; obtain ⟨t, _, rfl⟩ := List.mem_map.1 he; simp at hm)

/-- The actions of `ProgEx` are such calls. -/
example : ∀ a ∈ ProgEx.acts, CanRead ProgEx.L a := by
  intro a ha
  simp only [ProgEx.acts, List.mem_cons, List.not_mem_nil, or_false] at ha
  rcases ha with rfl | rfl | rfl | rfl | rfl | rfl | rfl | rfl | rfl <;> trivial

/-- The network of `LearnMultiEx` is valid for the multi-threaded backend. -/
theorem validM : ValidNet (fun w v => ∃ n, v = LearnMultiEx.config.scale w n) LearnMultiEx.pops LearnMultiEx.projs where
  popUids := by decide
  projUids := by decide
  queues := by
    intro j hj; simp only [LearnMultiEx.projs, List.mem_cons, List.not_mem_nil, or_false] at hj; rcases hj with rfl | rfl | rfl | rfl <;> rfl
  sizes := by
    intro p hp; simp only [LearnMultiEx.pops, List.mem_cons, List.not_mem_nil, or_false] at hp; rcases hp with rfl | rfl | rfl <;> simp [popSize]
  targets := by
    intro j hj p hp hu s hs
    simp only [LearnMultiEx.projs, LearnMultiEx.pops, List.mem_cons, List.not_mem_nil, or_false] at hj hp
    rcases hj with rfl | rfl | rfl | rfl <;> rcases hp with rfl | rfl | rfl <;> simp [Learn.Pop.uid] at hu <;>
      simp [wired, LearnEx.syns, LearnMultiEx.syns2] at hs <;> rcases hs with rfl | rfl <;> simp [popSize]
  types := by
    intro j hj p hp hu s hs v _
    simp only [LearnMultiEx.projs, LearnMultiEx.pops, List.mem_cons, List.not_mem_nil, or_false] at hj hp
    rcases hj with rfl | rfl | rfl | rfl <;> rcases hp with rfl | rfl | rfl <;> simp [Learn.Pop.uid] at hu <;>
      simp [wired, LearnEx.syns, LearnMultiEx.syns2] at hs
    all_goals first
      | (rcases hs with rfl | rfl <;> exact ((@C162_resource ℚ arith _ _).1.2 ((@C162_blifat ℚ arith _ _).2 (by simp))))
      | (rcases hs with rfl | rfl <;> exact (@C162_lif ℚ arith _ _).2 (.inl rfl))

example : 1 ≤ LearnMultiEx.config.popPart ∧ LearnMultiEx.config.popPart < two64 := by decide
example : ∀ j ∈ LearnMultiEx.projs, ∀ a b d e, j.syns ≠ .additive a b d e := by
  intro j hj a b d e
  simp only [LearnMultiEx.projs, List.mem_cons, List.not_mem_nil, or_false] at hj
  rcases hj with rfl | rfl | rfl | rfl <;> simp

/-- One projection into a population of one LIF neuron. -/
def one (target : Nat) (ty : OutputType) : List (Learn.Proj ℚ) :=
  [⟨⟨10, 0, 1, false⟩, true, .delta ⟨[⟨0, target, 3, 1, ty⟩], fun n => if n = 0 then [0] else []⟩, []⟩]
/-- Three steps; the channel sends before the first. -/
def runOne (target : Nat) (ty : OutputType) :=
  Learn.runSingle (Learn.machine StdpEx.o) (Learn.boot (Learn.machine StdpEx.o) (LearnEx.pops.take 1) (one target ty) [(10, 50)] 1)
    [[.send 1 (.spike ⟨⟨50, 0⟩, [0]⟩)], [], []]

/-- Both conditions are needed: a dopamine synapse into a LIF population throws, a target that does not exist is undefined behaviour. -/
theorem needed : (runOne 0 .excitatory).isOk = true ∧ (runOne 0 .dopamine).isThrow = true ∧
    (runOne 1 .excitatory).isOk = false ∧ (runOne 1 .excitatory).isThrow = false := by decide +kernel

end ValidEx

/-- C162: the conditions of a valid network that loading and `init` do not check are needed.  A network that is valid but for the
output type of one synapse throws in its second step, and one that is valid but for the target of one synapse has undefined behaviour. -/
theorem C162_conditions_needed :
    (∃ s, Learn.runSingle (Learn.machine StdpEx.o) (Learn.boot (Learn.machine StdpEx.o) (LearnEx.pops.take 1) (ValidEx.one 0 .dopamine)
      [(10, 50)] 1) [[.send 1 (.spike ⟨⟨50, 0⟩, [0]⟩)], [], []] = .throw s) ∧
    Learn.runSingle (Learn.machine StdpEx.o) (Learn.boot (Learn.machine StdpEx.o) (LearnEx.pops.take 1) (ValidEx.one 1 .excitatory)
      [(10, 50)] 1) [[.send 1 (.spike ⟨⟨50, 0⟩, [0]⟩)], [], []] = .ub := by
  obtain ⟨_, h2, h3, h4⟩ := ValidEx.needed
  unfold ValidEx.runOne at h2 h3 h4
  constructor
  · cases hx : Learn.runSingle (Learn.machine StdpEx.o) (Learn.boot (Learn.machine StdpEx.o) (LearnEx.pops.take 1) (ValidEx.one 0 .dopamine)
      [(10, 50)] 1) [[.send 1 (.spike ⟨⟨50, 0⟩, [0]⟩)], [], []] with
    | ok x => rw [hx] at h2; cases h2
    | throw w => exact ⟨w, rfl⟩
    | ub => rw [hx] at h2; cases h2
  · cases hx : Learn.runSingle (Learn.machine StdpEx.o) (Learn.boot (Learn.machine StdpEx.o) (LearnEx.pops.take 1) (ValidEx.one 1 .excitatory)
      [(10, 50)] 1) [[.send 1 (.spike ⟨⟨50, 0⟩, [0]⟩)], [], []] with
    | ok x => rw [hx] at h3; cases h3
    | throw w => rw [hx] at h4; cases h4
    | ub => rfl

end Knp.Props
