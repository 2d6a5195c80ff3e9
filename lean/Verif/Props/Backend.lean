import Verif.Model.Executor
import Mathlib.Data.List.Nodup

/-! # C26–C30: running a backend -/

namespace Knp.Props
open Knp Knp.Run
variable {E : Type}

/-! ## C27 -/

/-- The numbers of the steps computed in a trace. -/
def computed : List (Ev E) → List Nat
  | [] => []
  | .step n :: t => n :: computed t
  | _ :: t => computed t

@[simp] private theorem computed_append (a b : List (Ev E)) :
    computed (a ++ b) = computed a ++ computed b := by
  induction a with
  | nil => rfl
  | cons x a ih => cases x <;> simp [computed, ih]

@[simp] private theorem computed_cb (l : List E) : computed (l.map Ev.cb) = [] := by
  induction l with
  | nil => rfl
  | cons x a ih => simpa [computed] using ih

/-- Between the pre-step callback and the step the flag may have been cleared; the step is made all the
same.  Invariants must therefore not need `started` for the step. -/
private structure Inv' (Q : Backend E → Prop) : Prop where
  flag : ∀ b s, Q b → Q { b with started := s }
  init : ∀ b s, Q b → b.initialized = false →
    Q { b with initialized := true, trace := b.trace ++ [.init], started := s }
  step : ∀ b, Q b → Q { b with step := b.step + 1, trace := b.trace ++ [.step b.step] }
  cb : ∀ b (l : List E), Q b → Q { b with trace := b.trace ++ l.map .cb }

section inv'
variable {I : Impl E} {Q : Backend E → Prop} (H : Inv' Q)
include H

private theorem inv'_stop (b : Backend E) (h : Q b) : Q (stop b) := by
  unfold stop; split
  · exact h
  · exact H.flag b false h

private theorem inv'_stopIf (s : Bool) (b : Backend E) (h : Q b) : Q (stopIf s b) := by
  unfold stopIf; split
  · exact inv'_stop H b h
  · exact h

private theorem inv'_preStart (b : Backend E) (h : Q b) : Q (preStart I b).state := by
  unfold preStart
  split
  · exact h
  · split
    · rename_i hi
      split
      · exact H.init b true h (by simpa using hi)
      · exact h
    · exact H.flag b true h

private theorem inv'_doStep (b : Backend E) (h : Q b) : Q (doStep I b).state := by
  unfold doStep
  split
  · exact inv'_stopIf H _ _ (H.step b h)
  · exact h

private theorem inv'_callCb (c : Cb E) (b : Backend E) (h : Q b) : Q (callCb c b).1.state := by
  unfold callCb
  split
  · exact inv'_stopIf H _ _ (H.cb b _ h)
  · exact H.cb b _ h

private theorem inv'_fail (b : Backend E) (h : Q b) : Q (fail b).state := H.flag b false h

private theorem inv'_loop0 (fuel : Nat) (b : Backend E) (h : Q b) :
    ∀ r, loop0 I fuel b = some r → Q r.state := by
  induction fuel generalizing b with
  | zero => intro r hr; simp [loop0] at hr
  | succ n ih =>
    intro r hr
    unfold loop0 at hr
    split at hr
    · have hd := inv'_doStep H (I := I) b h
      split at hr
      · rename_i heq; rw [heq] at hd; exact ih _ hd r hr
      · rename_i heq; rw [heq] at hd
        cases hr; exact inv'_fail H _ hd
    · cases hr; exact h

private theorem inv'_loop1 (p : Cb E) (fuel : Nat) (b : Backend E) (h : Q b) :
    ∀ r, loop1 I p fuel b = some r → Q r.state := by
  induction fuel generalizing b with
  | zero => intro r hr; simp [loop1] at hr
  | succ n ih =>
    intro r hr
    unfold loop1 at hr
    split at hr
    · have hc := inv'_callCb H p b h
      split at hr
      · rename_i b' r' heq; rw [heq] at hc
        split at hr
        · have hd := inv'_doStep H (I := I) b' hc
          split at hr
          · rename_i heq2; rw [heq2] at hd; exact ih _ hd r hr
          · rename_i heq2; rw [heq2] at hd
            cases hr; exact inv'_fail H _ hd
        · cases hr; exact hc
      · rename_i heq; rw [heq] at hc; cases hr; exact inv'_fail H _ hc
    · cases hr; exact h

private theorem inv'_loop2 (p q : Cb E) (fuel : Nat) (b : Backend E) (h : Q b) :
    ∀ r, loop2 I p q fuel b = some r → Q r.state := by
  induction fuel generalizing b with
  | zero => intro r hr; simp [loop2] at hr
  | succ n ih =>
    intro r hr
    unfold loop2 at hr
    split at hr
    · have hc := inv'_callCb H p b h
      split at hr
      · rename_i b' r' heq; rw [heq] at hc
        split at hr
        · have hd := inv'_doStep H (I := I) b' hc
          split at hr
          · rename_i b'' heq2; rw [heq2] at hd
            have hq := inv'_callCb H q b'' hd
            split at hr
            · rename_i heq3; rw [heq3] at hq
              split at hr
              · exact ih _ hq r hr
              · cases hr; exact hq
            · rename_i heq3; rw [heq3] at hq; cases hr; exact inv'_fail H _ hq
          · rename_i heq2; rw [heq2] at hd
            cases hr; exact inv'_fail H _ hd
        · cases hr; exact hc
      · rename_i heq; rw [heq] at hc; cases hr; exact inv'_fail H _ hc
    · cases hr; exact h

private theorem inv'_exec (b : Backend E) (op : Op E) (h : Q b) (hop : op ≠ .uninit) :
    ∀ b', exec I b op = some b' → Q b' := by
  intro b' hb
  cases op with
  | start fuel =>
    simp only [exec, Option.map_eq_some_iff] at hb
    obtain ⟨r, hr, rfl⟩ := hb
    have hp := inv'_preStart H (I := I) b h
    unfold start0 at hr
    split at hr
    · rename_i heq; rw [heq] at hp; exact inv'_loop0 H fuel _ hp r hr
    · rename_i heq; rw [heq] at hp; cases hr; exact hp
  | startPred p fuel =>
    simp only [exec, Option.map_eq_some_iff] at hb
    obtain ⟨r, hr, rfl⟩ := hb
    have hp := inv'_preStart H (I := I) b h
    unfold start1 at hr
    split at hr
    · rename_i heq; rw [heq] at hp; exact inv'_loop1 H p fuel _ hp r hr
    · rename_i heq; rw [heq] at hp; cases hr; exact hp
  | startPrePost p q fuel =>
    simp only [exec, Option.map_eq_some_iff] at hb
    obtain ⟨r, hr, rfl⟩ := hb
    have hp := inv'_preStart H (I := I) b h
    unfold start2 at hr
    split at hr
    · rename_i heq; rw [heq] at hp; exact inv'_loop2 H p q fuel _ hp r hr
    · rename_i heq; rw [heq] at hp; cases hr; exact hp
  | stop => cases hb; exact inv'_stop H b h
  | uninit => exact absurd rfl hop
  | rawStep => cases hb; exact inv'_doStep H b h

end inv'

private theorem run_induct {I : Impl E} {Q : Backend E → Prop} (P : Op E → Prop)
    (hexec : ∀ b op, Q b → P op → ∀ b', exec I b op = some b' → Q b') (ops : List (Op E))
    (b b' : Backend E) (h : Q b) (hP : ∀ op ∈ ops, P op) (hr : run I b ops = some b') : Q b' := by
  induction ops generalizing b with
  | nil => cases hr; exact h
  | cons op ops ih =>
    unfold run at hr
    split at hr
    · rename_i b1 h1
      exact ih b1 (hexec b op h (hP op (by simp)) b1 h1)
        (fun o ho => hP o (List.mem_cons_of_mem _ ho)) hr
    · cases hr

/-- C27, step numbering: after every history of calls – any callbacks, any exceptions, any stops,
direct `_step()` calls – the steps computed are numbered 0, 1, 2, … in order without gaps or
repetitions, and the counter is their number. -/
theorem C27_steps_consecutive (I : Impl E) (ops : List (Op E)) (b : Backend E)
    (hr : run I Run.new ops = some b) : computed b.trace = List.range b.step := by
  have H : Inv' (E := E) (fun b => computed b.trace = List.range b.step) := by
    refine ⟨fun b s h => h, ?_, ?_, ?_⟩
    · intro b s h _
      simpa [computed] using h
    · intro b h
      simp only [computed_append, computed, h, List.range_succ]
    · intro b l h
      simpa using h
  refine run_induct (I := I) (Q := fun b => computed b.trace = List.range b.step) (fun _ => True)
    ?_ ops Run.new b rfl (by simp) hr
  intro b op h _ b' hb
  by_cases hu : op = .uninit
  · subst hu
    cases hb
    unfold uninit
    split
    · exact h
    · exact inv'_stop H b h
  · exact inv'_exec H b op h hu b' hb

/-- A predicate that reports its calls and results, may depend on everything that happened, and neither
throws nor stops the backend. -/
def reporting (p : List (Ev (Nat × Bool)) → Nat → Bool) : Cb (Nat × Bool) :=
  fun tr n => .ret [(n, p tr n)] (p tr n) false

/-- The trace of a bounded run computing `k` steps from step `s`: predicate, step, predicate, step, …,
final predicate. -/
def boundedTrace (s k : Nat) : List (Ev (Nat × Bool)) :=
  (List.range k).flatMap (fun i => [.cb (s + i, true), .step (s + i)]) ++ [.cb (s + k, false)]

private theorem boundedTrace_succ (s k : Nat) :
    boundedTrace s (k + 1) = [.cb (s, true), .step s] ++ boundedTrace (s + 1) k := by
  unfold boundedTrace
  rw [List.range_succ_eq_map, List.flatMap_cons, List.flatMap_map, List.append_assoc]
  have e : (fun i => [Ev.cb (s + Nat.succ i, true), Ev.step (s + Nat.succ i)]) =
      (fun i => ([Ev.cb (s + 1 + i, true), Ev.step (s + 1 + i)] : List (Ev (Nat × Bool)))) := by
    funext i
    rw [show s + Nat.succ i = s + 1 + i by omega]
  rw [e, show s + (k + 1) = s + 1 + k by omega]
  rfl

/-- The state a run starts from. -/
def started (b : Backend E) : Backend E :=
  if b.initialized then { b with started := true }
  else { b with initialized := true, started := true, trace := b.trace ++ [.init] }

/-- `running()` implies initialised: true of every state reachable without a direct `_uninit`. -/
private theorem preStart_eq (I : Impl E) (hi : ∀ tr, ∃ s, I.init tr = .ok s) (b : Backend E)
    (hb : b.started = true → b.initialized = true) : preStart I b = .returned (started b) := by
  unfold preStart started
  cases h1 : b.started
  · cases h2 : b.initialized
    · obtain ⟨s, hs⟩ := hi b.trace
      simp [hs]
    · simp
  · have := hb h1
    simp only [if_true, this]
    cases b
    simp_all

/-- C27: a run bounded by any (possibly stateful) predicate that returns computed, for some `k`, the
steps `s, …, s+k-1`, where `s` is the current step; the predicate was called with `s, …, s+k`, was true
for all but the last, and the counter ended at `s+k`. -/
theorem C27_bounded_run (I : Impl (Nat × Bool)) (hs : ∀ tr n, I.step tr n = .ok false)
    (hi : ∀ tr, ∃ s, I.init tr = .ok s) (p : List (Ev (Nat × Bool)) → Nat → Bool) (fuel : Nat)
    (b : Backend (Nat × Bool)) (hb : b.started = true → b.initialized = true)
    (r : Ended (Nat × Bool)) (hr : start1 I (reporting p) fuel b = some r) :
    ∃ k, r = .returned { started b with
      step := b.step + k, trace := (started b).trace ++ boundedTrace b.step k } := by
  have key : ∀ (fuel : Nat) (b : Backend (Nat × Bool)), b.started = true →
      ∀ r, loop1 I (reporting p) fuel b = some r →
      ∃ k, r = .returned { b with step := b.step + k, trace := b.trace ++ boundedTrace b.step k } := by
    intro fuel
    induction fuel with
    | zero => intro b _ r hr; simp [loop1] at hr
    | succ n ih =>
      intro b hst r hr
      unfold loop1 at hr
      simp only [hst, if_true, callCb, reporting, stopIf, List.map_cons, List.map_nil,
        Bool.false_eq_true, if_false, doStep, hs] at hr
      cases hp : p b.trace b.step
      · simp only [hp, Bool.false_eq_true, if_false, Option.some.injEq] at hr
        exact ⟨0, by rw [← hr]; simp [boundedTrace, hst]⟩
      · simp only [hp, if_true] at hr
        obtain ⟨k, hk⟩ := ih _ rfl r hr
        refine ⟨k + 1, ?_⟩
        rw [hk, boundedTrace_succ]
        simp [Nat.add_assoc, Nat.add_comm 1 k, hst]
  unfold start1 at hr
  rw [preStart_eq I hi b hb] at hr
  have hst : (started b).started = true := by unfold started; split <;> rfl
  obtain ⟨k, hk⟩ := key fuel (started b) hst r hr
  have hstep : (started b).step = b.step := by unfold started; split <;> rfl
  exact ⟨k, by rw [hk, hstep]⟩

/-- C27, a predicate that depends on the step number only: the run computes exactly the steps before the
first one for which it is false. -/
theorem C27_bounded_run_pure (I : Impl (Nat × Bool)) (hs : ∀ tr n, I.step tr n = .ok false)
    (hi : ∀ tr, ∃ s, I.init tr = .ok s) (p : Nat → Bool) (k : Nat) (b : Backend (Nat × Bool))
    (hb : b.started = true → b.initialized = true)
    (hlt : ∀ i < k, p (b.step + i) = true) (hk : p (b.step + k) = false) (fuel : Nat) (hf : k < fuel) :
    start1 I (reporting fun _ n => p n) fuel b = some (.returned { started b with
      step := b.step + k, trace := (started b).trace ++ boundedTrace b.step k }) := by
  have key : ∀ (k fuel : Nat) (b : Backend (Nat × Bool)), b.started = true →
      (∀ i < k, p (b.step + i) = true) → p (b.step + k) = false → k < fuel →
      loop1 I (reporting fun _ n => p n) fuel b = some (.returned { b with
        step := b.step + k, trace := b.trace ++ boundedTrace b.step k }) := by
    intro k
    induction k with
    | zero =>
      intro fuel b hst _ hk hf
      obtain ⟨n, rfl⟩ : ∃ n, fuel = n + 1 := ⟨fuel - 1, by omega⟩
      unfold loop1
      have hk' : p b.step = false := hk
      simp [hst, callCb, reporting, stopIf, hk', boundedTrace]
    | succ k ih =>
      intro fuel b hst hlt hk hf
      obtain ⟨n, rfl⟩ : ∃ n, fuel = n + 1 := ⟨fuel - 1, by omega⟩
      unfold loop1
      have h0 : p b.step = true := hlt 0 (by omega)
      simp only [hst, if_true, callCb, reporting, stopIf, h0, Bool.false_eq_true, if_false, doStep, hs]
      rw [ih n _ rfl]
      · rw [boundedTrace_succ]
        simp [Nat.add_assoc, Nat.add_comm 1 k]
      · intro i hi'
        have := hlt (i + 1) (by omega)
        simpa [Nat.add_assoc, Nat.add_comm 1 i] using this
      · simpa [Nat.add_assoc, Nat.add_comm 1 k] using hk
      · omega
  unfold start1
  rw [preStart_eq I hi b hb]
  have hst : (started b).started = true := by unfold started; split <;> rfl
  have hstep : (started b).step = b.step := by unfold started; split <;> rfl
  have := key k fuel (started b) hst (by rw [hstep]; exact hlt) (by rw [hstep]; exact hk) hf
  rw [hstep] at this
  exact this

/-- C27: with a predicate that never fails the run never returns. -/
theorem C27_unbounded_run (I : Impl (Nat × Bool)) (hs : ∀ tr n, I.step tr n = .ok false)
    (hi : ∀ tr, ∃ s, I.init tr = .ok s) (b : Backend (Nat × Bool))
    (hb : b.started = true → b.initialized = true) (fuel : Nat) :
    start1 I (reporting fun _ _ => true) fuel b = none := by
  have key : ∀ (fuel : Nat) (b : Backend (Nat × Bool)), b.started = true →
      loop1 I (reporting fun _ _ => true) fuel b = none := by
    intro fuel
    induction fuel with
    | zero => intro b _; rfl
    | succ n ih =>
      intro b hst
      unfold loop1
      simp only [hst, if_true, callCb, reporting, stopIf, Bool.false_eq_true, if_false, doStep, hs]
      exact ih _ rfl
  unfold start1
  rw [preStart_eq I hi b hb]
  exact key fuel _ (by unfold started; split <;> rfl)

example : start1 ⟨fun _ => .ok false, fun _ _ => .ok false⟩ (reporting fun _ n => decide (n < 2)) 3
    (Run.new : Backend (Nat × Bool)) = some (.returned ⟨true, true, 2,
      [.init, .cb (0, true), .step 0, .cb (1, true), .step 1, .cb (2, false)]⟩) := by rfl


/-- One round of `start(pre_step, post_step)` at step `n` with both answers true: asked before, computed, asked after
with the next step number. -/
def fullRound (n : Nat) : List (Ev (Bool × Nat × Bool)) := [.cb (false, n, true), .step n, .cb (true, n + 1, true)]

/-- A pre-step (`false`) or post-step (`true`) callback that reports its calls and answers. -/
def reporting2 (isPost : Bool) (p : Nat → Bool) : Cb (Bool × Nat × Bool) :=
  fun _ n => .ret [(isPost, n, p n)] (p n) false

private theorem fullRounds_succ (s k : Nat) : (List.range (k + 1)).flatMap (fun i => fullRound (s + i)) =
    fullRound s ++ (List.range k).flatMap (fun i => fullRound (s + 1 + i)) := by
  rw [List.range_succ_eq_map, List.flatMap_cons, List.flatMap_map]
  congr 2
  funext i
  rw [show s + Nat.succ i = s + 1 + i by omega]

/-- C27, the variant with two callbacks: both are asked in every round, the pre-step one with the step about to be
computed, the post-step one with the next one; the run ends at the first answer that is false – before the step if
it is the pre-step one's, after it if it is the post-step one's. -/
theorem C27_pre_post (I : Impl (Bool × Nat × Bool)) (hs : ∀ tr n, I.step tr n = .ok false)
    (hi : ∀ tr, ∃ s, I.init tr = .ok s) (p q : Nat → Bool) (k : Nat) (b : Backend (Bool × Nat × Bool))
    (hb : b.started = true → b.initialized = true)
    (hlt : ∀ i < k, p (b.step + i) = true ∧ q (b.step + i + 1) = true) (fuel : Nat) (hf : k < fuel) :
    (p (b.step + k) = false →
      start2 I (reporting2 false p) (reporting2 true q) fuel b = some (.returned { started b with
        step := b.step + k, trace := (started b).trace ++ ((List.range k).flatMap (fun i => fullRound (b.step + i)) ++
          [.cb (false, b.step + k, false)]) })) ∧
    (p (b.step + k) = true → q (b.step + k + 1) = false →
      start2 I (reporting2 false p) (reporting2 true q) fuel b = some (.returned { started b with
        step := b.step + k + 1, trace := (started b).trace ++ ((List.range k).flatMap (fun i => fullRound (b.step + i)) ++
          [.cb (false, b.step + k, true), .step (b.step + k), .cb (true, b.step + k + 1, false)]) })) := by
  have key : ∀ (k fuel : Nat) (b : Backend (Bool × Nat × Bool)), b.started = true →
      (∀ i < k, p (b.step + i) = true ∧ q (b.step + i + 1) = true) → k < fuel →
      (p (b.step + k) = false →
        loop2 I (reporting2 false p) (reporting2 true q) fuel b = some (.returned { b with
          step := b.step + k, trace := b.trace ++ ((List.range k).flatMap (fun i => fullRound (b.step + i)) ++
            [.cb (false, b.step + k, false)]) })) ∧
      (p (b.step + k) = true → q (b.step + k + 1) = false →
        loop2 I (reporting2 false p) (reporting2 true q) fuel b = some (.returned { b with
          step := b.step + k + 1, trace := b.trace ++ ((List.range k).flatMap (fun i => fullRound (b.step + i)) ++
            [.cb (false, b.step + k, true), .step (b.step + k), .cb (true, b.step + k + 1, false)]) })) := by
    intro k
    induction k with
    | zero =>
      intro fuel b hst _ hf
      obtain ⟨n, rfl⟩ : ∃ n, fuel = n + 1 := ⟨fuel - 1, by omega⟩
      constructor
      · intro hp
        unfold loop2
        simp only [Nat.add_zero] at hp ⊢
        simp [hst, callCb, reporting2, hp, stopIf]
      · intro hp hq
        unfold loop2
        simp only [Nat.add_zero] at hp hq ⊢
        simp [hst, callCb, reporting2, hp, hq, stopIf, doStep, hs]
    | succ k ih =>
      intro fuel b hst hlt hf
      obtain ⟨n, rfl⟩ : ∃ n, fuel = n + 1 := ⟨fuel - 1, by omega⟩
      obtain ⟨h1, h2⟩ := hlt 0 (by omega)
      simp only [Nat.add_zero] at h1 h2
      have hrec := ih n { b with step := b.step + 1, trace := b.trace ++ fullRound b.step } hst
        (fun i hi => by
          have := hlt (i + 1) (by omega)
          simp only
          rw [show b.step + 1 + i = b.step + (i + 1) by omega]
          exact this) (by omega)
      have hunf : loop2 I (reporting2 false p) (reporting2 true q) (n + 1) b =
          loop2 I (reporting2 false p) (reporting2 true q) n
            { b with step := b.step + 1, trace := b.trace ++ fullRound b.step } := by
        conv => lhs; unfold loop2
        simp [hst, callCb, reporting2, h1, h2, stopIf, doStep, hs, fullRound]
      rw [hunf, fullRounds_succ]
      simp only at hrec
      rw [show b.step + (k + 1) = b.step + 1 + k by omega]
      constructor
      · intro hp
        rw [hrec.1 hp]
        simp
      · intro hp hq
        rw [hrec.2 hp hq]
        simp
  unfold start2
  rw [preStart_eq I hi b hb]
  have hst : (started b).started = true := by unfold started; split <;> rfl
  have hstep : (started b).step = b.step := by unfold started; split <;> rfl
  have := key k fuel (started b) hst (by rw [hstep]; exact hlt) hf
  rw [hstep] at this
  exact this

/-- Two rounds; the second one's post-step callback ends the run. -/
example : start2 ⟨fun _ => .ok false, fun _ _ => .ok false⟩ (reporting2 false fun _ => true)
    (reporting2 true fun n => decide (n < 2)) 3 (Run.new : Backend (Bool × Nat × Bool)) = some (.returned ⟨true, true, 2,
      [.init, .cb (false, 0, true), .step 0, .cb (true, 1, true), .cb (false, 1, true), .step 1, .cb (true, 2, false)]⟩) := by
  rfl
/-! ## C28 -/

/-- C28: in every history of `start` variants and `stop` calls, with arbitrary callbacks, exceptions and
stops, either nothing was initialised, computed or called back at all, or initialisation is the first
event and happens once. -/
theorem C28_init_once (I : Impl E) (ops : List (Op E)) (hu : ∀ op ∈ ops, op ≠ .uninit)
    (hraw : ∀ op ∈ ops, op ≠ .rawStep) (b : Backend E) (hr : run I Run.new ops = some b) :
    b.trace = [] ∨ ∃ rest, b.trace = .init :: rest ∧ Ev.init ∉ rest := by
  let Q : Backend E → Prop := fun b =>
    (b.initialized = false → b.trace = [] ∧ b.started = false) ∧
    (b.initialized = true → ∃ rest, b.trace = .init :: rest ∧ Ev.init ∉ rest)
  -- after pre_start the backend is initialised, and stays so
  let R : Backend E → Prop := fun b =>
    b.initialized = true ∧ ∃ rest, b.trace = .init :: rest ∧ Ev.init ∉ rest
  have HR : Inv' (E := E) R := by
    refine ⟨fun b s h => h, ?_, ?_, ?_⟩
    · intro b s h hi
      rw [h.1] at hi; cases hi
    · rintro b ⟨h1, rest, h2, h3⟩
      exact ⟨h1, rest ++ [.step b.step], by simp [h2], by simp [h3]⟩
    · rintro b l ⟨h1, rest, h2, h3⟩
      exact ⟨h1, rest ++ l.map .cb, by simp [h2], by simp [h3]⟩
  have hpre : ∀ b, Q b → (∃ b', preStart I b = .returned b' ∧ R b') ∨
      (∃ b', preStart I b = .threw b' ∧ Q b') := by
    intro b hQ
    unfold preStart
    cases hst : b.started
    · cases hin : b.initialized
      · have ht := (hQ.1 hin).1
        simp only [Bool.false_eq_true, if_false, Bool.not_false, if_true]
        cases I.init b.trace with
        | ok s => exact Or.inl ⟨_, rfl, rfl, [], by simp [ht], by simp⟩
        | throw => exact Or.inr ⟨_, rfl, hQ⟩
      · refine Or.inl ⟨{ b with started := true }, by simp [hin], ?_⟩
        exact ⟨hin, hQ.2 hin⟩
    · cases hin : b.initialized
      · have := (hQ.1 hin).2; rw [hst] at this; cases this
      · exact Or.inl ⟨b, by simp, hin, hQ.2 hin⟩
  have RQ : ∀ b, R b → Q b := fun b h => ⟨fun hi => (by rw [h.1] at hi; cases hi), fun _ => h.2⟩
  have hexec : ∀ b op, Q b → (op ≠ .uninit ∧ op ≠ .rawStep) → ∀ b', exec I b op = some b' → Q b' := by
    intro b op hQ hop b' hb
    cases op with
    | start fuel =>
      simp only [exec, Option.map_eq_some_iff] at hb
      obtain ⟨r, hr, rfl⟩ := hb
      unfold start0 at hr
      rcases hpre b hQ with ⟨b1, h1, h2⟩ | ⟨b1, h1, h2⟩
      · rw [h1] at hr; exact RQ _ (inv'_loop0 HR fuel _ h2 r hr)
      · rw [h1] at hr; cases hr; exact h2
    | startPred p fuel =>
      simp only [exec, Option.map_eq_some_iff] at hb
      obtain ⟨r, hr, rfl⟩ := hb
      unfold start1 at hr
      rcases hpre b hQ with ⟨b1, h1, h2⟩ | ⟨b1, h1, h2⟩
      · rw [h1] at hr; exact RQ _ (inv'_loop1 HR p fuel _ h2 r hr)
      · rw [h1] at hr; cases hr; exact h2
    | startPrePost p q fuel =>
      simp only [exec, Option.map_eq_some_iff] at hb
      obtain ⟨r, hr, rfl⟩ := hb
      unfold start2 at hr
      rcases hpre b hQ with ⟨b1, h1, h2⟩ | ⟨b1, h1, h2⟩
      · rw [h1] at hr; exact RQ _ (inv'_loop2 HR p q fuel _ h2 r hr)
      · rw [h1] at hr; cases hr; exact h2
    | stop =>
      cases hb
      unfold stop
      split
      · exact hQ
      · exact ⟨fun hi => ⟨(hQ.1 hi).1, rfl⟩, hQ.2⟩
    | uninit => exact absurd rfl hop.1
    | rawStep => exact absurd rfl hop.2
  have := run_induct (I := I) (Q := Q) (fun op => op ≠ .uninit ∧ op ≠ .rawStep) hexec ops Run.new b
    ⟨fun _ => ⟨rfl, rfl⟩, fun h => by cases h⟩ (fun op h => ⟨hu op h, hraw op h⟩) hr
  cases hin : b.initialized
  · exact Or.inl (this.1 hin).1
  · exact Or.inr (this.2 hin)

/-- Three runs and a stop in between: one initialisation. -/
example : (run ⟨fun _ => .ok false, fun _ _ => .ok false⟩ Run.new
    [.startPred (fun _ n => .ret [n] (decide (n < 1)) false) 9, .stop,
     .startPred (fun _ n => .ret [n] (decide (n < 2)) false) 9,
     .startPrePost (fun _ n => .ret [n] (decide (n < 3)) false) (fun _ _ => .throw []) 9] :
      Option (Backend Nat)).map (·.trace) =
    some [.init, .cb 0, .step 0, .cb 1, .cb 1, .step 1, .cb 2, .cb 2, .step 2] := by rfl

/-! ## C29 -/

/-- C29, full statement: after any ended `start` call on a backend that was not running, the backend is
not running. -/
def C29_statement (E : Type) : Prop :=
  ∀ (I : Impl E) (b : Backend E), b.started = false →
    (∀ fuel r, start0 I fuel b = some r → r.state.started = false) ∧
    (∀ p fuel r, start1 I p fuel b = some r → r.state.started = false) ∧
    (∀ p q fuel r, start2 I p q fuel b = some r → r.state.started = false)

/-- C29 is false: a run that ended because its predicate became false leaves `running()` true. -/
theorem C29_not_running_refuted : ¬ C29_statement Unit := by
  intro h
  have := (h ⟨fun _ => .ok false, fun _ _ => .ok false⟩ Run.new rfl).2.1
    (fun _ _ => .ret [] false false) 1 _ rfl
  exact absurd this (by decide)

private theorem loop0_started (I : Impl E) (fuel : Nat) (b : Backend E) (r : Ended E)
    (h : loop0 I fuel b = some r) : r.state.started = false := by
  induction fuel generalizing b with
  | zero => simp [loop0] at h
  | succ n ih =>
    unfold loop0 at h
    split at h
    · split at h
      · exact ih _ h
      · cases h; rfl
    · rename_i hn; cases h; simpa [Ended.state] using hn

private theorem loop1_threw (I : Impl E) (p : Cb E) (fuel : Nat) (b b' : Backend E)
    (h : loop1 I p fuel b = some (.threw b')) : b'.started = false := by
  induction fuel generalizing b with
  | zero => simp [loop1] at h
  | succ n ih =>
    unfold loop1 at h
    split at h
    · split at h
      · split at h
        · split at h
          · exact ih _ h
          · cases h; rfl
        · cases h
      · cases h; rfl
    · cases h

private theorem loop2_threw (I : Impl E) (p q : Cb E) (fuel : Nat) (b b' : Backend E)
    (h : loop2 I p q fuel b = some (.threw b')) : b'.started = false := by
  induction fuel generalizing b with
  | zero => simp [loop2] at h
  | succ n ih =>
    unfold loop2 at h
    split at h
    · split at h
      · split at h
        · split at h
          · split at h
            · split at h
              · exact ih _ h
              · cases h
            · cases h; rfl
          · cases h; rfl
        · cases h
      · cases h; rfl
    · cases h

private theorem preStart_threw (I : Impl E) (b b' : Backend E) (h : preStart I b = .threw b') :
    b'.started = false := by
  unfold preStart at h
  split at h
  · cases h
  · rename_i hn
    split at h
    · split at h
      · cases h
      · cases h; simpa using hn
    · cases h

/-- C29, what holds: `start()` never returns or throws while running; the other two variants are not
running after an exception, whatever the callbacks do. -/
theorem C29_not_running_partial (I : Impl E) (b : Backend E) :
    (∀ fuel r, start0 I fuel b = some r → r.state.started = false) ∧
    (∀ p fuel b', start1 I p fuel b = some (.threw b') → b'.started = false) ∧
    (∀ p q fuel b', start2 I p q fuel b = some (.threw b') → b'.started = false) := by
  refine ⟨?_, ?_, ?_⟩
  · intro fuel r h
    unfold start0 at h
    split at h
    · exact loop0_started I fuel _ r h
    · rename_i heq; cases h; exact preStart_threw I b _ heq
  · intro p fuel b' h
    unfold start1 at h
    split at h
    · exact loop1_threw I p fuel _ b' h
    · rename_i heq; cases h; exact preStart_threw I b _ heq
  · intro p q fuel b' h
    unfold start2 at h
    split at h
    · exact loop2_threw I p q fuel _ b' h
    · rename_i heq; cases h; exact preStart_threw I b _ heq

/-- A run stopped by its second step, and one that throws in the predicate. -/
example : (start0 ⟨fun _ => .ok false, fun _ n => .ok (n == 1)⟩ 9 (Run.new : Backend Unit)).map
    (fun r => (r.state.started, r.state.step)) = some (false, 2) := by rfl
example : (start1 ⟨fun _ => .ok false, fun _ _ => .ok false⟩
    (fun _ n => if n = 1 then .throw [] else .ret [] true false) 9 (Run.new : Backend Unit)).map
    (fun r => (r.state.started, r.state.step)) = some (false, 1) := by rfl

/-- C29: `stop()` always ends with `running()` false and changes nothing else. -/
theorem C29_stop (b : Backend E) : (Run.stop b).started = false ∧
    (Run.stop b).step = b.step ∧ (Run.stop b).trace = b.trace ∧
    (Run.stop b).initialized = b.initialized := by
  unfold Run.stop
  cases h : b.started <;> simp [h]

/-! ## C30 -/

/-- C30, full statement: on a backend with nothing selected, `select_devices(uids)` selects exactly the
available devices with these UIDs if all are available and throws otherwise. -/
def C30_statement : Prop :=
  ∀ (available uids : List UID), available.Nodup → uids.Nodup →
    ((∀ u ∈ uids, u ∈ available) → ∃ l, selectDevices available [] uids = .ok l ∧
      ∀ u, u ∈ l ↔ u ∈ uids) ∧
    ((∃ u ∈ uids, u ∉ available) → (selectDevices available [] uids).isThrow = true)

/-- C30 is false: the loop returns at the first hit, so of two requested devices one is selected, and a
request naming a missing device is not reported. -/
theorem C30_select_devices_refuted : ¬ C30_statement := by
  intro h
  obtain ⟨l, h1, h2⟩ := (h [1, 2] [1, 2] (by decide) (by decide)).1 (by decide)
  have : selectDevices [1, 2] [] [1, 2] = .ok [1] := by rfl
  rw [this] at h1
  have h3 := Outcome.ok.inj h1
  subst h3
  exact absurd ((h2 2).2 (by decide)) (by decide)

/-- … also the second half. -/
theorem C30_missing_device_refuted :
    ∃ available uids, available.Nodup ∧ uids.Nodup ∧ (∃ u ∈ uids, u ∉ available) ∧
      (selectDevices available [] uids).isOk = true :=
  ⟨[1], [1, 2], by decide, by decide, by decide, by rfl⟩

/-- C30, what holds: requests for at most one device are handled as described; for a longer list, if none
is available an exception is thrown, otherwise one requested available device is selected. -/
theorem C30_select_devices_partial (available : List UID) :
    (∀ u ∈ available, selectDevices available [] [u] = .ok [u]) ∧
    (∀ u, u ∉ available → (selectDevices available [] [u]).isThrow = true) ∧
    (∀ uids, uids ≠ [] → (∀ u ∈ uids, u ∉ available) →
      (selectDevices available [] uids).isThrow = true) ∧
    (∀ uids, (∃ u ∈ uids, u ∈ available) → ∃ d ∈ uids, d ∈ available ∧
      selectDevices available [] uids = .ok [d]) ∧
    selectDevices available [] [] = .ok [] := by
  have hnone : ∀ uids : List UID, (∀ u ∈ uids, u ∉ available) →
      available.find? (fun d => uids.contains d) = none := by
    intro uids h
    apply List.find?_eq_none.2
    intro x hx hc
    exact h x (by simpa using hc) hx
  have hsome : ∀ uids : List UID, (∃ u ∈ uids, u ∈ available) →
      ∃ d ∈ uids, d ∈ available ∧ selectDevices available [] uids = .ok [d] := by
    rintro uids ⟨u, h1, h2⟩
    have : (available.find? (fun d => uids.contains d)).isSome = true := by
      rw [List.find?_isSome]; exact ⟨u, h2, by simpa using h1⟩
    obtain ⟨d, hd⟩ := Option.isSome_iff_exists.1 this
    exact ⟨d, by simpa using List.find?_some hd, List.mem_of_find?_eq_some hd,
      by unfold selectDevices; rw [hd]; rfl⟩
  refine ⟨?_, ?_, ?_, hsome, ?_⟩
  · intro u hu
    obtain ⟨d, h1, _, h3⟩ := hsome [u] ⟨u, by simp, hu⟩
    rw [h3, List.mem_singleton.1 h1]
  · intro u hu
    unfold selectDevices
    rw [hnone [u] (by simpa using hu)]
    rfl
  · intro uids hne h
    unfold selectDevices
    rw [hnone uids h]
    simp [hne, Outcome.isThrow]
  · unfold selectDevices
    rw [hnone [] (by simp)]
    rfl

example : selectDevices [4, 5, 6] [] [5] = .ok [5] := by rfl

/-- C30: `select_device` makes its argument the only selected device. -/
theorem C30_select_device (devices : List UID) (d : UID) : selectDevice devices d = [d] := rfl

/-! ## C26 -/

section executor
open Knp.Exec

/-- What happens in one computed step `t`: all inputs asked with `t`, the predicate with `t`, the step,
all outputs, all handlers (with the number of completed steps), all observers. -/
def stepEvents (sh : Shape) (t : Nat) : List (Ev Exec.E) :=
  (List.range sh.inputs).map (fun i => .cb (.input i t)) ++ [.cb (.pred t), .step t] ++
  (List.range sh.outputs).map (fun i => .cb (.output i)) ++
  (List.range sh.handlers).map (fun i => .cb (.handler i (t + 1))) ++
  (List.range sh.observers).map (fun i => .cb (.observer i))

/-- The trace of a run of `k` steps from `s`; at its end the inputs are asked once more and the predicate
says no. -/
def runEvents (sh : Shape) (s k : Nat) : List (Ev Exec.E) :=
  (List.range k).flatMap (fun i => stepEvents sh (s + i)) ++
  (List.range sh.inputs).map (fun i => .cb (.input i (s + k))) ++ [.cb (.pred (s + k))]

private theorem runEvents_succ (sh : Shape) (s k : Nat) :
    runEvents sh s (k + 1) = stepEvents sh s ++ runEvents sh (s + 1) k := by
  unfold runEvents
  rw [List.range_succ_eq_map, List.flatMap_cons, List.flatMap_map]
  have e : (fun i => stepEvents sh (s + Nat.succ i)) = (fun i => stepEvents sh (s + 1 + i)) := by
    funext i
    rw [show s + Nat.succ i = s + 1 + i by omega]
  rw [e, show s + (k + 1) = s + 1 + k by omega]
  simp only [Nat.add_zero, List.append_assoc]

private theorem exec_loop (I : Impl Exec.E) (hs : ∀ tr n, I.step tr n = .ok false) (sh : Shape)
    (p : Nat → Bool) (k : Nat) : ∀ (fuel : Nat) (b : Backend Exec.E), b.started = true →
      (∀ i < k, p (b.step + i) = true) → p (b.step + k) = false → k < fuel →
      loop2 I (preStep sh fun _ n => some (p n, false)) (postStep sh) fuel b =
        some (.returned { b with step := b.step + k, trace := b.trace ++ runEvents sh b.step k }) := by
  induction k with
  | zero =>
    intro fuel b hst _ hk hf
    obtain ⟨n, rfl⟩ : ∃ n, fuel = n + 1 := ⟨fuel - 1, by omega⟩
    have hk' : p b.step = false := hk
    unfold loop2
    simp [hst, callCb, preStep, stopIf, hk', runEvents, Function.comp_def]
  | succ k ih =>
    intro fuel b hst hlt hk hf
    obtain ⟨n, rfl⟩ : ∃ n, fuel = n + 1 := ⟨fuel - 1, by omega⟩
    have h0 : p b.step = true := hlt 0 (by omega)
    unfold loop2
    simp only [hst, if_true, callCb, preStep, stopIf, h0, Bool.false_eq_true, if_false, doStep, hs,
      postStep]
    rw [ih n _ rfl]
    · rw [runEvents_succ]
      simp [Nat.add_assoc, Nat.add_comm 1 k, stepEvents, Function.comp_def]
    · intro i hi'
      have := hlt (i + 1) (by omega)
      simpa [Nat.add_assoc, Nat.add_comm 1 i] using this
    · simpa [Nat.add_assoc, Nat.add_comm 1 k] using hk
    · omega

/-- C26, the exact order of everything in one run: steps `s, …, s+k-1` are computed, where `s+k` is the
first step whose predicate is false. -/
theorem C26_run_order (I : Impl Exec.E) (hs : ∀ tr n, I.step tr n = .ok false)
    (hi : ∀ tr, ∃ s, I.init tr = .ok s) (sh : Shape) (p : Nat → Bool) (k : Nat)
    (b : Backend Exec.E) (hb : b.started = true → b.initialized = true)
    (hlt : ∀ i < k, p (b.step + i) = true) (hk : p (b.step + k) = false) (fuel : Nat) (hf : k < fuel) :
    Exec.start I sh (fun _ n => some (p n, false)) fuel b = some (.returned { started b with
      step := b.step + k, trace := (started b).trace ++ runEvents sh b.step k }) := by
  unfold Exec.start start2
  rw [preStart_eq I hi b hb]
  have hst : (started b).started = true := by unfold started; split <;> rfl
  have hstep : (started b).step = b.step := by unfold started; split <;> rfl
  have := exec_loop I hs sh p k fuel (started b) hst (by rw [hstep]; exact hlt)
    (by rw [hstep]; exact hk) hf
  rw [hstep] at this
  exact this

example : Exec.start ⟨fun _ => .ok false, fun _ _ => .ok false⟩ ⟨2, 1, 1, 0⟩
    (fun _ n => some (decide (n < 1), false)) 5 Run.new =
    some (.returned ⟨true, true, 1, [.init, .cb (.input 0 0), .cb (.input 1 0), .cb (.pred 0), .step 0,
      .cb (.output 0), .cb (.handler 0 1), .cb (.input 0 1), .cb (.input 1 1), .cb (.pred 1)]⟩) := by rfl

private theorem count_range_map {α : Type} [BEq α] [LawfulBEq α] (n : Nat) (f : Nat → α)
    (hf : ∀ i j, f i = f j → i = j) (i : Nat) :
    ((List.range n).map f).count (f i) = if i < n then 1 else 0 := by
  rw [List.count_eq_countP, List.countP_map]
  have : ((fun x => x == f i) ∘ f) = (fun x => x == i) := by
    funext x
    by_cases h : x = i
    · simp [h]
    · have : f x ≠ f i := fun e => h (hf x i e)
      rw [Function.comp_apply, beq_false_of_ne h, beq_false_of_ne this]
  rw [this, ← List.count_eq_countP]
  by_cases h : i < n
  · rw [if_pos h]
    exact List.nodup_iff_count_eq_one.1 List.nodup_range i (List.mem_range.2 h)
  · rw [if_neg h]
    exact List.count_eq_zero.2 (by simpa using h)

private theorem count_map_ne {α β : Type} [BEq β] [LawfulBEq β] (l : List α) (f : α → β) (x : β)
    (h : ∀ a ∈ l, f a ≠ x) : (l.map f).count x = 0 := by
  apply List.count_eq_zero.2
  intro hx
  obtain ⟨a, ha, e⟩ := List.mem_map.1 hx
  exact h a ha e

/-- C26, inputs: in a run computing steps `s, …, s+k-1`, every input channel is asked exactly once with
each of the step numbers `s, …, s+k` and with no other. -/
theorem C26_inputs_once (sh : Shape) (s k i t : Nat) (hi : i < sh.inputs) :
    (runEvents sh s k).count (.cb (.input i t)) = if s ≤ t ∧ t ≤ s + k then 1 else 0 := by
  have hstepc : ∀ u, (stepEvents sh u).count (.cb (.input i t)) = if u = t then 1 else 0 := by
    intro u
    unfold stepEvents
    simp only [List.count_append]
    rw [count_map_ne (List.range sh.outputs) _ _ (by simp),
      count_map_ne (List.range sh.handlers) _ _ (by simp),
      count_map_ne (List.range sh.observers) _ _ (by simp)]
    by_cases h : u = t
    · subst h
      rw [count_range_map sh.inputs (fun i => Ev.cb (Exec.E.input i u)) (by simp) i]
      simp [hi, List.count_cons]
    · rw [count_map_ne _ _ _ (by simp [h])]
      simp [h, List.count_cons]
  have hlast : ((List.range sh.inputs).map (fun i => (Ev.cb (Exec.E.input i (s + k)) : Ev Exec.E))).count
      (.cb (.input i t)) = if s + k = t then 1 else 0 := by
    by_cases h : s + k = t
    · subst h
      rw [count_range_map sh.inputs (fun i => Ev.cb (Exec.E.input i (s + k))) (by simp) i]
      simp [hi]
    · rw [count_map_ne _ _ _ (by simp [h])]
      simp [h]
  induction k generalizing s with
  | zero =>
    unfold runEvents
    simp only [List.range_zero, List.flatMap_nil, List.nil_append, List.count_append]
    rw [hlast]
    by_cases h : s = t <;> simp [h, List.count_cons] <;> omega
  | succ k ih =>
    rw [runEvents_succ, List.count_append, hstepc, ih (s + 1) (by
      have : s + 1 + k = s + (k + 1) := by omega
      rw [this]; exact hlast)]
    by_cases h1 : s = t
    · subst h1; simp; omega
    · by_cases h2 : s + 1 ≤ t ∧ t ≤ s + 1 + k
      · simp [h1, h2]; omega
      · simp [h1, h2]; omega

example : (runEvents ⟨2, 1, 1, 1⟩ 5 3).count (.cb (.input 1 8)) = 1 := by decide

/-- C26 over several runs: "an input channel is asked once per step number" is false.  The step for which
the predicate was false is asked for again by the next run, so its spikes are sent twice. -/
theorem C26_inputs_once_per_step_refuted :
    ∃ (I : Impl Exec.E) (sh : Shape) (p q : List (Ev Exec.E) → Nat → Option (Bool × Bool))
      (b₁ b₂ : Backend Exec.E),
      Exec.start I sh p 9 Run.new = some (.returned b₁) ∧ Exec.start I sh q 9 b₁ = some (.returned b₂) ∧
      b₂.trace.count (.cb (.input 0 1)) = 2 :=
  ⟨⟨fun _ => .ok false, fun _ _ => .ok false⟩, ⟨1, 0, 0, 0⟩, fun _ n => some (decide (n < 1), false),
    fun _ n => some (decide (n < 2), false), _, _, rfl, rfl, by decide⟩

end executor

end Knp.Props
