import Verif.Lemmas.ThreadPool

/-!
# C60-C62, C91: the thread pool of the multi-threaded backend

Histories are arbitrary lists of events: any number of workers, executors, joiners, posts (also from inside tasks),
throwing tasks, spurious wake-ups, any schedule.
-/

namespace Knp.Props
open Knp.Pool Knp.Spec.Pool Knp.Lemmas.Pool

namespace PoolEx
/-- A small history: two workers, two tasks, a join; the joiner executes the second task itself. -/
def es : List Event :=
  [.enter 0, .enter 1, .post ⟨1, 0⟩ (some 0), .post ⟨2, 0⟩ (some 1), .join 0, .enter 0, .enter 2, .enter 1, .finish 0 false]
def last : Event := .finish 2 false
def st (n : Nat) (l : List Event) : State := (run (init n) l).getD (init 0)
end PoolEx

/-! ## C60 -/

private theorem done_enter {s : State} {i j : Nat} {k : Kind} {e : Nat} {x : Thr} (hx : s.threads[j]? = some x)
    (hnd : x.pc ≠ .done) (h : (loopIter s i k).threads[j]? = some ⟨.joiner e, .done⟩) :
    (loopIter s i k).count e = 0 := by
  have hset : ∀ (s1 : State) (p : Pc), s1.threads = s.threads → (setPc s1 i k p).threads[j]? = some ⟨.joiner e, .done⟩ →
      p = .done ∧ k = .joiner e := by
    intro s1 p ht hp
    simp only [setPc, ht] at hp
    rw [List.getElem?_set] at hp
    split at hp
    · split at hp
      · have := Option.some.inj hp
        exact ⟨congrArg Thr.pc this, congrArg Thr.kind this⟩
      · cases hp
    · rw [hx] at hp
      have := Option.some.inj hp
      rw [this] at hnd
      exact absurd rfl hnd
  have htake : ∀ e', (takeOrWait s i k).threads[j]? ≠ some ⟨.joiner e', .done⟩ := by
    intro e' hp
    unfold takeOrWait at hp
    split at hp
    · simp only [setPc] at hp
      rw [List.getElem?_set] at hp
      split at hp
      · split at hp <;> simp at hp
      · rw [hx] at hp
        have := Option.some.inj hp
        rw [this] at hnd
        exact absurd rfl hnd
    · simp only [setPc] at hp
      rw [List.getElem?_set] at hp
      split at hp
      · split at hp <;> simp at hp
      · rw [hx] at hp
        have := Option.some.inj hp
        rw [this] at hnd
        exact absurd rfl hnd
  rcases k with _ | e'
  · unfold loopIter at h
    dsimp only at h
    split at h
    · obtain ⟨_, h2⟩ := hset s .done rfl h
      cases h2
    · exact absurd h (htake e)
  · unfold loopIter at h ⊢
    dsimp only at h ⊢
    split at h
    · rename_i hc
      rw [if_pos hc]
      obtain ⟨_, h2⟩ := hset s .done rfl h
      cases h2
      exact hc
    · exact absurd h (htake e)

private theorem booked_not_done {s : State} {i j : Nat} {k : Kind} {t : Task} {x : Thr}
    (hi : s.threads[i]? = some ⟨k, .running t⟩) (hx : s.threads[j]? = some x) (hnd : x.pc ≠ .done) :
    ∃ y, (booked s i k t).threads[j]? = some y ∧ y.pc ≠ .done := by
  by_cases hij : i = j
  · subst hij
    exact ⟨_, booked_thread hi, by simp⟩
  · have hset : (s.threads.set i ⟨k, .ready⟩)[j]? = some x := by rw [List.getElem?_set_ne hij]; exact hx
    unfold booked workFinished
    dsimp only
    split
    · refine ⟨wake x, ?_, ?_⟩
      · rw [List.getElem?_map, hset]; rfl
      · unfold wake
        split
        · simp
        · exact hnd
    · exact ⟨x, hset, hnd⟩

private theorem done_step {s s' : State} {ev : Event} {j e : Nat} {x : Thr} (hs : step s ev = some s')
    (hx : s.threads[j]? = some x) (hnd : x.pc ≠ .done) (h : s'.threads[j]? = some ⟨.joiner e, .done⟩) : s'.count e = 0 := by
  unfold step at hs
  split at hs
  · cases hs
  have hne : ∀ l : List Thr, l[j]? = some x → l[j]? ≠ some ⟨.joiner e, .done⟩ := by
    intro l hl hc
    rw [hl] at hc
    have := Option.some.inj hc
    rw [this] at hnd
    exact absurd rfl hnd
  have hsetne : ∀ (l : List Thr) (i : Nat) (k : Kind) (p : Pc), l[j]? = some x → p ≠ .done →
      (l.set i ⟨k, p⟩)[j]? ≠ some ⟨.joiner e, .done⟩ := by
    intro l i k p hl hp hc
    rw [List.getElem?_set] at hc
    split at hc
    · split at hc
      · have := Option.some.inj hc
        exact hp (congrArg Thr.pc this)
      · cases hc
    · exact hne l hl hc
  cases ev with
  | enter i =>
    dsimp only at hs
    split at hs
    · rename_i k hi; cases hs; exact done_enter hx hnd h
    · cases hs
  | finish i throws =>
    dsimp only at hs
    split at hs
    · rename_i k t hi
      cases hs
      obtain ⟨y, hy, hyd⟩ := booked_not_done hi hx hnd
      rw [finishTask_eq] at h ⊢
      generalize booked s i k t = b at hy h ⊢
      unfold afterBooked at h ⊢
      split at h
      · rcases k with _ | e'
        · dsimp only at h
          rw [hy] at h
          have := Option.some.inj h
          rw [this] at hyd
          exact absurd rfl hyd
        · simp only [setPc] at h
          rw [List.getElem?_set] at h
          split at h
          · split at h <;> simp at h
          · rw [hy] at h
            have := Option.some.inj h
            rw [this] at hyd
            exact absurd rfl hyd
      · rename_i hth
        rw [if_neg hth]
        exact done_enter hy hyd h
    · cases hs
  | post t w =>
    dsimp only at hs
    split at hs
    · split at hs
      · cases hs; exact absurd h (hne _ hx)
      · cases hs
    · split at hs
      · cases hs; exact absurd h (hsetne _ _ _ _ hx (by simp))
      · cases hs
  | stop =>
    cases hs
    dsimp only at h
    rw [List.getElem?_map, hx] at h
    have := Option.some.inj h
    unfold wake at this
    split at this
    · have h2 := congrArg Thr.pc this
      cases h2
    · rw [this] at hnd; exact absurd rfl hnd
  | join e' =>
    cases hs
    dsimp only at h
    have hlt : j < s.threads.length := (List.getElem?_eq_some_iff.1 hx).1
    rw [List.getElem?_append_left hlt] at h
    exact absurd h (hne _ hx)
  | spurious i =>
    dsimp only at hs
    split at hs
    · cases hs; exact absurd h (hsetne _ _ _ _ hx (by simp))
    · cases hs

/-- C60. When a `join` of executor `e` returns, the tasks of `e` whose execution has ended are, as a multiset, exactly
the tasks of `e` posted up to that moment: every one has been executed, each exactly once. Holds for every history:
any number of workers, executors and joins, throwing tasks, stops. -/
theorem C60_join {n : Nat} {es : List Event} {s s' : State} {ev : Event} {j e : Nat} {x : Thr}
    (hr : run (init n) es = some s) (hs : step s ev = some s') (hx : s.threads[j]? = some x) (hnd : x.pc ≠ .done)
    (h : s'.threads[j]? = some ⟨.joiner e, .done⟩) :
    (ofExec e s'.executed).Perm (ofExec e (posted (es ++ [ev]))) := by
  have hinv := inv_step (inv_run (inv_init n) hr) hs
  have hp : posted (es ++ [ev]) = [] ++ posted es ++ postedBy ev := by
    rw [posted_append, posted_cons]
    simp [posted]
  rw [hp]
  have hc := done_step hs hx hnd h
  rw [hinv.cnt' e] at hc
  have hq : ofExec e s'.queue = [] := List.eq_nil_of_length_eq_zero (by omega)
  have hrn : ofExec e (running s'.threads) = [] := List.eq_nil_of_length_eq_zero (by omega)
  have h1 : ofExec e ([] ++ posted es ++ postedBy ev) = ofExec e s'.started ++ ofExec e s'.queue := by
    rw [← hinv.fifo]; unfold ofExec; rw [List.filter_append]
  rw [h1, hq, List.append_nil]
  have h2 : (ofExec e s'.started).Perm (ofExec e s'.executed ++ ofExec e (running s'.threads)) := by
    unfold ofExec
    rw [← List.filter_append]
    exact hinv.runs.filter _
  rw [hrn, List.append_nil] at h2
  exact h2.symm

/-- Non-vacuity: in the example history the joiner (thread 2) executes task 2 and its next step returns from `join`. -/
example : (run (init 2) PoolEx.es).isSome = true ∧ (step (PoolEx.st 2 PoolEx.es) PoolEx.last).isSome = true ∧
    (PoolEx.st 2 PoolEx.es).threads[2]? = some ⟨.joiner 0, .running ⟨2, 0⟩⟩ ∧
    (PoolEx.st 2 (PoolEx.es ++ [PoolEx.last])).threads[2]? = some ⟨.joiner 0, .done⟩ ∧
    posted (PoolEx.es ++ [PoolEx.last]) = [⟨1, 0⟩, ⟨2, 0⟩] := by decide

/-- C60. No task is ever executed twice, whatever the schedule: at every moment the ended tasks together with the
running and the queued ones are exactly the posted ones. -/
theorem C60_at_most_once {n : Nat} {es : List Event} {s : State} (hr : run (init n) es = some s) :
    (s.executed ++ running s.threads ++ s.queue).Perm (posted es) := by
  have hinv := inv_run (inv_init n) hr
  rw [List.nil_append] at hinv
  rw [← hinv.fifo]
  exact List.Perm.append_right _ hinv.runs.symm

/-- C60, limit: a `join` that is left by an exception of a task leaves tasks of its executor behind. -/
theorem C60_exception_leaves_tasks : ∃ (es : List Event) (s : State), run (init 0) es = some s ∧
    s.threads = [⟨.joiner 0, .threw⟩] ∧ s.queue = [⟨2, 0⟩] ∧ s.crashed = false :=
  ⟨[.post ⟨1, 0⟩ none, .post ⟨2, 0⟩ none, .join 0, .enter 0, .finish 0 true],
    PoolEx.st 0 [.post ⟨1, 0⟩ none, .post ⟨2, 0⟩ none, .join 0, .enter 0, .finish 0 true], rfl, by decide, by decide, by decide⟩

/-! ## C91 -/

/-- C91. Tasks are started in the order in which they were posted. -/
theorem C91_fifo {n : Nat} {es : List Event} {s : State} (hr : run (init n) es = some s) :
    s.started ++ s.queue = posted es := by
  have hinv := inv_run (inv_init n) hr
  rw [List.nil_append] at hinv
  exact hinv.fifo

example : (PoolEx.st 2 PoolEx.es).started = [⟨1, 0⟩, ⟨2, 0⟩] ∧ (PoolEx.st 2 PoolEx.es).executed = [⟨1, 0⟩] := by decide

/-! ## C61 -/

private theorem no_own_no_active {s : State} (hc : s.crashed = false) (hq : Quiescent s) :
    (∀ x ∈ s.threads, x.pc ≠ .ready) ∧ running s.threads = [] := by
  constructor
  · intro x hx hr
    obtain ⟨i, hi⟩ := List.getElem?_of_mem hx
    have := hq (.enter i) trivial
    rcases x with ⟨k, p⟩
    dsimp only at hr
    subst hr
    simp [step, hc, hi] at this
  · rcases hrn : running s.threads with _ | ⟨t, l⟩
    · rfl
    · obtain ⟨i, k, hi⟩ := mem_running (l := s.threads) (t := t) (by rw [hrn]; simp)
      have := hq (.finish i false) trivial
      simp [step, hc, hi] at this

private theorem quiet_queue {s : State} (hl : Live s) (hnr : ∀ x ∈ s.threads, x.pc ≠ .ready)
    (hw : SomeWaiting s.threads) : s.queue = [] := by
  have h1 := hl.sig hw
  have h2 : s.threads.countP (useful s.count) = 0 := by
    rw [List.countP_eq_zero]
    intro x hx hu
    simp only [useful, Bool.and_eq_true, beq_iff_eq] at hu
    exact hnr x hx hu.1
  rw [h2] at h1
  exact List.eq_nil_of_length_eq_zero (by omega)

/-- The thread can still do something some day: it is a worker that has not ended or a join that has not returned. -/
def Unfinished (x : Thr) : Prop := x.pc ≠ .done ∧ x.pc ≠ .threw

/-- C61. In proper use the pool never gets stuck: whenever a task is queued or running and some worker or join has not
ended, some thread can take a step of its own (no new post, stop or spurious wake-up is needed). -/
theorem C61_progress {n : Nat} {es : List Event} {s : State} (hp : Proper n es) (hr : run (init n) es = some s)
    (hc : s.crashed = false) (hwork : s.queue ≠ [] ∨ running s.threads ≠ []) (hlive : ∃ x ∈ s.threads, Unfinished x) :
    ∃ ev s', Own ev ∧ step s ev = some s' := by
  obtain ⟨hinv, hl, hf⟩ := proper_run hp hr
  apply Classical.byContradiction
  intro hno
  have hq : Quiescent s := by
    intro ev ho
    rcases hst : step s ev with _ | s'
    · rfl
    · exact absurd ⟨ev, s', ho, hst⟩ hno
  obtain ⟨h1, h2⟩ := no_own_no_active hc hq
  rcases hwork with hwork | hwork
  · obtain ⟨x, hx, hx1, hx2⟩ := hlive
    apply hwork
    apply quiet_queue hl h1
    refine ⟨x, hx, ?_⟩
    rcases hpc : x.pc with _ | _ | t | _ | _
    · exact absurd hpc (h1 x hx)
    · rfl
    · exfalso
      obtain ⟨i, hi⟩ := List.getElem?_of_mem hx
      have : t ∈ running s.threads := running_mem (k := x.kind) (i := i) (by rw [hi, ← hpc])
      rw [h2] at this
      cases this
    · exact absurd hpc hx1
    · exact absurd hpc hx2
  · exact hwork h2

/-- C61. Steps of the pool's own cannot go on for ever: from any state there is a bound on their number. -/
theorem C61_terminates (s : State) : ∃ N, ∀ (es : List Event) (s' : State), (∀ ev ∈ es, Own ev) → run s es = some s' →
    es.length ≤ N := by
  refine ⟨measure s, ?_⟩
  intro es
  induction es generalizing s with
  | nil => intro _ _ _; exact Nat.zero_le _
  | cons ev es ih =>
    intro s' ho hr
    unfold run at hr
    rcases hst : step s ev with _ | s1
    · rw [hst] at hr; cases hr
    · rw [hst] at hr
      have h1 := own_measure (ho ev (by simp)) hst
      have h2 := ih s1 s' (fun e he => ho e (by simp [he])) hr
      rw [List.length_cons]
      omega

/-- C61. When no step of the pool's own is possible any more, every join has returned (or thrown), and if a worker is
still there everything posted has been executed. Together with `C61_terminates`: `join` always returns. -/
theorem C61_joins_return {n : Nat} {es : List Event} {s : State} (hp : Proper n es) (hr : run (init n) es = some s)
    (hc : s.crashed = false) (hq : Quiescent s) :
    (∀ x ∈ s.threads, ∀ e, x.kind = .joiner e → x.pc = .done ∨ x.pc = .threw) ∧
    ((∃ x ∈ s.threads, Unfinished x) → s.executed.Perm (posted es)) := by
  obtain ⟨hinv, hl, hf⟩ := proper_run hp hr
  obtain ⟨h1, h2⟩ := no_own_no_active hc hq
  have hwait : ∀ x ∈ s.threads, Unfinished x → x.pc = .waiting := by
    intro x hx hu
    rcases hpc : x.pc with _ | _ | t | _ | _
    · exact absurd hpc (h1 x hx)
    · rfl
    · exfalso
      obtain ⟨i, hi⟩ := List.getElem?_of_mem hx
      have : t ∈ running s.threads := running_mem (k := x.kind) (i := i) (by rw [hi, ← hpc])
      rw [h2] at this
      cases this
    · exact absurd hpc hu.1
    · exact absurd hpc hu.2
  constructor
  · intro x hx e he
    apply Classical.byContradiction
    intro hno
    have hw := hwait x hx ⟨fun h => hno (Or.inl h), fun h => hno (Or.inr h)⟩
    have hpos := hl.jw x hx hw e he
    have hqe := quiet_queue hl h1 ⟨x, hx, hw⟩
    rw [hinv.cnt' e, h2, hqe] at hpos
    cases hpos
  · rintro ⟨x, hx, hu⟩
    have hqe := quiet_queue hl h1 ⟨x, hx, hwait x hx hu⟩
    have := C60_at_most_once hr
    rwa [h2, hqe, List.append_nil, List.append_nil] at this

/-- Non-vacuity: the example history is proper use with work to do; carried on it ends in a quiescent state. -/
example : (∀ t ∈ posted PoolEx.es, t.exec = 0) ∧ running (PoolEx.st 2 PoolEx.es).threads ≠ [] ∧
    (PoolEx.st 2 (PoolEx.es ++ [PoolEx.last])).threads =
      [⟨.worker, .ready⟩, ⟨.worker, .ready⟩, ⟨.joiner 0, .done⟩] ∧
    (PoolEx.st 2 (PoolEx.es ++ [PoolEx.last, .enter 1, .enter 0])).threads =
      [⟨.worker, .waiting⟩, ⟨.worker, .waiting⟩, ⟨.joiner 0, .done⟩] := by decide

/-! ## C62 -/

private theorem worker_done_enter {s : State} {i j : Nat} {k : Kind} {x : Thr} (hx : s.threads[j]? = some x)
    (hnd : x.pc ≠ .done) (h : (loopIter s i k).threads[j]? = some ⟨.worker, .done⟩) : s.usage = .finished := by
  have hset : ∀ (s1 : State) (p : Pc), s1.threads = s.threads → (setPc s1 i k p).threads[j]? = some ⟨.worker, .done⟩ →
      p = .done ∧ k = .worker := by
    intro s1 p ht hp
    simp only [setPc, ht] at hp
    rw [List.getElem?_set] at hp
    split at hp
    · split at hp
      · have := Option.some.inj hp
        exact ⟨congrArg Thr.pc this, congrArg Thr.kind this⟩
      · cases hp
    · rw [hx] at hp
      have := Option.some.inj hp
      rw [this] at hnd
      exact absurd rfl hnd
  have htake : (takeOrWait s i k).threads[j]? ≠ some ⟨.worker, .done⟩ := by
    intro hp
    unfold takeOrWait at hp
    split at hp
    · have := (hset s .waiting rfl hp).1
      cases this
    · rename_i t q _
      have := (hset { s with queue := q, started := s.started ++ [t] } (.running t) rfl hp).1
      cases this
  rcases k with _ | e'
  · unfold loopIter at h
    dsimp only at h
    split at h
    · assumption
    · exact absurd h htake
  · unfold loopIter at h
    dsimp only at h
    split at h
    · have := (hset s .done rfl h).2
      cases this
    · exact absurd h htake

private theorem worker_done_step {s s' : State} {ev : Event} {j : Nat} {x : Thr} (hs : step s ev = some s')
    (hx : s.threads[j]? = some x) (hnd : x.pc ≠ .done) (h : s'.threads[j]? = some ⟨.worker, .done⟩) :
    s'.usage = .finished := by
  unfold step at hs
  split at hs
  · cases hs
  have hne : ∀ l : List Thr, l[j]? = some x → l[j]? ≠ some ⟨.worker, .done⟩ := by
    intro l hl hc
    rw [hl] at hc
    have := Option.some.inj hc
    rw [this] at hnd
    exact absurd rfl hnd
  have hsetne : ∀ (l : List Thr) (i : Nat) (k : Kind) (p : Pc), l[j]? = some x → p ≠ .done →
      (l.set i ⟨k, p⟩)[j]? ≠ some ⟨.worker, .done⟩ := by
    intro l i k p hl hp hc
    rw [List.getElem?_set] at hc
    split at hc
    · split at hc
      · have := Option.some.inj hc
        exact hp (congrArg Thr.pc this)
      · cases hc
    · exact hne l hl hc
  cases ev with
  | enter i =>
    dsimp only at hs
    split at hs
    · rename_i k hi
      cases hs
      rw [(loopIter_usage s i k).1]
      exact worker_done_enter hx hnd h
    · cases hs
  | finish i throws =>
    dsimp only at hs
    split at hs
    · rename_i k t hi
      cases hs
      obtain ⟨y, hy, hyd⟩ := booked_not_done hi hx hnd
      rw [finishTask_eq] at h ⊢
      generalize booked s i k t = b at hy h ⊢
      unfold afterBooked at h ⊢
      split at h
      · rcases k with _ | e'
        · dsimp only at h
          rw [hy] at h
          have := Option.some.inj h
          rw [this] at hyd
          exact absurd rfl hyd
        · simp only [setPc] at h
          rw [List.getElem?_set] at h
          split at h
          · split at h <;> simp at h
          · rw [hy] at h
            have := Option.some.inj h
            rw [this] at hyd
            exact absurd rfl hyd
      · rename_i hth
        rw [if_neg hth, (loopIter_usage b i k).1]
        exact worker_done_enter hy hyd h
    · cases hs
  | post t w =>
    dsimp only at hs
    split at hs
    · split at hs
      · cases hs; exact absurd h (hne _ hx)
      · cases hs
    · split at hs
      · cases hs; exact absurd h (hsetne _ _ _ _ hx (by simp))
      · cases hs
  | stop =>
    cases hs
    dsimp only at h
    rw [List.getElem?_map, hx] at h
    have := Option.some.inj h
    unfold wake at this
    split at this
    · have h2 := congrArg Thr.pc this
      cases h2
    · rw [this] at hnd; exact absurd rfl hnd
  | join e' =>
    cases hs
    dsimp only at h
    have hlt : j < s.threads.length := (List.getElem?_eq_some_iff.1 hx).1
    rw [List.getElem?_append_left hlt] at h
    exact absurd h (hne _ hx)
  | spurious i =>
    dsimp only at hs
    split at hs
    · cases hs; exact absurd h (hsetne _ _ _ _ hx (by simp))
    · cases hs

/-- C62. In proper use a worker ends only when everything posted so far has been executed. -/
theorem C62_worker_end {n : Nat} {es : List Event} {s s' : State} {ev : Event} {j : Nat} {x : Thr}
    (hp : Proper n (es ++ [ev])) (hr : run (init n) es = some s) (hs : step s ev = some s')
    (hx : s.threads[j]? = some x) (hnd : x.pc ≠ .done) (h : s'.threads[j]? = some ⟨.worker, .done⟩) :
    s'.executed.Perm (posted (es ++ [ev])) := by
  have hr' : run (init n) (es ++ [ev]) = some s' := by
    rw [run_append, hr]
    simp only [Option.bind_some, run, hs]
  obtain ⟨hq, hrn⟩ := fin_strong hp hr' (worker_done_step hs hx hnd h)
  have := C60_at_most_once hr'
  rwa [hq, hrn, List.append_nil, List.append_nil] at this

private theorem stopsOk_prefix {s : State} {a b : List Event} (h : StopsOk s (a ++ b)) : StopsOk s a := by
  induction a generalizing s with
  | nil => trivial
  | cons ev a ih => exact ⟨h.1, fun s' hs => ih (h.2 s' hs)⟩

private theorem proper_prefix {n : Nat} {a b : List Event} (h : Proper n (a ++ b)) : Proper n a := by
  rcases h with h | h
  · left
    intro t ht
    exact h t (by rw [posted_append]; exact List.mem_append_left _ ht)
  · exact Or.inr (stopsOk_prefix h)

/-- C62. After the (single) stop, if nothing more is posted, the pool runs until every worker has ended: no state in
which a worker is left is without a possible step. With `C61_terminates` the destructor of the pool returns. -/
theorem C62_stop_ends_workers {n : Nat} {es es' : List Event} {s : State} (hp : Proper n (es ++ .stop :: es'))
    (h1 : .stop ∉ es) (h2 : .stop ∉ es') (h3 : posted es' = []) (hr : run (init n) (es ++ .stop :: es') = some s)
    (hc : s.crashed = false) (hq : Quiescent s) : ∀ x ∈ s.threads, x.kind = .worker → x.pc = .done ∨ x.pc = .threw := by
  obtain ⟨hinv, hl, hf⟩ := proper_run hp hr
  obtain ⟨hnr, hrn⟩ := no_own_no_active hc hq
  have hr0 := hr
  rw [run_append] at hr
  rcases hra : run (init n) es with _ | sa
  · rw [hra] at hr; cases hr
  rw [hra] at hr
  simp only [Option.bind_some, run] at hr
  rcases hst : step sa .stop with _ | sb
  · rw [hst] at hr; cases hr
  rw [hst] at hr
  simp only [Option.bind_some] at hr
  have hinva := inv_run (inv_init n) hra
  obtain ⟨hba, hsa⟩ := started_run (inv_init n) (by rintro (h | h) <;> cases h) (Or.inl rfl) h1 hra
  have hsb : Busy sb ∧ Stopped sb := by
    unfold step at hst
    split at hst
    · cases hst
    · cases hst
      constructor
      · intro hu
        dsimp only at hu ⊢
        split at hu
        · rcases hu with hu | hu <;> cases hu
        · rename_i hnr
          exact hba (Or.inl (by
            rcases hsa with h | h
            · exact absurd h hnr
            · exact h))
      · unfold Stopped
        dsimp only
        split
        · exact Or.inl rfl
        · exact Or.inr rfl
  have hrs : ∀ a, run (init n) (es ++ .stop :: a) = run sb a := by
    intro a
    rw [run_append, hra]
    simp only [Option.bind_some, run, hst]
  have hfin : ∀ a b s1, es' = a ++ b → run sb a = some s1 → s1.usage = .finished → running s1.threads = [] := by
    intro a b s1 hab hra1 hf1
    have hpa : Proper n (es ++ .stop :: a) := by
      apply proper_prefix (b := b)
      have : es ++ .stop :: es' = es ++ .stop :: a ++ b := by rw [hab]; simp
      rw [← this]; exact hp
    exact (fin_strong hpa ((hrs a).trans hra1) hf1).2
  obtain ⟨hbs, hss⟩ := stopped_run (inv_step hinva hst) hsb.1 hsb.2 hfin h2 h3 hr
  intro x hx hk
  apply Classical.byContradiction
  intro hno
  have hw : x.pc = .waiting := by
    rcases hpc : x.pc with _ | _ | t | _ | _
    · exact absurd hpc (hnr x hx)
    · rfl
    · exfalso
      obtain ⟨i, hi⟩ := List.getElem?_of_mem hx
      have : t ∈ running s.threads := running_mem (k := x.kind) (i := i) (by rw [hi, ← hpc])
      rw [hrn] at this
      cases this
    · exact absurd (Or.inl hpc) hno
    · exact absurd (Or.inr hpc) hno
  have hqe := quiet_queue hl hnr ⟨x, hx, hw⟩
  rcases hss with h | h
  · exact hl.fw h x hx hk hw
  · obtain ⟨e, he⟩ := hbs (Or.inr h)
    rw [hinv.cnt' e, hrn, hqe] at he
    cases he

/-- Non-vacuity of both: stop while a task is running; the worker ends the task, then itself. -/
example : (let es : List Event := [.post ⟨1, 0⟩ none, .enter 0, .stop]
    (run (init 1) es).isSome = true ∧ (PoolEx.st 1 es).threads[0]? = some ⟨.worker, .running ⟨1, 0⟩⟩ ∧
    (PoolEx.st 1 (es ++ [.finish 0 false])).threads[0]? = some ⟨.worker, .done⟩) := by decide

/-- Why the lifetime rule matters: with two executors the pool counts as idle as soon as one of them is; a stop then
ends the workers although a task of the other executor is still queued. -/
theorem C62_two_executors_refuted : ∃ (es : List Event) (s : State), run (init 1) es = some s ∧ s.queue = [⟨2, 1⟩] ∧
    s.threads = [⟨.worker, .done⟩, ⟨.joiner 0, .done⟩] :=
  ⟨[.post ⟨1, 0⟩ none, .post ⟨2, 1⟩ none, .join 0, .enter 1, .stop, .finish 1 false, .enter 0],
    PoolEx.st 1 [.post ⟨1, 0⟩ none, .post ⟨2, 1⟩ none, .join 0, .enter 1, .stop, .finish 1 false, .enter 0],
    rfl, by decide, by decide⟩

/-- A task posted after the stop (for instance by a task that is still running) cancels the stop: the worker goes back to waiting
and never ends, so the destructor of the pool does not return. -/
theorem C62_post_after_stop_hangs : ∃ (es : List Event) (s : State), run (init 1) es = some s ∧ .stop ∈ es ∧
    (∀ t ∈ posted es, t.exec = 0) ∧ s.threads = [⟨.worker, .waiting⟩] ∧ Quiescent s := by
  refine ⟨[.post ⟨1, 0⟩ none, .enter 0, .stop, .post ⟨2, 0⟩ none, .finish 0 false, .finish 0 false],
    PoolEx.st 1 [.post ⟨1, 0⟩ none, .enter 0, .stop, .post ⟨2, 0⟩ none, .finish 0 false, .finish 0 false],
    rfl, by decide, by decide, by decide, ?_⟩
  have ht : (PoolEx.st 1 [.post ⟨1, 0⟩ none, .enter 0, .stop, .post ⟨2, 0⟩ none, .finish 0 false,
    .finish 0 false]).threads = [⟨.worker, .waiting⟩] := by decide
  intro ev ho
  cases ev with
  | enter i =>
    unfold step
    split
    · rfl
    · dsimp only
      rw [ht]
      rcases i with _ | i <;> simp
  | finish i b =>
    unfold step
    split
    · rfl
    · dsimp only
      rw [ht]
      rcases i with _ | i <;> simp
  | post t w => cases ho
  | stop => cases ho
  | join e => cases ho
  | spurious i => cases ho

end Knp.Props
