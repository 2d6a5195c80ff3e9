import Verif.Spec.ThreadPool

namespace Knp.Lemmas.Pool
open Knp.Pool Knp.Spec.Pool

/-! ## Lists of threads -/

def runOf (p : Pc) : List Task :=
  match p with
  | .running t => [t]
  | _ => []

theorem running_cons (x : Thr) (l : List Thr) : running (x :: l) = runOf x.pc ++ running l := by
  rcases x with ⟨k, p⟩
  cases p <;> rfl

theorem running_append (a b : List Thr) : running (a ++ b) = running a ++ running b := by
  induction a with
  | nil => rfl
  | cons x a ih => rw [List.cons_append, running_cons, running_cons, ih, List.append_assoc]

theorem running_wake (l : List Thr) : running (l.map wake) = running l := by
  induction l with
  | nil => rfl
  | cons x l ih =>
    rw [List.map_cons, running_cons, running_cons, ih]
    congr 1
    unfold wake
    split
    · rename_i h; rw [h]; rfl
    · rfl

theorem running_set {l : List Thr} {i : Nat} {y : Thr} (h : l[i]? = some y) (x : Thr) :
    (runOf y.pc ++ running (l.set i x)).Perm (runOf x.pc ++ running l) := by
  induction l generalizing i with
  | nil => simp at h
  | cons z l ih =>
    cases i with
    | zero =>
      simp at h
      subst h
      rw [List.set_cons_zero, running_cons, running_cons, ← List.append_assoc, ← List.append_assoc]
      exact List.Perm.append_right _ List.perm_append_comm
    | succ i =>
      simp at h
      rw [List.set_cons_succ, running_cons, running_cons]
      have := ih h
      refine (List.perm_append_comm_assoc _ _ _).trans ?_
      refine (List.Perm.append_left _ this).trans ?_
      exact List.perm_append_comm_assoc _ _ _

/-- number of tasks being executed -/
theorem running_set_length {l : List Thr} {i : Nat} {y : Thr} (h : l[i]? = some y) (x : Thr) :
    (runOf y.pc).length + (running (l.set i x)).length = (runOf x.pc).length + (running l).length := by
  have := (running_set h x).length_eq
  simpa using this

theorem mem_running {l : List Thr} {t : Task} (h : t ∈ running l) : ∃ (i : Nat) (k : Kind), l[i]? = some ⟨k, .running t⟩ := by
  induction l with
  | nil => cases h
  | cons x l ih =>
    rw [running_cons, List.mem_append] at h
    rcases h with h | h
    · rcases x with ⟨k, p⟩
      cases p <;> simp [runOf] at h
      subst h
      exact ⟨0, k, rfl⟩
    · obtain ⟨i, k, hi⟩ := ih h
      exact ⟨i + 1, k, by simpa using hi⟩

/-- counting threads with a property -/
theorem countP_set {p : Thr → Bool} {l : List Thr} {i : Nat} {y : Thr} (h : l[i]? = some y) (x : Thr) :
    (p y).toNat + (l.set i x).countP p = (p x).toNat + l.countP p := by
  induction l generalizing i with
  | nil => simp at h
  | cons z l ih =>
    cases i with
    | zero =>
      simp at h
      subst h
      rw [List.set_cons_zero, List.countP_cons, List.countP_cons]
      cases p z <;> cases p x <;> simp <;> omega
    | succ i =>
      simp at h
      rw [List.set_cons_succ, List.countP_cons, List.countP_cons]
      have := ih h
      omega

/-! ## Events and posted tasks -/

theorem posted_append (a b : List Event) : posted (a ++ b) = posted a ++ posted b := by
  induction a with
  | nil => rfl
  | cons ev a ih => cases ev <;> simp [posted, ih]

def postedBy : Event → List Task
  | .post t _ => [t]
  | _ => []

theorem posted_cons (ev : Event) (es : List Event) : posted (ev :: es) = postedBy ev ++ posted es := by
  cases ev <;> rfl

/-! ## Accounting invariant -/

/-- `P`: everything posted so far. -/
structure Inv (P : List Task) (s : State) : Prop where
  fifo : s.started ++ s.queue = P
  runs : s.started.Perm (s.executed ++ running s.threads)
  cnt : ∀ e, s.count e + (ofExec e s.executed).length = (ofExec e P).length

theorem Inv.cnt' {P : List Task} {s : State} (h : Inv P s) (e : Nat) :
    s.count e = (ofExec e (running s.threads)).length + (ofExec e s.queue).length := by
  have h1 := h.cnt e
  have h2 : (ofExec e P).length = (ofExec e s.started).length + (ofExec e s.queue).length := by
    rw [← h.fifo]; unfold ofExec; rw [List.filter_append, List.length_append]
  have h3 : (ofExec e s.started).length = (ofExec e s.executed).length + (ofExec e (running s.threads)).length := by
    unfold ofExec
    rw [← List.length_append, ← List.filter_append]
    exact (h.runs.filter _).length_eq
  omega

theorem inv_init (n : Nat) : Inv [] (init n) := by
  have hr : ∀ n, running (List.replicate n ⟨.worker, .ready⟩) = [] := by
    intro n
    induction n with
    | zero => rfl
    | succ n ih => rw [List.replicate_succ, running_cons, ih]; rfl
  exact ⟨rfl, by simp [init, hr], by intro e; rfl⟩

theorem inv_threads {P : List Task} {s : State} {l : List Thr} {u : Usage} (h : Inv P s)
    (hl : (running l).Perm (running s.threads)) : Inv P { s with threads := l, usage := u } :=
  ⟨h.fifo, h.runs.trans (List.Perm.append_left _ hl.symm), h.cnt⟩

theorem inv_setPc {P : List Task} {s : State} {i : Nat} {k : Kind} {y : Thr} {p : Pc} (h : Inv P s)
    (hi : s.threads[i]? = some y) (hy : runOf y.pc = []) (hp : runOf p = []) : Inv P (setPc s i k p) := by
  have := running_set hi ⟨k, p⟩
  rw [hy] at this
  dsimp only at this
  rw [hp] at this
  exact inv_threads (u := s.usage) h this

theorem inv_takeOrWait {P : List Task} {s : State} {i : Nat} {k : Kind} {y : Thr} (h : Inv P s)
    (hi : s.threads[i]? = some y) (hy : runOf y.pc = []) : Inv P (takeOrWait s i k) := by
  unfold takeOrWait
  split
  · exact inv_setPc h hi hy rfl
  · rename_i t q hq
    refine ⟨?_, ?_, h.cnt⟩
    · simp only [setPc]
      rw [List.append_assoc, List.singleton_append, ← hq]
      exact h.fifo
    · simp only [setPc]
      have hs := running_set hi ⟨k, .running t⟩
      rw [hy] at hs
      simp only [List.nil_append, runOf] at hs
      have h1 : (s.started ++ [t]).Perm (s.executed ++ running s.threads ++ [t]) := List.Perm.append_right _ h.runs
      refine h1.trans ?_
      rw [List.append_assoc]
      exact List.Perm.append_left _ (List.perm_append_comm.trans hs.symm)

theorem inv_loopIter {P : List Task} {s : State} {i : Nat} {k : Kind} {y : Thr} (h : Inv P s)
    (hi : s.threads[i]? = some y) (hy : runOf y.pc = []) : Inv P (loopIter s i k) := by
  unfold loopIter
  rcases k with _ | e
  · dsimp only
    split
    · exact inv_setPc h hi hy rfl
    · exact inv_takeOrWait h hi hy
  · dsimp only
    split
    · exact inv_setPc h hi hy rfl
    · exact inv_takeOrWait h hi hy

/-- The state inside `finishTask` after the bookkeeping. -/
def booked (s : State) (i : Nat) (k : Kind) (t : Task) : State :=
  workFinished t.exec { s with executed := s.executed ++ [t], threads := s.threads.set i ⟨k, .ready⟩ }

/-- What follows the bookkeeping. -/
def afterBooked (b : State) (i : Nat) (k : Kind) (throws : Bool) : State :=
  if throws then
    match k with
    | .worker => { b with crashed := true }
    | .joiner _ => setPc b i k .threw
  else loopIter b i k

theorem finishTask_eq (s : State) (i : Nat) (k : Kind) (t : Task) (throws : Bool) :
    finishTask s i k t throws = afterBooked (booked s i k t) i k throws := rfl

theorem ofExec_pos {e : Nat} {t : Task} {l : List Task} (h : t ∈ l) (he : t.exec = e) : 0 < (ofExec e l).length := by
  apply List.length_pos_of_mem (a := t)
  simp [ofExec, h, he]

theorem running_mem {l : List Thr} {i : Nat} {k : Kind} {t : Task} (h : l[i]? = some ⟨k, .running t⟩) : t ∈ running l := by
  have := running_set h ⟨k, .ready⟩
  exact (this.mem_iff.1 (by simp [runOf]))

theorem inv_booked {P : List Task} {s : State} {i : Nat} {k : Kind} {t : Task} (h : Inv P s)
    (hi : s.threads[i]? = some ⟨k, .running t⟩) : Inv P (booked s i k t) := by
  have hpos : 0 < s.count t.exec := by
    rw [h.cnt' t.exec]
    have := ofExec_pos (running_mem hi) (rfl : t.exec = t.exec)
    omega
  have base : Inv P { s with executed := s.executed ++ [t], threads := s.threads.set i ⟨k, .ready⟩, count := bump s.count t.exec (s.count t.exec - 1) } := by
    refine ⟨h.fifo, ?_, ?_⟩
    · dsimp only
      have hs := running_set hi ⟨k, .ready⟩
      simp only [runOf, List.nil_append] at hs
      refine h.runs.trans ?_
      rw [List.append_assoc]
      exact List.Perm.append_left _ hs.symm
    · intro e
      have := h.cnt e
      unfold ofExec at this ⊢
      dsimp only [bump]
      rw [List.filter_append, List.length_append]
      by_cases he : e = t.exec
      · subst he
        simp
        omega
      · rw [if_neg he]
        have : (t.exec = e) ↔ False := ⟨fun h => he h.symm, False.elim⟩
        simp [this]
        omega
  unfold booked workFinished
  dsimp only
  split
  · exact inv_threads base (by rw [running_wake])
  · exact base

theorem booked_thread {s : State} {i : Nat} {k : Kind} {t : Task} (hi : s.threads[i]? = some ⟨k, .running t⟩) :
    (booked s i k t).threads[i]? = some ⟨k, .ready⟩ := by
  have hlt : i < s.threads.length := (List.getElem?_eq_some_iff.1 hi).1
  unfold booked workFinished
  dsimp only
  split
  · rw [List.getElem?_map, List.getElem?_set_self hlt]; rfl
  · rw [List.getElem?_set_self hlt]

theorem inv_step {P : List Task} {s s' : State} {ev : Event} (h : Inv P s) (hs : step s ev = some s') :
    Inv (P ++ postedBy ev) s' := by
  unfold step at hs
  split at hs
  · cases hs
  cases ev with
  | enter i =>
    simp only [postedBy, List.append_nil]
    dsimp only at hs
    split at hs
    · rename_i k hi; cases hs; exact inv_loopIter h hi rfl
    · cases hs
  | finish i throws =>
    simp only [postedBy, List.append_nil]
    dsimp only at hs
    split at hs
    · rename_i k t hi
      cases hs
      have hb := inv_booked h hi
      have hbt := booked_thread hi
      unfold finishTask
      dsimp only
      change Inv P (if throws = true then _ else loopIter (booked s i k t) i k)
      split
      · rcases k with _ | e
        · exact ⟨hb.fifo, hb.runs, hb.cnt⟩
        · exact inv_setPc hb hbt rfl rfl
      · exact inv_loopIter hb hbt rfl
    · cases hs
  | post t w =>
    simp only [postedBy]
    have hb : Inv (P ++ [t]) (workStarted t.exec { s with queue := s.queue ++ [t] }) := by
      refine ⟨?_, h.runs, ?_⟩
      · show s.started ++ (s.queue ++ [t]) = _
        rw [← List.append_assoc, h.fifo]
      · intro e
        have := h.cnt e
        unfold ofExec at this ⊢
        dsimp only [workStarted, bump]
        rw [List.filter_append, List.length_append]
        by_cases he : e = t.exec
        · subst he
          simp
          omega
        · rw [if_neg he]
          have h2 : (t.exec = e) ↔ False := ⟨fun h => he h.symm, False.elim⟩
          simp [h2]
          omega
    dsimp only at hs
    split at hs
    · split at hs
      · cases hs; exact hb
      · cases hs
    · split at hs
      · rename_i k hi
        cases hs
        exact inv_setPc hb hi rfl rfl
      · cases hs
  | stop =>
    simp only [postedBy, List.append_nil]
    cases hs
    exact inv_threads h (by rw [running_wake])
  | join e =>
    simp only [postedBy, List.append_nil]
    cases hs
    exact inv_threads (u := s.usage) h (by rw [running_append]; simp [running])
  | spurious i =>
    simp only [postedBy, List.append_nil]
    dsimp only at hs
    split at hs
    · rename_i k hi; cases hs; exact inv_setPc h hi rfl rfl
    · cases hs

theorem inv_run {P : List Task} {s s' : State} {es : List Event} (h : Inv P s) (hs : run s es = some s') :
    Inv (P ++ posted es) s' := by
  induction es generalizing s P with
  | nil => cases hs; simpa [posted] using h
  | cons ev es ih =>
    unfold run at hs
    rcases hst : step s ev with _ | s1
    · rw [hst] at hs; cases hs
    · rw [hst] at hs
      have := ih (inv_step h hst) hs
      rwa [List.append_assoc, ← posted_cons] at this

theorem run_append {s : State} {a b : List Event} : run s (a ++ b) = (run s a).bind (fun s' => run s' b) := by
  induction a generalizing s with
  | nil => rfl
  | cons ev a ih =>
    simp only [List.cons_append, run]
    rcases step s ev with _ | s1
    · rfl
    · exact ih

/-! ## The wake-up invariant -/

/-- A woken thread that will look at the queue: a worker, or a joiner whose executor still has tasks. -/
def useful (c : Nat → Nat) (x : Thr) : Bool :=
  x.pc == .ready && (match x.kind with | .worker => true | .joiner e => decide (0 < c e))

def SomeWaiting (l : List Thr) : Prop := ∃ x ∈ l, x.pc = .waiting

/-- Every wait has a reason, every queued task has a woken thread. -/
structure Live (s : State) : Prop where
  sig : SomeWaiting s.threads → s.queue.length ≤ s.threads.countP (useful s.count)
  jw : ∀ x ∈ s.threads, x.pc = .waiting → ∀ e, x.kind = .joiner e → 0 < s.count e
  fw : s.usage = .finished → ∀ x ∈ s.threads, x.kind = .worker → x.pc ≠ .waiting

/-- A finished pool has nothing left to do. -/
def Fin (s : State) : Prop := s.usage = .finished → s.queue = []

theorem live_init (n : Nat) : Live (init n) := by
  have h : ∀ x ∈ (init n).threads, x.pc = .ready := by
    intro x hx
    rw [(List.mem_replicate.1 hx).2]
  have h' : ∀ x ∈ (init n).threads, x.pc ≠ .waiting := fun x hx hw => by rw [h x hx] at hw; cases hw
  exact ⟨fun ⟨x, hx, hw⟩ => absurd hw (h' x hx), fun x hx hw => absurd hw (h' x hx), fun _ x hx _ => h' x hx⟩

theorem wake_not_waiting {l : List Thr} : ∀ x ∈ l.map wake, x.pc ≠ .waiting := by
  intro x hx
  obtain ⟨y, _, rfl⟩ := List.mem_map.1 hx
  unfold wake
  split
  · simp
  · assumption

theorem live_all_awake {s : State} (h : ∀ x ∈ s.threads, x.pc ≠ .waiting) : Live s :=
  ⟨fun ⟨x, hx, hw⟩ => absurd hw (h x hx), fun x hx hw => absurd hw (h x hx), fun _ x hx _ => h x hx⟩

theorem mem_set_cases {l : List Thr} {i : Nat} {x y : Thr} (h : x ∈ l.set i y) : x = y ∨ x ∈ l := by
  rcases List.mem_or_eq_of_mem_set h with h | h
  · exact Or.inr h
  · exact Or.inl h

/-- Changing one thread to a state that is not waiting keeps the wait conditions. -/
theorem waits_set {s : State} {i : Nat} {k : Kind} {p : Pc} (h : Live s) (hp : p ≠ .waiting) :
    (∀ x ∈ s.threads.set i ⟨k, p⟩, x.pc = .waiting → ∀ e, x.kind = .joiner e → 0 < s.count e) ∧
    (s.usage = .finished → ∀ x ∈ s.threads.set i ⟨k, p⟩, x.kind = .worker → x.pc ≠ .waiting) ∧
    (SomeWaiting (s.threads.set i ⟨k, p⟩) → SomeWaiting s.threads) := by
  refine ⟨?_, ?_, ?_⟩
  · intro x hx hw
    rcases mem_set_cases hx with rfl | hx
    · exact absurd hw hp
    · exact h.jw x hx hw
  · intro hf x hx
    rcases mem_set_cases hx with rfl | hx
    · exact fun _ => hp
    · exact h.fw hf x hx
  · rintro ⟨x, hx, hw⟩
    rcases mem_set_cases hx with rfl | hx
    · exact absurd hw hp
    · exact ⟨x, hx, hw⟩

theorem live_takeOrWait {s : State} {i : Nat} {k : Kind} (h : Live s) (hi : s.threads[i]? = some ⟨k, .ready⟩)
    (hu : useful s.count ⟨k, .ready⟩ = true) (hf : k = .worker → s.usage ≠ .finished) : Live (takeOrWait s i k) := by
  unfold takeOrWait
  split
  · rename_i hq
    refine ⟨?_, ?_, ?_⟩
    · intro _; simp [setPc, hq]
    · intro x hx hw e he
      simp only [setPc] at hx ⊢
      rcases mem_set_cases hx with rfl | hx
      · dsimp only at he
        subst he
        simpa [useful] using hu
      · exact h.jw x hx hw e he
    · intro hfin x hx hk
      simp only [setPc] at hx hfin
      rcases mem_set_cases hx with rfl | hx
      · exact absurd hfin (hf hk)
      · exact h.fw hfin x hx hk
  · rename_i t q hq
    obtain ⟨w1, w2, w3⟩ := waits_set (i := i) (k := k) (p := .running t) h (by simp)
    refine ⟨?_, w1, w2⟩
    intro hw
    have h1 := h.sig (w3 hw)
    have h2 := countP_set (p := useful s.count) hi ⟨k, .running t⟩
    rw [hu] at h2
    have h3 : useful s.count ⟨k, .running t⟩ = false := by simp [useful]
    rw [h3] at h2
    rw [hq, List.length_cons] at h1
    simp only [setPc]
    simp at h2
    omega

theorem live_loopIter {s : State} {i : Nat} {k : Kind} (h : Live s) (hfin : Fin s)
    (hi : s.threads[i]? = some ⟨k, .ready⟩) : Live (loopIter s i k) := by
  have hdone : (useful s.count ⟨k, .ready⟩ = false ∨ s.queue = []) → Live (setPc s i k .done) := by
    intro hc
    obtain ⟨w1, w2, w3⟩ := waits_set (i := i) (k := k) (p := .done) h (by simp)
    refine ⟨?_, w1, w2⟩
    intro hw
    rcases hc with hc | hc
    · have h1 := h.sig (w3 hw)
      have h2 := countP_set (p := useful s.count) hi ⟨k, .done⟩
      rw [hc] at h2
      have h3 : useful s.count ⟨k, .done⟩ = false := by simp [useful]
      rw [h3] at h2
      simp only [setPc]
      omega
    · simp [setPc, hc]
  unfold loopIter
  rcases k with _ | e
  · dsimp only
    split
    · rename_i hf; exact hdone (Or.inr (hfin hf))
    · rename_i hf; exact live_takeOrWait h hi (by simp [useful]) (fun _ => hf)
  · dsimp only
    split
    · rename_i hc; exact hdone (Or.inl (by simp [useful, hc]))
    · rename_i hc; exact live_takeOrWait h hi (by simp [useful]; omega) (fun hk => by cases hk)

theorem booked_live {P : List Task} {s : State} {i : Nat} {k : Kind} {t : Task} (hinv : Inv P s) (h : Live s)
    (hi : s.threads[i]? = some ⟨k, .running t⟩) :
    Live (booked s i k t) ∧ (SomeWaiting (booked s i k t).threads → (booked s i k t).queue.length +
      (useful (booked s i k t).count ⟨k, .ready⟩).toNat ≤ (booked s i k t).threads.countP (useful (booked s i k t).count)) := by
  have hpos : 0 < s.count t.exec := by
    rw [hinv.cnt' t.exec]
    have := ofExec_pos (running_mem hi) (rfl : t.exec = t.exec)
    omega
  unfold booked workFinished
  dsimp only
  split
  · refine ⟨live_all_awake wake_not_waiting, ?_⟩
    rintro ⟨x, hx, hw⟩
    exact absurd hw (wake_not_waiting x hx)
  · rename_i hz
    have hzero : ∀ e, (0 < bump s.count t.exec (s.count t.exec - 1) e) ↔ 0 < s.count e := by
      intro e
      unfold bump
      split
      · rename_i he; subst he; omega
      · rfl
    have huse : useful (bump s.count t.exec (s.count t.exec - 1)) = useful s.count := by
      funext x
      unfold useful
      rcases x with ⟨kx, px⟩
      rcases kx with _ | e
      · rfl
      · simp only [hzero]
    obtain ⟨w1, w2, w3⟩ := waits_set (i := i) (k := k) (p := .ready) h (by simp)
    have key : SomeWaiting (s.threads.set i ⟨k, .ready⟩) → s.queue.length + (useful s.count ⟨k, .ready⟩).toNat ≤
        (s.threads.set i ⟨k, .ready⟩).countP (useful s.count) := by
      intro hw
      have h1 := h.sig (w3 hw)
      have h2 := countP_set (p := useful s.count) hi ⟨k, .ready⟩
      have h3 : useful s.count ⟨k, .running t⟩ = false := by simp [useful]
      rw [h3] at h2
      simp at h2
      omega
    refine ⟨⟨?_, ?_, w2⟩, ?_⟩
    · intro hw
      dsimp only
      rw [huse]
      have := key hw
      omega
    · intro x hx hw e he
      exact (hzero e).2 (w1 x hx hw e he)
    · dsimp only
      rw [huse]
      exact key

theorem live_step {P : List Task} {s s' : State} {ev : Event} (hinv : Inv P s) (h : Live s) (hfin : Fin s)
    (hfin' : ∀ i k t, s.threads[i]? = some ⟨k, .running t⟩ → Fin (booked s i k t)) (hs : step s ev = some s') : Live s' := by
  unfold step at hs
  split at hs
  · cases hs
  cases ev with
  | enter i =>
    dsimp only at hs
    split at hs
    · rename_i k hi; cases hs; exact live_loopIter h hfin hi
    · cases hs
  | finish i throws =>
    dsimp only at hs
    split at hs
    · rename_i k t hi
      cases hs
      obtain ⟨hb, hb2⟩ := booked_live hinv h hi
      have hbt := booked_thread hi
      have hbf := hfin' i k t hi
      unfold finishTask
      dsimp only
      change Live (if throws = true then _ else loopIter (booked s i k t) i k)
      split
      · rcases k with _ | e
        · exact ⟨hb.sig, hb.jw, hb.fw⟩
        · change Live (setPc (booked s i (.joiner e) t) i (.joiner e) .threw)
          generalize booked s i (.joiner e) t = b at hb hb2 hbt
          obtain ⟨w1, w2, w3⟩ := waits_set (i := i) (k := .joiner e) (p := .threw) hb (by simp)
          refine ⟨?_, w1, w2⟩
          intro hw
          have h1 := hb2 (w3 hw)
          have h2 := countP_set (p := useful b.count) hbt ⟨.joiner e, .threw⟩
          have h3 : useful b.count ⟨.joiner e, .threw⟩ = false := by simp [useful]
          rw [h3] at h2
          simp only [setPc]
          simp at h2
          omega
      · exact live_loopIter hb hbf hbt
    · cases hs
  | post t w =>
    have hmono : ∀ x : Thr, useful s.count x = true → useful (bump s.count t.exec (s.count t.exec + 1)) x = true := by
      intro x hx
      unfold useful at hx ⊢
      rcases x with ⟨kx, px⟩
      rcases kx with _ | e
      · exact hx
      · simp only [Bool.and_eq_true, decide_eq_true_eq, bump] at hx ⊢
        refine ⟨hx.1, ?_⟩
        have := hx.2
        by_cases he : e = t.exec
        · simp [he]
        · simp [he, this]
    have hle : s.threads.countP (useful s.count) ≤
        s.threads.countP (useful (bump s.count t.exec (s.count t.exec + 1))) :=
      List.countP_mono_left (fun x _ hx => hmono x hx)
    have hjw : ∀ x ∈ s.threads, x.pc = .waiting → ∀ e, x.kind = .joiner e →
        0 < bump s.count t.exec (s.count t.exec + 1) e := by
      intro x hx hw e he
      have := h.jw x hx hw e he
      unfold bump
      split <;> omega
    dsimp only at hs
    split at hs
    · split at hs
      · rename_i hall
        cases hs
        apply live_all_awake
        intro x hx
        have := List.all_eq_true.1 hall x hx
        simpa using this
      · cases hs
    · rename_i j
      split at hs
      · rename_i k hi
        cases hs
        have hx : (⟨k, .waiting⟩ : Thr) ∈ s.threads := List.mem_of_getElem? hi
        refine ⟨?_, ?_, ?_⟩
        · intro _
          have h1 := h.sig ⟨_, hx, rfl⟩
          simp only [setPc, workStarted, List.length_append, List.length_singleton]
          have h2 := countP_set (p := useful (bump s.count t.exec (s.count t.exec + 1))) hi ⟨k, .ready⟩
          have h3 : useful (bump s.count t.exec (s.count t.exec + 1)) ⟨k, .waiting⟩ = false := by simp [useful]
          have h4 : useful (bump s.count t.exec (s.count t.exec + 1)) ⟨k, .ready⟩ = true := by
            unfold useful
            rcases k with _ | e
            · rfl
            · have := hjw _ hx rfl e rfl
              simp [this]
          rw [h3, h4] at h2
          simp at h2
          omega
        · intro y hy hw e he
          simp only [setPc, workStarted] at hy ⊢
          rcases mem_set_cases hy with rfl | hy
          · cases hw
          · exact hjw y hy hw e he
        · intro hf; simp [setPc, workStarted] at hf
      · cases hs
  | stop =>
    cases hs
    exact live_all_awake wake_not_waiting
  | join e =>
    cases hs
    refine ⟨?_, ?_, ?_⟩
    · rintro ⟨x, hx, hw⟩
      have hx' : x ∈ s.threads := by
        rcases List.mem_append.1 hx with hx | hx
        · exact hx
        · simp at hx; subst hx; cases hw
      have := h.sig ⟨x, hx', hw⟩
      simp only [List.countP_append]
      omega
    · intro x hx hw e' he
      rcases List.mem_append.1 hx with hx | hx
      · exact h.jw x hx hw e' he
      · simp at hx; subst hx; cases hw
    · intro hf x hx hk
      rcases List.mem_append.1 hx with hx | hx
      · exact h.fw hf x hx hk
      · simp at hx; subst hx; simp
  | spurious i =>
    dsimp only at hs
    split at hs
    · rename_i k hi
      cases hs
      obtain ⟨w1, w2, w3⟩ := waits_set (i := i) (k := k) (p := .ready) h (by simp)
      refine ⟨?_, w1, w2⟩
      intro hw
      have h1 := h.sig (w3 hw)
      have h2 := countP_set (p := useful s.count) hi ⟨k, .ready⟩
      have h3 : useful s.count ⟨k, .waiting⟩ = false := by simp [useful]
      rw [h3] at h2
      simp only [setPc]
      simp at h2
      omega
    · cases hs

/-! ## When the pool is finished there is nothing queued -/

/-- One executor. -/
def USingle (s : State) : Prop := (s.usage = .ready ∨ s.usage = .finished) → s.count 0 = 0

/-- Several executors, `stop` only when all have been joined. -/
def UMulti (s : State) : Prop := (s.usage = .finished ∨ s.usage = .stopping) → ∀ e, s.count e = 0

theorem loopIter_usage (s : State) (i : Nat) (k : Kind) :
    (loopIter s i k).usage = s.usage ∧ (loopIter s i k).count = s.count := by
  unfold loopIter takeOrWait
  rcases k with _ | e <;> dsimp only
  · split
    · exact ⟨rfl, rfl⟩
    · split <;> exact ⟨rfl, rfl⟩
  · split
    · exact ⟨rfl, rfl⟩
    · split <;> exact ⟨rfl, rfl⟩

/-- Properties of usage and counters only. -/
theorem usage_step {P : List Task} {s s' : State} {ev : Event} (Q : Usage → (Nat → Nat) → Prop) (_ : Inv P s)
    (hq : Q s.usage s.count)
    (hb : ∀ i k t, s.threads[i]? = some ⟨k, .running t⟩ → Q (booked s i k t).usage (booked s i k t).count)
    (hpost : ∀ t w, ev = .post t w → Q .working (bump s.count t.exec (s.count t.exec + 1)))
    (hstop : ev = .stop → Q (if s.usage = .ready then .finished else .stopping) s.count)
    (hs : step s ev = some s') : Q s'.usage s'.count := by
  unfold step at hs
  split at hs
  · cases hs
  cases ev with
  | enter i =>
    dsimp only at hs
    split at hs
    · rename_i k hi
      cases hs
      rw [(loopIter_usage s i k).1, (loopIter_usage s i k).2]; exact hq
    · cases hs
  | finish i throws =>
    dsimp only at hs
    split at hs
    · rename_i k t hi
      cases hs
      have hbt := hb i k t hi
      unfold finishTask
      dsimp only
      change Q (if throws = true then _ else loopIter (booked s i k t) i k).usage
        (if throws = true then _ else loopIter (booked s i k t) i k).count
      split
      · rcases k with _ | e <;> exact hbt
      · rw [(loopIter_usage _ i k).1, (loopIter_usage _ i k).2]; exact hbt
    · cases hs
  | post t w =>
    have := hpost t w rfl
    dsimp only at hs
    split at hs
    · split at hs
      · cases hs; exact this
      · cases hs
    · split at hs
      · cases hs; exact this
      · cases hs
  | stop => cases hs; exact hstop rfl
  | join e => cases hs; exact hq
  | spurious i =>
    dsimp only at hs
    split at hs
    · cases hs; exact hq
    · cases hs

theorem booked_usage (s : State) (i : Nat) (k : Kind) (t : Task) :
    (booked s i k t).count = bump s.count t.exec (s.count t.exec - 1) ∧
    (booked s i k t).usage = (if s.count t.exec - 1 = 0 then (if s.usage = .stopping then .finished else .ready) else s.usage) ∧
    (booked s i k t).queue = s.queue := by
  unfold booked workFinished
  dsimp only
  split <;> exact ⟨rfl, rfl, rfl⟩

theorem running_pos {P : List Task} {s : State} {i : Nat} {k : Kind} {t : Task} (hinv : Inv P s)
    (hi : s.threads[i]? = some ⟨k, .running t⟩) : 0 < s.count t.exec := by
  rw [hinv.cnt' t.exec]
  have := ofExec_pos (running_mem hi) (rfl : t.exec = t.exec)
  omega

theorem running_posted {P : List Task} {s : State} {i : Nat} {k : Kind} {t : Task} (hinv : Inv P s)
    (hi : s.threads[i]? = some ⟨k, .running t⟩) : t ∈ P := by
  rw [← hinv.fifo]
  exact List.mem_append_left _ (hinv.runs.mem_iff.2 (List.mem_append_right _ (running_mem hi)))

theorem usingle_booked {P : List Task} {s : State} (hinv : Inv P s) (hP : ∀ t ∈ P, t.exec = 0) (h : USingle s)
    {i : Nat} {k : Kind} {t : Task} (hi : s.threads[i]? = some ⟨k, .running t⟩) : USingle (booked s i k t) := by
  have hpos := running_pos hinv hi
  have h0 := hP t (running_posted hinv hi)
  rw [h0] at hpos
  obtain ⟨b1, b2, _⟩ := booked_usage s i k t
  intro hu
  rw [b2] at hu
  rw [b1, h0]
  rw [h0] at hu
  simp only [bump, if_true]
  by_cases hz : s.count 0 - 1 = 0
  · exact hz
  · rw [if_neg hz] at hu
    have := h hu
    omega

theorem umulti_booked {P : List Task} {s : State} (hinv : Inv P s) (h : UMulti s)
    {i : Nat} {k : Kind} {t : Task} (hi : s.threads[i]? = some ⟨k, .running t⟩) : UMulti (booked s i k t) := by
  have hpos := running_pos hinv hi
  obtain ⟨_, b2, _⟩ := booked_usage s i k t
  have hne : ¬ (s.usage = .finished ∨ s.usage = .stopping) := fun hc => by have := h hc t.exec; omega
  intro hu
  rw [b2] at hu
  exfalso
  have hst : s.usage ≠ .stopping := fun hc => hne (Or.inr hc)
  rw [if_neg hst] at hu
  split at hu
  · rcases hu with hu | hu <;> cases hu
  · exact hne hu

theorem fin_of_single {P : List Task} {s : State} (hinv : Inv P s) (hP : ∀ t ∈ P, t.exec = 0) (h : USingle s) : Fin s := by
  intro hf
  have h0 := h (Or.inr hf)
  rw [hinv.cnt' 0] at h0
  have hq : ∀ t ∈ s.queue, t.exec = 0 := fun t ht => hP t (by rw [← hinv.fifo]; exact List.mem_append_right _ ht)
  have : ofExec 0 s.queue = s.queue := by
    unfold ofExec
    rw [List.filter_eq_self]
    intro t ht
    simp [hq t ht]
  rw [this] at h0
  apply List.eq_nil_of_length_eq_zero
  omega

theorem fin_of_multi {P : List Task} {s : State} (hinv : Inv P s) (h : UMulti s) : Fin s := by
  intro hf
  have h0 := h (Or.inl hf)
  rcases hq : s.queue with _ | ⟨t, q⟩
  · rfl
  · have := h0 t.exec
    rw [hinv.cnt' t.exec] at this
    have := ofExec_pos (e := t.exec) (t := t) (l := s.queue) (by rw [hq]; simp) rfl
    omega

theorem single_run {P : List Task} {s s' : State} {es : List Event} (hinv : Inv P s) (hl : Live s) (hu : USingle s)
    (hP : ∀ t ∈ P ++ posted es, t.exec = 0) (hs : run s es = some s') :
    Live s' ∧ USingle s' := by
  induction es generalizing s P with
  | nil => cases hs; exact ⟨hl, hu⟩
  | cons ev es ih =>
    unfold run at hs
    rcases hst : step s ev with _ | s1
    · rw [hst] at hs; cases hs
    · rw [hst] at hs
      have hP0 : ∀ t ∈ P, t.exec = 0 := fun t ht => hP t (List.mem_append_left _ ht)
      have hinv1 := inv_step hinv hst
      refine ih hinv1 ?_ ?_ ?_ hs
      · exact live_step hinv hl (fin_of_single hinv hP0 hu)
          (fun i k t hi => fin_of_single (inv_booked hinv hi) hP0 (usingle_booked hinv hP0 hu hi)) hst
      · refine usage_step (fun u c => (u = .ready ∨ u = .finished) → c 0 = 0) hinv hu
          (fun i k t hi => usingle_booked hinv hP0 hu hi) ?_ ?_ hst
        · rintro t w - (h | h) <;> cases h
        · intro _ h
          by_cases hr : s.usage = .ready
          · exact hu (Or.inl hr)
          · rw [if_neg hr] at h
            rcases h with h | h <;> cases h
      · rw [posted_cons, ← List.append_assoc] at hP
        exact hP

theorem multi_run {P : List Task} {s s' : State} {es : List Event} (hinv : Inv P s) (hl : Live s) (hu : UMulti s)
    (hok : StopsOk s es) (hs : run s es = some s') : Live s' ∧ UMulti s' := by
  induction es generalizing s P with
  | nil => cases hs; exact ⟨hl, hu⟩
  | cons ev es ih =>
    unfold run at hs
    rcases hst : step s ev with _ | s1
    · rw [hst] at hs; cases hs
    · rw [hst] at hs
      have hinv1 := inv_step hinv hst
      refine ih hinv1 ?_ ?_ (hok.2 s1 hst) hs
      · exact live_step hinv hl (fin_of_multi hinv hu)
          (fun i k t hi => fin_of_multi (inv_booked hinv hi) (umulti_booked hinv hu hi)) hst
      · refine usage_step (fun u c => (u = .finished ∨ u = .stopping) → ∀ e, c e = 0) hinv hu
          (fun i k t hi => umulti_booked hinv hu hi) ?_ ?_ hst
        · rintro t w - (h | h) <;> cases h
        · intro hev _
          exact hok.1 hev

/-- All of it for a history of a pool in proper use. -/
theorem proper_run {n : Nat} {es : List Event} {s : State} (hp : Proper n es) (hs : run (init n) es = some s) :
    Inv (posted es) s ∧ Live s ∧ Fin s := by
  have hinv := inv_run (inv_init n) hs
  rw [List.nil_append] at hinv
  rcases hp with hp | hp
  · obtain ⟨h1, h2⟩ := single_run (inv_init n) (live_init n) (by intro _; rfl) (by simpa using hp) hs
    exact ⟨hinv, h1, fin_of_single hinv hp h2⟩
  · obtain ⟨h1, h2⟩ := multi_run (inv_init n) (live_init n) (by intro _ _; rfl) hp hs
    exact ⟨hinv, h1, fin_of_multi hinv h2⟩

/-! ## Every run of the pool's own steps ends -/

def readyCount (s : State) : Nat := s.threads.countP (fun x => decide (x.pc = .ready))

def measure (s : State) : Nat :=
  (2 * s.queue.length + (running s.threads).length) * (s.threads.length + 1) + readyCount s

theorem readyCount_le (s : State) : readyCount s ≤ s.threads.length := List.countP_le_length

theorem takeOrWait_measure {s : State} {i : Nat} {k : Kind} (hi : s.threads[i]? = some ⟨k, .ready⟩) :
    measure (takeOrWait s i k) < measure s ∧ (takeOrWait s i k).threads.length = s.threads.length := by
  unfold takeOrWait
  split
  · rename_i hq
    have h1 := running_set_length hi ⟨k, .waiting⟩
    have h2 := countP_set (p := fun x : Thr => decide (x.pc = .ready)) hi ⟨k, .waiting⟩
    simp [runOf] at h1 h2
    constructor
    · simp only [measure, readyCount, setPc, List.length_set, h1]
      omega
    · simp [setPc]
  · rename_i t q hq
    have h1 := running_set_length hi ⟨k, .running t⟩
    have h2 := countP_set (p := fun x : Thr => decide (x.pc = .ready)) hi ⟨k, .running t⟩
    simp [runOf] at h1 h2
    constructor
    · simp only [measure, readyCount, setPc, List.length_set, h1, hq, List.length_cons]
      have : (2 * q.length + (1 + (running s.threads).length)) * (s.threads.length + 1) ≤
          (2 * (q.length + 1) + (running s.threads).length) * (s.threads.length + 1) :=
        Nat.mul_le_mul_right _ (by omega)
      omega
    · simp [setPc]

theorem loopIter_measure {s : State} {i : Nat} {k : Kind} (hi : s.threads[i]? = some ⟨k, .ready⟩) :
    measure (loopIter s i k) < measure s ∧ (loopIter s i k).threads.length = s.threads.length := by
  have hdone : measure (setPc s i k .done) < measure s ∧ (setPc s i k .done).threads.length = s.threads.length := by
    have h1 := running_set_length hi ⟨k, .done⟩
    have h2 := countP_set (p := fun x : Thr => decide (x.pc = .ready)) hi ⟨k, .done⟩
    simp [runOf] at h1 h2
    constructor
    · simp only [measure, readyCount, setPc, List.length_set, h1]
      omega
    · simp [setPc]
  unfold loopIter
  rcases k with _ | e <;> dsimp only
  · split
    · exact hdone
    · exact takeOrWait_measure hi
  · split
    · exact hdone
    · exact takeOrWait_measure hi

theorem booked_measure {s : State} {i : Nat} {k : Kind} {t : Task} (hi : s.threads[i]? = some ⟨k, .running t⟩) :
    measure (booked s i k t) < measure s ∧ (booked s i k t).threads.length = s.threads.length := by
  have h1 := running_set_length hi ⟨k, .ready⟩
  simp [runOf] at h1
  have hq := (booked_usage s i k t).2.2
  have hr : (running (booked s i k t).threads).length + 1 = (running s.threads).length ∧
      (booked s i k t).threads.length = s.threads.length := by
    unfold booked workFinished
    dsimp only
    split
    · dsimp only
      rw [running_wake]
      exact ⟨by omega, by simp⟩
    · exact ⟨by dsimp only; omega, by simp⟩
  refine ⟨?_, hr.2⟩
  have hle := readyCount_le (booked s i k t)
  unfold measure
  rw [hq, hr.2] at *
  have e1 : (2 * s.queue.length + (running s.threads).length) * (s.threads.length + 1) =
      (2 * s.queue.length + (running (booked s i k t).threads).length) * (s.threads.length + 1) +
        (s.threads.length + 1) := by
    rw [← hr.1, ← Nat.add_assoc, Nat.add_mul, Nat.one_mul]
  omega

theorem own_measure {s s' : State} {ev : Event} (ho : Own ev) (hs : step s ev = some s') : measure s' < measure s := by
  unfold step at hs
  split at hs
  · cases hs
  cases ev with
  | enter i =>
    dsimp only at hs
    split at hs
    · rename_i k hi; cases hs; exact (loopIter_measure hi).1
    · cases hs
  | finish i throws =>
    dsimp only at hs
    split at hs
    · rename_i k t hi
      cases hs
      have hb := (booked_measure hi).1
      have hbt := booked_thread hi
      unfold finishTask
      dsimp only
      change measure (if throws = true then _ else loopIter (booked s i k t) i k) < _
      split
      · rcases k with _ | e
        · exact hb
        · have h1 := running_set_length hbt ⟨.joiner e, .threw⟩
          have h2 := countP_set (p := fun x : Thr => decide (x.pc = .ready)) hbt ⟨.joiner e, .threw⟩
          simp [runOf] at h1 h2
          refine Nat.lt_of_le_of_lt ?_ hb
          change measure (setPc (booked s i (.joiner e) t) i (.joiner e) .threw) ≤ _
          simp only [measure, readyCount, setPc, List.length_set, h1]
          omega
      · exact Nat.lt_trans (loopIter_measure hbt).1 hb
    · cases hs
  | post t w => cases ho
  | stop => cases ho
  | join e => cases ho
  | spurious i => cases ho

/-! ## Stopping -/

/-- A finished pool has no task at all. -/
theorem fin_strong {n : Nat} {es : List Event} {s : State} (hp : Proper n es) (hs : run (init n) es = some s)
    (hf : s.usage = .finished) : s.queue = [] ∧ running s.threads = [] := by
  have hinv := inv_run (inv_init n) hs
  rw [List.nil_append] at hinv
  have hall : ∀ t ∈ running s.threads, s.count t.exec ≠ 0 := by
    intro t ht
    obtain ⟨i, k, hi⟩ := mem_running ht
    have := running_pos hinv hi
    omega
  refine ⟨(proper_run hp hs).2.2 hf, ?_⟩
  rcases hr : running s.threads with _ | ⟨t, l⟩
  · rfl
  · exfalso
    have ht : t ∈ running s.threads := by rw [hr]; simp
    apply hall t ht
    rcases hp with hp | hp
    · obtain ⟨_, h2⟩ := single_run (inv_init n) (live_init n) (by intro _; rfl) (by simpa using hp) hs
      obtain ⟨i, k, hi⟩ := mem_running ht
      rw [hp t (running_posted hinv hi)]
      exact h2 (Or.inr hf)
    · obtain ⟨_, h2⟩ := multi_run (inv_init n) (live_init n) (by intro _ _; rfl) hp hs
      exact h2 (Or.inl hf) _

/-- A pool that is at work or stopping has something to do. -/
def Busy (s : State) : Prop := (s.usage = .working ∨ s.usage = .stopping) → ∃ e, 0 < s.count e

theorem busy_booked {s : State} (h : Busy s) (i : Nat) (k : Kind) (t : Task) : Busy (booked s i k t) := by
  obtain ⟨b1, b2, _⟩ := booked_usage s i k t
  intro hu
  rw [b2] at hu
  rw [b1]
  by_cases hz : s.count t.exec - 1 = 0
  · rw [if_pos hz] at hu
    split at hu
    · rcases hu with hu | hu <;> cases hu
    · rcases hu with hu | hu <;> cases hu
  · exact ⟨t.exec, by simp only [bump, if_true]; omega⟩

theorem busy_post (s : State) (t : Task) : ∃ e, 0 < bump s.count t.exec (s.count t.exec + 1) e :=
  ⟨t.exec, by simp [bump]⟩

/-- Never stopped so far. -/
def Started (s : State) : Prop := s.usage = .ready ∨ s.usage = .working

theorem started_run {P : List Task} {s s' : State} {es : List Event} (hinv : Inv P s) (hb : Busy s) (hst : Started s)
    (hno : .stop ∉ es) (hs : run s es = some s') : Busy s' ∧ Started s' := by
  induction es generalizing s P with
  | nil => cases hs; exact ⟨hb, hst⟩
  | cons ev es ih =>
    unfold run at hs
    rcases h1 : step s ev with _ | s1
    · rw [h1] at hs; cases hs
    · rw [h1] at hs
      have hev : ev ≠ .stop := fun h => hno (by simp [h])
      refine ih (inv_step hinv h1) ?_ ?_ (fun h => hno (by simp [h])) hs
      · exact usage_step (fun u c => (u = .working ∨ u = .stopping) → ∃ e, 0 < c e) hinv hb
          (fun i k t _ => busy_booked hb i k t) (fun t _ _ _ => busy_post s t) (fun h => absurd h hev) h1
      · refine usage_step (fun u _ => u = .ready ∨ u = .working) hinv hst ?_ (fun _ _ _ => Or.inr rfl)
          (fun h => absurd h hev) h1
        intro i k t _
        rw [(booked_usage s i k t).2.1]
        split
        · split
          · rename_i hc
            rcases hst with h | h <;> rw [h] at hc <;> cases hc
          · exact Or.inl rfl
        · exact hst

/-- Stopped, and nothing posted since. -/
def Stopped (s : State) : Prop := s.usage = .finished ∨ s.usage = .stopping

theorem stopped_run {P : List Task} {s s' : State} {es : List Event} (hinv : Inv P s) (hb : Busy s) (hst : Stopped s)
    (hfin : ∀ a b s1, es = a ++ b → run s a = some s1 → s1.usage = .finished → running s1.threads = [])
    (hno : .stop ∉ es) (hnp : posted es = []) (hs : run s es = some s') : Busy s' ∧ Stopped s' := by
  induction es generalizing s P with
  | nil => cases hs; exact ⟨hb, hst⟩
  | cons ev es ih =>
    unfold run at hs
    rcases h1 : step s ev with _ | s1
    · rw [h1] at hs; cases hs
    · rw [h1] at hs
      have hev : ev ≠ .stop := fun h => hno (by simp [h])
      rw [posted_cons] at hnp
      obtain ⟨hp1, hp2⟩ := List.append_eq_nil_iff.1 hnp
      refine ih (inv_step hinv h1) ?_ ?_ ?_ (fun h => hno (by simp [h])) hp2 hs
      · exact usage_step (fun u c => (u = .working ∨ u = .stopping) → ∃ e, 0 < c e) hinv hb
          (fun i k t _ => busy_booked hb i k t) (fun t _ _ _ => busy_post s t) (fun h => absurd h hev) h1
      · refine usage_step (fun u _ => u = .finished ∨ u = .stopping) hinv hst ?_ ?_ (fun h => absurd h hev) h1
        · intro i k t hi
          have hnf : s.usage ≠ .finished := by
            intro hf
            have := hfin [] (ev :: es) s rfl rfl hf
            have hm := running_mem hi
            rw [this] at hm
            cases hm
          have hs' : s.usage = .stopping := by
            rcases hst with h | h
            · exact absurd h hnf
            · exact h
          rw [(booked_usage s i k t).2.1, if_pos hs']
          split
          · exact Or.inl rfl
          · exact Or.inr hs'
        · intro t w h
          subst h
          cases hp1
      · intro a b s2 hab hra hf
        refine hfin (ev :: a) b s2 (by rw [hab]; rfl) ?_ hf
        simp only [run, h1]
        exact hra

end Knp.Lemmas.Pool
