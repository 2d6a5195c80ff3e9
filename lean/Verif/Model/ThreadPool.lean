import Verif.Model.Basic

/-!
# Thread pool (`/repo/knp/backends/cpu/thread_pool`)

Small-step model. A step is one critical section of the pool's mutex: from taking the lock to releasing it (by
`unlock`, by `condition_.wait`, or by leaving the scope). Everything shared is touched only inside these sections, so
interleavings of whole sections are all the interleavings there are. Between two sections a thread may be executing a
task (`Pc.running`), which is outside of the lock; a task takes any number of other threads' steps to finish.

Simplifications: the task counters (`size_t`) do not wrap; tasks finish or throw (a task that never finishes is a
schedule in which its `finish` event does not come); tasks that call `join` themselves are not modelled.
-/

namespace Knp.Pool

/-- A posted task; `exec` is the executor (= the shared counter) it was posted through.
thread_pool_executor.h:100-114, thread_pool_context.h:75-80. -/
structure Task where
  id : Nat
  exec : Nat
deriving DecidableEq, Repr

/-- thread_pool_context.h:67-73. -/
inductive Usage
  | finished | ready | working | stopping
deriving DecidableEq, Repr

/-- Who runs the loop: a worker of the pool (thread_pool_context.cpp:36-43) or a caller of `join` of executor `e`
(thread_pool_executor.h:87-92). -/
inductive Kind
  | worker
  | joiner (e : Nat)
deriving DecidableEq, Repr

/-- Where a thread is: about to take the lock and look at the loop condition (`ready`), inside `condition_.wait`
(`waiting`), executing a task (`running`), out of the loop (`done`), or `join` has been left by an exception of a task
(`threw`). -/
inductive Pc
  | ready | waiting
  | running (t : Task)
  | done | threw
deriving DecidableEq, Repr

structure Thr where
  kind : Kind
  pc : Pc
deriving DecidableEq, Repr

/-- thread_pool_context.h:99-104 (`usage_state_`, `work_queue_`), the counters of the executors
(thread_pool_executor.h:150), the threads. `executed` and `started` are ghost logs: tasks whose body has ended, tasks taken off the queue.
`crashed`: `std::terminate` was called, because a task threw inside a worker (boost::asio::thread_pool lets no
exception out of its threads). -/
structure State where
  usage : Usage
  queue : List Task
  count : Nat → Nat
  threads : List Thr
  started : List Task
  executed : List Task
  crashed : Bool

/-- thread_pool_context.cpp:28-51: a new pool with `n` workers, each about to enter its loop. -/
def init (n : Nat) : State :=
  ⟨.ready, [], fun _ => 0, List.replicate n ⟨.worker, .ready⟩, [], [], false⟩

/-- `condition_.notify_all` (for one thread). -/
def wake (t : Thr) : Thr := if t.pc = .waiting then { t with pc := .ready } else t

def bump (c : Nat → Nat) (e : Nat) (k : Nat) : Nat → Nat := fun x => if x = e then k else c x

/-- thread_pool_context.cpp:61-65. -/
def workStarted (e : Nat) (s : State) : State :=
  { s with count := bump s.count e (s.count e + 1), usage := .working }

/-- thread_pool_context.cpp:68-76. -/
def workFinished (e : Nat) (s : State) : State :=
  let s1 := { s with count := bump s.count e (s.count e - 1) }
  if s.count e - 1 = 0 then
    { s1 with usage := if s.usage = .stopping then .finished else .ready, threads := s1.threads.map wake }
  else s1

def setPc (s : State) (i : Nat) (k : Kind) (p : Pc) : State := { s with threads := s.threads.set i ⟨k, p⟩ }

/-- thread_pool_context.cpp:97-105 up to `lock.unlock()`, or the `condition_.wait` that follows a `false`. -/
def takeOrWait (s : State) (i : Nat) (k : Kind) : State :=
  match s.queue with
  | [] => setPc s i k .waiting
  | t :: q => setPc { s with queue := q, started := s.started ++ [t] } i k (.running t)

/-- One evaluation of the loop under the lock: thread_pool_context.cpp:39-42 for a worker, thread_pool_executor.h:90-91
for a joiner. -/
def loopIter (s : State) (i : Nat) (k : Kind) : State :=
  match k with
  | .worker => if s.usage = .finished then setPc s i k .done else takeOrWait s i k
  | .joiner e => if s.count e = 0 then setPc s i k .done else takeOrWait s i k

/-- thread_pool_context.cpp:79-94 from `lock.lock()` on; with `throws` the exception leaves the loop. -/
def finishTask (s : State) (i : Nat) (k : Kind) (t : Task) (throws : Bool) : State :=
  let s1 := workFinished t.exec { s with executed := s.executed ++ [t], threads := s.threads.set i ⟨k, .ready⟩ }
  if throws then
    match k with
    | .worker => { s1 with crashed := true }
    | .joiner _ => setPc s1 i k .threw
  else loopIter s1 i k

/-- What can happen next. `enter i`: thread `i` gets the lock (first entry, or after being woken). `finish i throws`:
the task of thread `i` ends. `post t w`: any thread posts `t`, `notify_one` wakes `w`. `join e`: some thread calls
`join` of executor `e`. `spurious i`: a wake-up without notification. -/
inductive Event
  | enter (i : Nat)
  | finish (i : Nat) (throws : Bool)
  | post (t : Task) (w : Option Nat)
  | stop
  | join (e : Nat)
  | spurious (i : Nat)
deriving DecidableEq, Repr

/-- One step; `none` if the event is not possible in the state. Posting: thread_pool_context.cpp:116-122 (`notify_one`
wakes one waiting thread if there is one). Stopping: thread_pool_context.cpp:108-113. -/
def step (s : State) (ev : Event) : Option State :=
  if s.crashed then none
  else
    match ev with
    | .enter i =>
      match s.threads[i]? with
      | some ⟨k, .ready⟩ => some (loopIter s i k)
      | _ => none
    | .finish i throws =>
      match s.threads[i]? with
      | some ⟨k, .running t⟩ => some (finishTask s i k t throws)
      | _ => none
    | .post t w =>
      let s1 := workStarted t.exec { s with queue := s.queue ++ [t] }
      match w with
      | none => if s.threads.all (fun x => x.pc != .waiting) then some s1 else none
      | some i =>
        match s.threads[i]? with
        | some ⟨k, .waiting⟩ => some (setPc s1 i k .ready)
        | _ => none
    | .stop => some { s with usage := if s.usage = .ready then .finished else .stopping, threads := s.threads.map wake }
    | .join e => some { s with threads := s.threads ++ [⟨.joiner e, .ready⟩] }
    | .spurious i =>
      match s.threads[i]? with
      | some ⟨k, .waiting⟩ => some (setPc s i k .ready)
      | _ => none

/-- A history of the pool. -/
def run (s : State) : List Event → Option State
  | [] => some s
  | ev :: es => (step s ev).bind (fun s' => run s' es)

end Knp.Pool
