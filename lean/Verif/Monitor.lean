import Verif.Status

/-!
Model of mutexes and condition variables (`src/platform/pthread/thread/`) used by any number of threads in any
interleaving: `thread_mutex_lock_acquire`, the release of a lock, `thread_cond_wait`, `thread_cond_signal_one`
and `thread_cond_signal_all`.

The library functions are thin: what they do with the answer of the operating system is modelled by the
functions `lockAcquire` to `signalAll`. The operating system's part (POSIX threads with default attributes) is
in `step`. A lock is the structure `child` inside its mutex (src/platform/pthread/thread/thread_internal.h:38-56,
thread_mutex_create.c:117-121), so a pointer to a lock is modelled by the number of its mutex. Simplifications:
mutexes and conditions exist before and after (their life is C60 and C61); re-acquiring the mutex inside a wait
does not fail; memory is sequentially consistent, which for data accessed under a mutex is what POSIX promises.
-/
namespace Rcpr.Monitor

open Rcpr

variable {L D : Type}

/-- `thread_mutex_lock_acquire` after `pthread_mutex_lock` has returned `errno`: the status and the caller's
variable, which held `v` (thread_mutex_lock_acquire.c:62-73). -/
def lockAcquire (errno : Status) (m : Nat) (v : Option Nat) : Status × Option Nat :=
  if errno ≠ SUCCESS then (ERROR_THREAD_MUTEX_LOCK, v) else (SUCCESS, some m)

/-- The release of a lock after `pthread_mutex_unlock` (thread_mutex_create.c:209-218). -/
def lockRelease (errno : Status) : Status :=
  if errno ≠ SUCCESS then ERROR_THREAD_MUTEX_UNLOCK else SUCCESS

/-- `thread_cond_wait` after `pthread_cond_wait` (thread_cond_wait.c:61-69). -/
def condWait (errno : Status) : Status :=
  if errno ≠ SUCCESS then ERROR_THREAD_COND_WAIT else SUCCESS

/-- `thread_cond_signal_one` after `pthread_cond_signal` (thread_cond_signal_one.c:59-67). -/
def signalOne (errno : Status) : Status := if errno ≠ SUCCESS then errno else SUCCESS

/-- `thread_cond_signal_all` after `pthread_cond_broadcast` (thread_cond_signal_all.c:59-67). -/
def signalAll (errno : Status) : Status := if errno ≠ SUCCESS then errno else SUCCESS

/-- What a thread does next: call the library, or use the data `D` that a mutex protects.
(include/rcpr/thread.h; the functions are cited at the top of this file and at `step`) -/
inductive Act (D : Type)
  /-- acquire the lock of a mutex into a variable that holds this -/
  | acquire (mtx : Nat) (v : Option Nat)
  | release (lock : Nat)
  | wait (lock cond : Nat)
  | signalOne (lock cond : Nat)
  | signalAll (lock cond : Nat)
  /-- read the data of a mutex and store a function of it -/
  | access (mtx : Nat) (f : D → D)
  | stop

/-- What comes back. (include/rcpr/thread.h) -/
inductive Ans (D : Type)
  | acquired (st : Status) (v : Option Nat)
  | released (st : Status)
  | waited (st : Status)
  | signalled (st : Status)
  /-- the data before the access -/
  | data (d : D)

/-- A program of `n` threads: each a state machine with states `L`.
Not in the code: a client of include/rcpr/thread.h. -/
structure Prog (L D : Type) where
  n : Nat
  act : Nat → L → Act D
  next : Nat → L → Ans D → L

/-- A thread runs, sleeps on a condition, or has been woken and waits for the mutex.
Not in the code: the threads library. -/
inductive Mode
  | run
  | waiting (cond mtx : Nat)
  | woken (cond mtx : Nat)
  deriving DecidableEq

/-- Not in the code: the process: where each thread is, who owns each mutex, and the data. -/
structure State (L D : Type) where
  loc : Nat → L
  mode : Nat → Mode
  owner : Nat → Option Nat
  data : Nat → D

/-- Not in the code: a change of one entry. -/
def upd {α : Type} (f : Nat → α) (i : Nat) (v : α) : Nat → α := fun j => if j = i then v else f j

/-- The choices of the operating system in one step. Not in the code: the threads library. -/
inductive Choice
  /-- the call answers `errno`, and if it is a signal it wakes these threads -/
  | call (errno : Status) (wakes : Nat → Bool)
  /-- a sleeping thread wakes up without a signal -/
  | spurious
  /-- a woken thread gets its mutex -/
  | resume

/-- Not in the code: outcomes of a step. -/
inductive Out (S : Type)
  /-- this cannot happen now -/
  | blocked
  /-- undefined behaviour: unlocking or waiting with a mutex the thread does not own, waiting on one condition
  with two mutexes, or using data without its mutex -/
  | fault
  | ok (s : S)

/-- Does the thread sleep on this condition?. Not in the code: the threads library. -/
def asleepOn (s : State L D) (c u : Nat) : Bool :=
  match s.mode u with
  | .waiting c' _ => c' == c
  | _ => false

/-- Has the thread been woken from this condition, and not yet got the mutex?.
Not in the code: the threads library. -/
def wokenFrom (s : State L D) (c u : Nat) : Bool :=
  match s.mode u with
  | .woken c' _ => c' == c
  | _ => false

/-- Wakes the threads of `S` that sleep on `c`.
Not in the code: the threads library (`pthread_cond_signal`, `pthread_cond_broadcast`, thread_cond_signal_one.c:59-67, thread_cond_signal_all.c:59-67). -/
def wake (s : State L D) (c : Nat) (S : Nat → Bool) : State L D :=
  { s with mode := fun u =>
      match s.mode u with
      | .waiting c' m => if c' = c ∧ S u = true then .woken c' m else .waiting c' m
      | x => x }

/-- The thread gets an answer and goes on. Not in the code: the client. -/
def answer (p : Prog L D) (s : State L D) (t : Nat) (a : Ans D) : State L D :=
  { s with loc := upd s.loc t (p.next t (s.loc t) a) }

/-- One step of thread `t`. A failing call has no effect; a signal wakes at least one of the threads that sleep
on the condition, and a broadcast all of them; a mutex goes to a thread only if nobody owns it, and a thread that
owns a mutex and asks for it again waits for ever.
(thread_mutex_lock_acquire.c:62-73, thread_cond_wait.c:61-69, thread_cond_signal_one.c:59-67, thread_cond_signal_all.c:59-67) -/
def step (p : Prog L D) (s : State L D) (t : Nat) (ch : Choice) : Out (State L D) :=
  if p.n ≤ t then .blocked else
  match s.mode t, ch with
  | .waiting c m, .spurious => .ok { s with mode := upd s.mode t (.woken c m) }
  | .woken _ m, .resume =>
    if s.owner m = none then
      .ok (answer p { s with mode := upd s.mode t .run, owner := upd s.owner m (some t) } t
        (.waited (condWait SUCCESS)))
    else .blocked
  | .run, .call errno wakes =>
    match p.act t (s.loc t) with
    | .acquire m v =>
      let (st, v') := lockAcquire errno m v
      if errno ≠ SUCCESS then .ok (answer p s t (.acquired st v'))
      else if s.owner m = none then
        .ok (answer p { s with owner := upd s.owner m (some t) } t (.acquired st v'))
      else .blocked
    | .release l =>
      if s.owner l ≠ some t then .fault
      else if errno ≠ SUCCESS then .ok (answer p s t (.released (lockRelease errno)))
      else .ok (answer p { s with owner := upd s.owner l none } t (.released (lockRelease errno)))
    | .wait l c =>
      if s.owner l ≠ some t then .fault
      else if errno ≠ SUCCESS then .ok (answer p s t (.waited (condWait errno)))
      else if (List.range p.n).any (fun u => asleepOn s c u && !(s.mode u == .waiting c l)) then .fault
      else .ok { s with owner := upd s.owner l none, mode := upd s.mode t (.waiting c l) }
    | .signalOne _ c =>
      if errno ≠ SUCCESS then .ok (answer p s t (.signalled (signalOne errno)))
      else if (List.range p.n).any (asleepOn s c) && !(List.range p.n).any (fun u => asleepOn s c u && wakes u) then
        .blocked
      else .ok (answer p (wake s c wakes) t (.signalled (signalOne errno)))
    | .signalAll _ c =>
      if errno ≠ SUCCESS then .ok (answer p s t (.signalled (signalAll errno)))
      else .ok (answer p (wake s c fun _ => true) t (.signalled (signalAll errno)))
    | .access m f =>
      if s.owner m ≠ some t then .fault
      else .ok (answer p { s with data := upd s.data m (f (s.data m)) } t (.data (s.data m)))
    | .stop => .blocked
  | _, _ => .blocked

/-- The threads at their beginnings: nobody owns or waits. Not in the code: the client before its first step. -/
def start (loc : Nat → L) (data : Nat → D) : State L D := ⟨loc, fun _ => .run, fun _ => none, data⟩

/-- The states that some interleaving reaches. Not in the code: the scheduling of the operating system. -/
inductive Reach (p : Prog L D) (s₀ : State L D) : State L D → Prop
  | refl : Reach p s₀ s₀
  | step {s s'} (t : Nat) (ch : Choice) (h : Reach p s₀ s) (hs : step p s t ch = .ok s') : Reach p s₀ s'

end Rcpr.Monitor
