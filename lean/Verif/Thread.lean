import Verif.Status

/-!
Model of the life of a thread (`src/platform/pthread/thread/thread_create.c`) under any interleaving of any
number of threads: creation, the wrapper `thread_start` around the thread function, and `thread_release`, which
joins the thread and reclaims its structure.

Each event below is one step of one thread between two points at which another thread can run. An access to a
structure that is not allocated is undefined: `none`. Simplifications: failing creations are left out (they are
the subject of C60); of the structure only `exit_code` and `running` are kept; the thread function is an event
with the value it returns.
-/
namespace Rcpr.Thread

open Rcpr

/-- A thread structure (src/platform/pthread/thread/thread_internal.h:24-36). -/
structure Struct where
  running : Bool
  exitCode : Status
  deriving DecidableEq

/-- How far a thread is: created, in the thread function, behind the store of the exit code, ended.
(src/platform/pthread/thread/thread_create.c:168-173) -/
inductive Phase
  | created
  | body
  | stored
  | ended
  deriving DecidableEq

/-- How far a call of `thread_release` is: in `pthread_join`; about to clear the structure; about to reclaim it;
the value is `thread_retval`. (src/platform/pthread/thread/thread_create.c:192-211) -/
inductive Stage
  | join
  | clear (ret : Status)
  | reclaim (ret : Status)
  deriving DecidableEq

/-- A call of `thread_release` in progress: the thread that makes it, the thread released, how far it is.
(src/platform/pthread/thread/thread_create.c:192-211) -/
structure Call where
  caller : Nat
  target : Nat
  stage : Stage
  deriving DecidableEq

/-- The process. Threads are numbered in the order of their creation; thread 0 is the initial one and has no
structure. (src/platform/pthread/thread/thread_create.c) -/
structure World where
  /-- how many threads there have been -/
  count : Nat
  phase : Nat → Phase
  /-- the structure of a thread, if it is allocated -/
  str : Nat → Option Struct
  calls : List Call
  /-- threads that have been joined -/
  joined : List Nat
  /-- calls of `thread_release` that have returned: the thread released, the value returned, and what the
  allocator had answered -/
  returned : List (Nat × Status × Status)
  /-- values returned by thread functions -/
  finished : List (Nat × Status)

/-- Not in the code: a change of one entry. -/
def upd {α : Type} (f : Nat → α) (i : Nat) (v : α) : Nat → α := fun j => if j = i then v else f j

/-- One step of one thread. (src/platform/pthread/thread/thread_create.c) -/
inductive Event
  /-- the thread creates a thread -/
  | create (by' : Nat)
  /-- a created thread enters its function -/
  | start (t : Nat)
  /-- the thread function returns this value and `thread_start` stores it -/
  | finish (t : Nat) (code : Status)
  /-- `thread_start` stores `running` and ends -/
  | leave (t : Nat)
  /-- the thread calls `resource_release` for a thread -/
  | release (by' target : Nat)
  /-- `pthread_join` returns this number in that call -/
  | joinReturns (by' target : Nat) (errno : Nat)
  /-- the call clears the structure -/
  | clears (by' target : Nat)
  /-- the call reclaims the structure, the allocator answers this, and the call returns -/
  | reclaims (by' target : Nat) (answer : Status)
  deriving DecidableEq

/-- The status `thread_release` keeps after the join (src/platform/pthread/thread/thread_create.c:199-208). -/
def afterJoin (errno : Nat) (exitCode : Status) : Status :=
  if errno ≠ 0 then ERROR_THREAD_JOIN else exitCode

/-- The status `thread_release` returns (src/platform/pthread/thread/thread_create.c:216-225). -/
def afterReclaim (answer ret : Status) : Status := if answer = SUCCESS then ret else answer

/-- What an event does; `none` is undefined behaviour. (src/platform/pthread/thread/thread_create.c) -/
def exec (w : World) : Event → Option World
  -- thread_create, success (src/platform/pthread/thread/thread_create.c:111-140)
  | .create _ =>
    some { w with
      count := w.count + 1, phase := upd w.phase w.count .created,
      str := upd w.str w.count (some ⟨true, 0⟩) }
  -- thread_start reads fn and context (thread_create.c:168-173)
  | .start t => do
    let _ ← w.str t
    return { w with phase := upd w.phase t .body }
  -- thread_start stores the exit code (thread_create.c:173)
  | .finish t code => do
    let s ← w.str t
    return { w with
      phase := upd w.phase t .stored, str := upd w.str t (some { s with exitCode := code }),
      finished := (t, code) :: w.finished }
  -- thread_start stores running (thread_create.c:176)
  | .leave t => do
    let s ← w.str t
    return { w with phase := upd w.phase t .ended, str := upd w.str t (some { s with running := false }) }
  -- thread_release reads alloc and thread (thread_create.c:192-200)
  | .release b j => do
    let _ ← w.str j
    return { w with calls := ⟨b, j, .join⟩ :: w.calls }
  -- pthread_join has returned (thread_create.c:200-208); the exit code is read only after a success
  | .joinReturns b j errno =>
    if errno ≠ 0 then
      some { w with calls := ⟨b, j, .clear (afterJoin errno 0)⟩ :: w.calls.erase ⟨b, j, .join⟩ }
    else do
      let s ← w.str j
      return { w with
        calls := ⟨b, j, .clear (afterJoin errno s.exitCode)⟩ :: w.calls.erase ⟨b, j, .join⟩,
        joined := j :: w.joined }
  -- memset (thread_create.c:210-211)
  | .clears b j => do
    let _ ← w.str j
    let c ← w.calls.find? fun c => c.caller == b && c.target == j
    match c.stage with
    | .clear r => return { w with
        str := upd w.str j (some ⟨false, 0⟩), calls := ⟨b, j, .reclaim r⟩ :: w.calls.erase c }
    | _ => none
  -- allocator_reclaim and return (thread_create.c:213-225)
  | .reclaims b j answer => do
    let _ ← w.str j
    let c ← w.calls.find? fun c => c.caller == b && c.target == j
    match c.stage with
    | .reclaim r => return { w with
        str := if answer = SUCCESS then upd w.str j none else w.str,
        calls := w.calls.erase c, returned := (j, afterReclaim answer r, answer) :: w.returned }
    | _ => none

/-- Thread `a` waits for thread `b`, directly or through others. Not in the code: the threads library. -/
inductive Waits (w : World) : Nat → Nat → Prop
  | one {a b} (h : ⟨a, b, .join⟩ ∈ w.calls) : Waits w a b
  | more {a b c} (h : ⟨a, b, .join⟩ ∈ w.calls) (h' : Waits w b c) : Waits w a c

/-- Is a thread free to act: in its function and not inside a call?. Not in the code: what a thread can do. -/
def Active (w : World) (t : Nat) : Prop :=
  t < w.count ∧ w.phase t = .body ∧ ∀ c ∈ w.calls, c.caller ≠ t

/-- When the event can happen. The operating system lets a join succeed only when the thread has ended, and
lets it fail only if the wait would be for ever: the thread has been joined before, or waits, directly or
through others, for the thread that joins it (pthread_join: EINVAL, ESRCH, EDEADLK).
Not in the code: the threads library. -/
def Enabled (w : World) : Event → Prop
  | .create b => Active w b
  | .start t => t < w.count ∧ w.phase t = .created
  | .finish t _ => t ≠ 0 ∧ Active w t
  | .leave t => t < w.count ∧ w.phase t = .stored
  | .release b j => Active w b ∧ j < w.count ∧ j ≠ 0
  | .joinReturns b j errno =>
    ⟨b, j, .join⟩ ∈ w.calls ∧
      if errno = 0 then w.phase j = .ended ∧ j ∉ w.joined else j ∈ w.joined ∨ Waits w j b ∨ j = b
  | .clears b j => ∃ r, ⟨b, j, .clear r⟩ ∈ w.calls
  | .reclaims b j _ => ∃ r, ⟨b, j, .reclaim r⟩ ∈ w.calls

/-- The initial process: one thread, running. Not in the code: the process at its start. -/
def init : World :=
  ⟨1, fun t => if t = 0 then .body else .created, fun _ => none, [], [], [], []⟩

/-- A sequence of events, each of which can happen. Not in the code: executions. -/
inductive Runs : World → List Event → World → Prop
  | nil {w} : Runs w [] w
  | cons {w e es w' w''} (he : Enabled w e) (hx : exec w e = some w') (h : Runs w' es w'') : Runs w (e :: es) w''

/-- A sequence of events whose last one is undefined. Not in the code: executions. -/
def Undefined (w : World) (es : List Event) : Prop :=
  ∃ es' e w', es = es' ++ [e] ∧ Runs w es' w' ∧ Enabled w' e ∧ exec w' e = none

end Rcpr.Thread
