import Verif.Status

/-!
Model of `src/psock/platform/poll` and `src/psock/platform/kqueue`.

The two arrays of the poll context are lists; every access is checked against their length, an
access outside is undefined behaviour (`none`). What the allocator, the scheduler and the
kernel answer are parameters. Sizes are natural numbers (2^64 entries do not fit in memory).
-/
namespace Rcpr.Poll

open Rcpr

/-- `short events, revents` of `struct pollfd`, as used in src/psock/platform/poll/psock_idle_fiber_entry.c:60. -/
abbrev Bits := BitVec 16

/-- `POLLIN`, `POLLOUT`, `POLLERR`, `POLLHUP`, `POLLNVAL` of poll.h -/
def POLLIN : Bits := 0x1#16
/-- poll.h; used in src/psock/platform/poll/psock_idle_fiber_entry.c:65. -/
def POLLOUT : Bits := 0x4#16
/-- poll.h; used in src/psock/platform/poll/psock_idle_fiber_entry.c:85. -/
def POLLERR : Bits := 0x8#16
/-- poll.h; used in src/psock/platform/poll/psock_idle_fiber_entry.c:70. -/
def POLLHUP : Bits := 0x10#16
/-- poll.h; the code does not test for it. -/
def POLLNVAL : Bits := 0x20#16

/-- the condition `(m & bit)`. As in src/psock/platform/poll/psock_idle_fiber_entry.c:60. -/
def has (m bit : Bits) : Bool := m &&& bit != 0#16

/-- `struct pollfd`. The cells of `poll_events` (src/psock/platform/poll/psock_poll_internal.h:40). -/
structure Ent where
  fd : Int
  events : Bits
  revents : Bits
  deriving DecidableEq

/-- an entry added to the run queue: fiber, resume event (include/rcpr/fiber/disciplines/psock_io.h:42,45:
0 = readable, 1 = writable), resume parameter -/
structure Wake where
  fib : Nat
  event : Int
  param : BitVec 64
  deriving DecidableEq

/-- `struct psock_io_poll_context` (src/psock/platform/poll/psock_poll_internal.h:30-42): the fields
`poll_max`, `poll_curr`, `poll_events`, `poll_fibers` -/
structure Ctx where
  max : Nat
  curr : Nat
  events : List Ent
  fibers : List Nat
  deriving DecidableEq

/-- `POLL_EVENT_SIZE_INCREMENT` (psock_poll_internal.h:25) -/
def INCREMENT : Nat := 1024

/-- The context after `psock_fiber_scheduler_discipline_context_create`
(src/psock/platform/poll/psock_fiber_scheduler_discipline_context_create.c:64-113). -/
def create : Ctx := ⟨INCREMENT, 0, List.replicate INCREMENT ⟨-1, 0, 0⟩, List.replicate INCREMENT 0⟩

/-- a successful `allocator_reallocate` to `n` cells; new cells contain `junk`.
As called in the wait handlers cited below. -/
def resize {α : Type} (junk : α) (l : List α) (n : Nat) : List α :=
  l.take n ++ List.replicate (n - l.length) junk

/-- The wait handlers: `psock_fiber_scheduler_disciplined_read_wait_callback_handler` with `POLLIN`,
`..._write_wait_callback_handler` with `POLLOUT` (both
src/psock/platform/poll/psock_fiber_scheduler_disciplined_*_wait_callback_handler.c:32-95).
`a1`, `a2` are the statuses of the two reallocations. -/
def wait (ev : Bits) (a1 a2 : Status) (junk : Ent) (c : Ctx) (fd : Int) (fib : Nat) :
    Option (Ctx × Status) :=
  let store (c : Ctx) : Option (Ctx × Status) :=
    -- 80-87
    if c.curr < c.events.length ∧ c.curr < c.fibers.length then
      some ({ c with events := c.events.set c.curr ⟨fd, ev, 0⟩, fibers := c.fibers.set c.curr fib,
                     curr := c.curr + 1 }, SUCCESS)
    else none
  if c.curr = c.max then
    let newsize := c.max + INCREMENT
    if a1 ≠ SUCCESS then some (c, a1)
    else
      let c := { c with events := resize junk c.events newsize }
      if a2 ≠ SUCCESS then some (c, a2)
      else
        let c := { c with fibers := resize 0 c.fibers newsize }
        store { c with max := newsize }
  else store c

/-- the read wait handler
(src/psock/platform/poll/psock_fiber_scheduler_disciplined_read_wait_callback_handler.c:32-95) -/
def readWait := wait POLLIN
/-- the write wait handler
(src/psock/platform/poll/psock_fiber_scheduler_disciplined_write_wait_callback_handler.c:32-95) -/
def writeWait := wait POLLOUT

/-- The resume event of one entry, `-1` if none
(src/psock/platform/poll/psock_idle_fiber_entry.c:56,59-82). -/
def resumeEvent (events revents : Bits) : Int :=
  if has revents POLLIN then 0
  else if has revents POLLOUT then 1
  else if has revents POLLHUP then
    if has events POLLIN then 0 else 1
  else -1

/-- The resume parameter (psock_idle_fiber_entry.c:57,84-94). -/
def resumeParam (revents : Bits) : BitVec 64 :=
  let p := 0#64
  let p := if has revents POLLERR then p ||| 1#64 else p
  if has revents POLLHUP then p ||| 2#64 else p

/-- The loop over the entries (psock_idle_fiber_entry.c:50-122), `n` iterations from index `i`. Result: the
arrays, `new_curr`, the run queue and the status. -/
def loop (add : List Wake → Status) :
    Nat → Nat → Nat → Ctx → List Wake → Option (Ctx × Nat × List Wake × Status)
  | 0, _, new, c, q => some (c, new, q, SUCCESS)
  | n + 1, i, new, c, q => do
    let fib ← c.fibers[i]?
    let e ← c.events[i]?
    let ev := resumeEvent e.events e.revents
    if ev ≠ -1 then
      if add q ≠ SUCCESS then return (c, new, q, add q)
      else loop add n (i + 1) new c (q ++ [⟨fib, ev, resumeParam e.revents⟩])
    else
      if i ≠ new then
        -- 112-118
        if new < c.fibers.length ∧ new < c.events.length then
          loop add n (i + 1) (new + 1)
            { c with fibers := c.fibers.set new fib, events := c.events.set new e } q
        else none
      else loop add n (i + 1) (new + 1) c q

/-- `poll(ctx->poll_events, ctx->poll_curr, -1)`: the kernel stores the reported events in the first
`curr` entries. Not in the code: the kernel's side. -/
def kernelPoll (c : Ctx) (rev : List Bits) : Option Ctx :=
  if rev.length = c.curr ∧ c.curr ≤ c.events.length then
    some { c with events :=
      (List.zipWith (fun e r => { e with revents := r }) (c.events.take c.curr) rev) ++
        c.events.drop c.curr }
  else none

/-- One turn of the main loop of the idle fiber up to its yield (psock_idle_fiber_entry.c:42-125). If adding to
the run queue fails, the fiber ends there (`goto done`) and `poll_curr` is not updated. -/
def idlePass (add : List Wake → Status) (c : Ctx) (q : List Wake) (rev : List Bits) :
    Option (Ctx × List Wake × Status) := do
  let c ← kernelPoll c rev
  let (c, new, q, st) ← loop add c.curr 0 0 c q
  if st ≠ SUCCESS then return (c, q, st)
  else return ({ c with curr := new }, q, SUCCESS)

end Rcpr.Poll

namespace Rcpr.Kqueue

open Rcpr

/-- `struct kevent`: descriptor, filter (`true` = `EVFILT_READ`, `false` = `EVFILT_WRITE`), the fiber in
`udata` (src/psock/platform/kqueue/psock_kqueue_internal.h:42) -/
structure Reg where
  fd : Int
  read : Bool
  fib : Nat
  deriving DecidableEq

/-- a reported event with its flags `EV_ERROR`, `EV_EOF` (src/psock/platform/kqueue/psock_idle_fiber_entry.c:78-86) -/
structure Out where
  reg : Reg
  err : Bool
  eof : Bool
  deriving DecidableEq

/-- `MAX_KEVENT_INPUTS` (src/psock/platform/kqueue/psock_kqueue_internal.h:26) -/
def MAX_INPUTS : Nat := 1024

/-- `kevent_inputs[0 .. inputs)` and what the kernel has registered (`EV_ADD`: at most one
registration for a descriptor and filter) (src/psock/platform/kqueue/psock_kqueue_internal.h:31-45) -/
structure Ctx where
  inputs : List Reg
  kernel : List Reg

/-- the kernel takes over one change: `EV_ADD` replaces the registration of the same descriptor and filter.
Not in the code: the kernel's side; the flag is set in src/psock/platform/kqueue/psock_fiber_scheduler_disciplined_read_wait_callback_handler.c:55. -/
def evAdd (k : List Reg) (r : Reg) : List Reg :=
  k.filter (fun x => !(x.fd == r.fd && x.read == r.read)) ++ [r]

/-- The wait handlers (src/psock/platform/kqueue/psock_fiber_scheduler_disciplined_read_wait_callback_handler.c:31-78
and ..._write_wait_callback_handler.c:31-78); `nev` is the result of `kevent`. The array has
`MAX_INPUTS` cells. If `kevent` fails the inputs are lost. -/
def wait (nev : Int) (c : Ctx) (r : Reg) : Option (Ctx × Status) :=
  if c.inputs.length < MAX_INPUTS then
    let inputs := c.inputs ++ [r]
    if inputs.length = MAX_INPUTS then
      if nev ≠ 0 then some (⟨[], c.kernel⟩, ERROR_PSOCK_KEVENT_FAILED)
      else some (⟨[], inputs.foldl evAdd c.kernel⟩, SUCCESS)
    else some (⟨inputs, c.kernel⟩, SUCCESS)
  else none

/-- The loop over the outputs (src/psock/platform/kqueue/psock_idle_fiber_entry.c:56-98). -/
def loop (add : List Poll.Wake → Status) : List Out → List Poll.Wake → List Poll.Wake × Status
  | [], q => (q, SUCCESS)
  | o :: os, q =>
    let ev : Int := if o.reg.read then 0 else 1
    let p := 0#64
    let p := if o.err then p ||| 1#64 else p
    let p := if o.eof then p ||| 2#64 else p
    if add q ≠ SUCCESS then (q, add q) else loop add os (q ++ [⟨o.reg.fib, ev, p⟩])

/-- One turn of the main loop (psock_idle_fiber_entry.c:42-98): `kevent` takes the inputs and reports `os`;
the registrations are one-shot. -/
def idlePass (add : List Poll.Wake → Status) (c : Ctx) (q : List Poll.Wake) (os : List Out) :
    Ctx × List Poll.Wake × Status :=
  let k := c.inputs.foldl evAdd c.kernel
  let r := loop add os q
  (⟨[], k.filter (fun x => !(os.map Out.reg).contains x)⟩, r.1, r.2)

/-- what `kevent` may report: different registrations it has. Not in the code: the kernel's side of `kevent`. -/
def KernelMayReport (c : Ctx) (os : List Out) : Prop :=
  (os.map Out.reg).Nodup ∧ ∀ o ∈ os, o.reg ∈ c.inputs.foldl evAdd c.kernel

end Rcpr.Kqueue
