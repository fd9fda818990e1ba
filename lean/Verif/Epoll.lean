import Verif.Status

/-!
Model of `src/psock/platform/epoll` and of the blocking functions `psock_read_block` and
`psock_write_block`.

An async psock is identified by its address; the descriptor below it belongs to it alone, so the
kernel's interest list is a function of that address. Fibers are numbers, `0` is `NULL`.
The kernel follows epoll(7) for one-shot registrations: reporting a socket disables it (interest
`0`) until it is armed again. What the scheduler and the kernel answer are parameters.
-/
namespace Rcpr.Epoll

open Rcpr

/-- `uint32_t events` of `struct epoll_event`, as used in src/psock/platform/epoll/psock_idle_fiber_entry.c:71. -/
abbrev Mask := BitVec 32

/-- `EPOLLIN`, `EPOLLOUT`, `EPOLLERR`, `EPOLLHUP`, `EPOLLRDHUP`, `EPOLLONESHOT` of sys/epoll.h -/
def EPOLLIN : Mask := 0x1#32
/-- sys/epoll.h; used in src/psock/platform/epoll/psock_idle_fiber_entry.c:110. -/
def EPOLLOUT : Mask := 0x4#32
/-- sys/epoll.h; used in src/psock/platform/epoll/psock_idle_fiber_entry.c:81. -/
def EPOLLERR : Mask := 0x8#32
/-- sys/epoll.h; used in src/psock/platform/epoll/psock_idle_fiber_entry.c:88. -/
def EPOLLHUP : Mask := 0x10#32
/-- sys/epoll.h; used in src/psock/platform/epoll/psock_idle_fiber_entry.c:88. -/
def EPOLLRDHUP : Mask := 0x2000#32
/-- sys/epoll.h; used in src/psock/platform/epoll/psock_idle_fiber_entry.c:71. -/
def EPOLLONESHOT : Mask := 0x40000000#32

/-- the condition `(m & bit)`. As in src/psock/platform/epoll/psock_idle_fiber_entry.c:74. -/
def has (m bit : Mask) : Bool := m &&& bit != 0#32

/-- the two fields `read_block_fib`, `write_block_fib` of `psock_wrap_async`
(src/psock/psock_internal.h:83-84); 0 is `NULL`. -/
structure Sock where
  rd : Nat
  wr : Nat
  deriving DecidableEq

/-- an entry added to the run queue: fiber, resume event (include/rcpr/fiber/disciplines/psock_io.h:42,45:
0 = readable, 1 = writable), resume parameter -/
structure Wake where
  fib : Nat
  event : Nat
  param : BitVec 64
  deriving DecidableEq

/-- FIBER_SCHEDULER_PSOCK_IO_RESUME_EVENT_FLAG_ERROR, _EOF (psock_io.h:54,57) -/
def FLAG_ERROR : BitVec 64 := 1#64
/-- `FIBER_SCHEDULER_PSOCK_IO_RESUME_EVENT_FLAG_EOF` (include/rcpr/fiber/disciplines/psock_io.h:57). -/
def FLAG_EOF : BitVec 64 := 2#64

/-- sockets, interest list of the kernel (`none`: not registered), run queue.
The interest list is the kernel's; the run queue is `run_queue` (src/fiber/common/fiber_internal.h:78). -/
structure World where
  socks : Nat → Sock
  armed : Nat → Option Mask
  runq : List Wake

/-- What the environment answers: `add q` is the status of
`disciplined_fiber_scheduler_add_fiber_to_run_queue` when the queue is `q`; `ctl ps` tells whether an
`epoll_ctl` for this socket fails for another reason than `ENOENT`.
As called in src/psock/platform/epoll/psock_idle_fiber_entry.c:68-198. -/
structure Env where
  add : List Wake → Status
  ctl : Nat → Bool

/-- replace one socket.
An assignment to `read_block_fib` or `write_block_fib`, as in src/psock/platform/epoll/psock_idle_fiber_entry.c. -/
def setSock (w : World) (ps : Nat) (s : Sock) : World :=
  { w with socks := fun p => if p = ps then s else w.socks p }

/-- change one registration. Not in the code: the effect of `epoll_ctl` on the interest list of the kernel. -/
def setArmed (w : World) (ps : Nat) (m : Option Mask) : World :=
  { w with armed := fun p => if p = ps then m else w.armed p }

/-- `EPOLL_CTL_MOD`, on `ENOENT` `EPOLL_CTL_ADD` (read_wait handler 71-76, write_wait handler 71-76,
idle fiber 164-175): result `true` if the last call succeeded. -/
def arm (env : Env) (w : World) (ps : Nat) (m : Mask) : World × Bool :=
  if env.ctl ps then (w, false) else (setArmed w ps (some m), true)

/-- The mask the wait handlers build (read_wait 53-65, write_wait 53-65). -/
def waitMask (s : Sock) : Mask :=
  let m := EPOLLONESHOT
  let m := if s.rd ≠ 0 then m ||| EPOLLIN else m
  if s.wr ≠ 0 then m ||| EPOLLOUT else m

/-- `psock_fiber_scheduler_disciplined_read_wait_callback_handler`
(src/psock/platform/epoll/psock_fiber_scheduler_disciplined_read_wait_callback_handler.c:31-86). -/
def readWait (env : Env) (w : World) (ps : Nat) : World × Status :=
  let r := arm env w ps (waitMask (w.socks ps))
  if r.2 then (r.1, SUCCESS) else (r.1, ERROR_PSOCK_EPOLL_CTL_FAILED)

/-- `psock_fiber_scheduler_disciplined_write_wait_callback_handler`
(src/psock/platform/epoll/psock_fiber_scheduler_disciplined_write_wait_callback_handler.c:31-86). -/
def writeWait (env : Env) (w : World) (ps : Nat) : World × Status :=
  let r := arm env w ps (waitMask (w.socks ps))
  if r.2 then (r.1, SUCCESS) else (r.1, ERROR_PSOCK_EPOLL_CTL_FAILED)

/-- resume parameter of a reader (src/psock/platform/epoll/psock_idle_fiber_entry.c:76-92) -/
def readParam (filter : Mask) : BitVec 64 :=
  let p := 0#64
  let p := if has filter EPOLLERR then p ||| FLAG_ERROR else p
  if has filter EPOLLHUP || has filter EPOLLRDHUP then p ||| FLAG_EOF else p

/-- resume parameter of a writer (psock_idle_fiber_entry.c:112-128) -/
def writeParam (filter : Mask) : BitVec 64 :=
  let p := 0#64
  let p := if has filter EPOLLERR then p ||| FLAG_ERROR else p
  if has filter EPOLLHUP then p ||| FLAG_EOF else p

/-- The reader's part of the loop body (psock_idle_fiber_entry.c:73-107). -/
def wakeReader (env : Env) (w : World) (ps : Nat) (filter : Mask) : World × Status :=
  if has filter EPOLLIN ∧ (w.socks ps).rd ≠ 0 then
    if env.add w.runq ≠ SUCCESS then (w, env.add w.runq)
    else
      (setSock { w with runq := w.runq ++ [⟨(w.socks ps).rd, 0, readParam filter⟩] } ps
        { w.socks ps with rd := 0 }, SUCCESS)
  else (w, SUCCESS)

/-- The writer's part of the loop body (psock_idle_fiber_entry.c:109-143). -/
def wakeWriter (env : Env) (w : World) (ps : Nat) (filter : Mask) : World × Status :=
  if has filter EPOLLOUT ∧ (w.socks ps).wr ≠ 0 then
    if env.add w.runq ≠ SUCCESS then (w, env.add w.runq)
    else
      (setSock { w with runq := w.runq ++ [⟨(w.socks ps).wr, 1, writeParam filter⟩] } ps
        { w.socks ps with wr := 0 }, SUCCESS)
  else (w, SUCCESS)

/-- Arming again (psock_idle_fiber_entry.c:145-176); a failure is ignored. -/
def rearm (env : Env) (w : World) (ps : Nat) : World :=
  if (w.socks ps).rd ≠ 0 ∨ (w.socks ps).wr ≠ 0 then (arm env w ps (waitMask (w.socks ps))).1 else w

/-- One iteration of the loop over the outputs (psock_idle_fiber_entry.c:61-177). -/
def idleOne (env : Env) (w : World) (ps : Nat) (filter : Mask) : World × Status :=
  let r := wakeReader env w ps filter
  if r.2 ≠ SUCCESS then r
  else
    let r := wakeWriter env r.1 ps filter
    if r.2 ≠ SUCCESS then r
    else (rearm env r.1 ps, SUCCESS)

/-- The loop over the outputs of one `epoll_wait` (psock_idle_fiber_entry.c:60-177). -/
def idleBatch (env : Env) : World → List (Nat × Mask) → World × Status
  | w, [] => (w, SUCCESS)
  | w, (ps, filter) :: evs =>
    let r := idleOne env w ps filter
    if r.2 ≠ SUCCESS then r else idleBatch env r.1 evs

/-- The kernel reports a socket registered one-shot and disables it.
Not in the code: the kernel's side of `epoll_wait` in src/psock/platform/epoll/psock_idle_fiber_entry.c. -/
def report (w : World) (evs : List (Nat × Mask)) : World :=
  { w with armed := fun p => if p ∈ evs.map Prod.fst then some 0#32 else w.armed p }

/-- `epoll_wait` (psock_idle_fiber_entry.c:46-58) followed by the loop over its outputs. -/
def idlePass (env : Env) (w : World) (evs : List (Nat × Mask)) : World × Status :=
  idleBatch env (report w evs) evs

/-- What `epoll_wait` may return: different sockets, each registered and not disabled, with
events the socket was registered for, or an error or a hang-up, which are always reported.
Not in the code: the kernel's side of `epoll_wait` in src/psock/platform/epoll/psock_idle_fiber_entry.c. -/
def KernelMayReport (w : World) (evs : List (Nat × Mask)) : Prop :=
  (evs.map Prod.fst).Nodup ∧
  ∀ e ∈ evs, e.2 ≠ 0#32 ∧ ∃ m, w.armed e.1 = some m ∧ m ≠ 0#32 ∧
    e.2 &&& ~~~(m ||| EPOLLERR ||| EPOLLHUP) = 0#32

/-- `psock_read_block` up to the yield (src/psock/psock_read_block.c:86-102); the callback handler
runs on the yield. If the handler fails, so does the yield (fiber_scheduler_yield.c:70-77), and `readResume` follows
at once. -/
def readBlock (env : Env) (w : World) (fib ps : Nat) : World × Status :=
  if (w.socks ps).rd ≠ 0 then (w, ERROR_PSOCK_DOUBLE_BLOCK_UNSUPPORTED)
  else readWait env (setSock w ps { w.socks ps with rd := fib }) ps

/-- `psock_read_block` after the yield (src/psock/psock_read_block.c:104-106). -/
def readResume (w : World) (ps : Nat) : World := setSock w ps { w.socks ps with rd := 0 }

/-- `psock_write_block` up to the yield (src/psock/psock_write_block.c:83-99). -/
def writeBlock (env : Env) (w : World) (fib ps : Nat) : World × Status :=
  if (w.socks ps).wr ≠ 0 then (w, ERROR_PSOCK_DOUBLE_BLOCK_UNSUPPORTED)
  else writeWait env (setSock w ps { w.socks ps with wr := fib }) ps

/-- `psock_write_block` after the yield (src/psock/psock_write_block.c:101-103). -/
def writeResume (w : World) (ps : Nat) : World := setSock w ps { w.socks ps with wr := 0 }

end Rcpr.Epoll
