import Verif.Fiber
import Verif.Props.Epoll

/-!
A disciplined scheduler with the psock I/O discipline (epoll) and management requests: fibers that block on sockets,
the idle fiber that wakes them, and requests that reach them meanwhile. `Verif.Epoll` has the sockets and the pass of
the idle fiber; here are the scheduler around it and the loops of `psock_read_block` and `psock_write_block`.

Fibers and psocks are numbers, `0` is NULL. One step is one yield of the running fiber, up to the point where a fiber
runs code of its own again. Simplifications: the mailboxes, conditions and the management fiber of
`Verif.Fiber` are left out (its callbacks are repeated here for the events used); adding to the run queue
succeeds in the pass of the idle fiber; the handlers for unexpected events make no calls that yield, and
are set before they are needed.
-/
namespace Rcpr.Io

open Rcpr Epoll

/-- the disciplines.
Only compared for equality (fiber_scheduler_internal_discipline_id.c, fiber_scheduler_management_discipline_definitions.c, src/psock/psock_io_discipline_definitions.c). -/
inductive Did
  | internal
  | mgmt
  | psock
  deriving DecidableEq

/-- What a fiber is resumed with (src/fiber/common/fiber_internal.h:40-42). -/
structure Ev where
  disc : Did
  code : Nat
  param : Nat
  deriving DecidableEq

/-- Yielding calls. `block` is one round of the loop in `psock_read_block` or `psock_write_block`, `poll` one round of
the idle fiber, with what `epoll_wait` returned.
(include/rcpr/fiber.h, src/psock/psock_read_block.c, src/psock/psock_write_block.c, src/psock/platform/epoll/psock_idle_fiber_entry.c) -/
inductive Call
  | run
  | add (f : Nat)
  | stop
  | quiesce (f : Nat)
  | terminate (f : Nat)
  | quiesceAll
  | terminateAll
  | block (sd : Side) (ps : Nat)
  | poll (evs : List (Nat × Mask))
  deriving DecidableEq

/-- The scheduler (fiber_internal.h:47-84), the fields of the fibers, sockets and interest list. Not in the code:
`call`, the call a fiber that does not run is inside of, and `todo`, the round the running fiber has to make next. -/
structure Sys where
  ev : Nat → Ev
  state : Nat → Fiber.FState
  call : Nat → Option Call
  cur : Nat
  runq : List Nat
  idle : Nat
  tree : List Nat
  io : World
  todo : Option Call

/-- `owner` is the fiber given to `psock_create_wrap_async` (field `fib`, psock_create_wrap_async.c:184), `handler` tells
which fibers have a handler for unexpected events (fiber_unexpected_event_callback_add.c:37-50). -/
structure Cfg where
  owner : Nat → Nat
  handler : Nat → Bool

/-- The answers of the environment: `q k` for the k-th allocation of a run queue node, `a` for the insertion into the
tree of fibers, `ctl` for `epoll_ctl` as in `Epoll.Env`, `h` of the handler for unexpected events.
Not in the code: the allocator, the kernel, the user's handler. -/
structure Oracle where
  q : Nat → Status
  a : Status
  ctl : Nat → Bool
  h : Status

/-- `restore_discipline_id`, `restore_reason_code`, `restore_param` of a fiber (src/fiber/common/fiber_internal.h:40-42). -/
def setEv (w : Sys) (f : Nat) (e : Ev) : Sys := { w with ev := fun g => if g = f then e else w.ev g }

/-- disciplined_fiber_scheduler_add_fiber_to_run_queue.c:44-67 -/
def back (w : Sys) (f : Nat) (e : Ev) (st : Status) : Sys × Status :=
  if st ≠ SUCCESS then (setEv w f e, st) else ({ setEv w f e with runq := w.runq ++ [f] }, SUCCESS)

/-- disciplined_fiber_scheduler_set_next_fiber_to_run.c:45-68 -/
def front (w : Sys) (f : Nat) (e : Ev) (st : Status) : Sys × Status :=
  if st ≠ SUCCESS then (setEv w f e, st) else ({ setEv w f e with runq := f :: w.runq }, SUCCESS)

/-! ### Callbacks (src/fiber/common/fiber_scheduler_create_with_disciplines.c) -/

/-- run (735-762) -/
def runH (w : Sys) (y : Nat) (o : Oracle) : Sys × Status :=
  if y = w.idle then (w, SUCCESS) else back w y ⟨.internal, Fiber.RESUME_RUN, 0⟩ (o.q 0)

/-- add (818-895), no management fiber -/
def addH (w : Sys) (y f : Nat) (o : Oracle) : Sys × Status :=
  if o.a ≠ SUCCESS then (w, o.a)
  else
    let r := back { w with tree := Fiber.insertFib f w.tree } f ⟨.internal, Fiber.RESUME_ADD_FIBER, 0⟩ (o.q 0)
    if r.2 ≠ SUCCESS then ({ r.1 with tree := w.tree }, r.2)
    else front r.1 y ⟨.internal, Fiber.RESUME_ADD_FIBER, 0⟩ (o.q 1)

/-- stop (911-952) after fiber_entry.c:36 -/
def stopH (w : Sys) (y : Nat) : Sys × Status :=
  ({ w with state := fun g => if g = y then .stopped else w.state g }, SUCCESS)

/-- quiesce and terminate (1039-1094, 1110-1165) -/
def requestH (code : Nat) (w : Sys) (y f : Nat) (o : Oracle) : Sys × Status :=
  if w.state f ≠ .running then front w y ⟨.mgmt, Fiber.MGMT_REQUEST_RESULT, ERROR_FIBER_INVALID_STATE.toNat⟩ (o.q 0)
  else
    let r := front w y ⟨.mgmt, Fiber.MGMT_REQUEST_RESULT, SUCCESS.toNat⟩ (o.q 0)
    if r.2 ≠ SUCCESS then r else front r.1 f ⟨.mgmt, code, 0⟩ (o.q 1)

/-- the loop of quiesce all and terminate all (1196-1219, 1258-1282) -/
def requestLoop (code y : Nat) (o : Oracle) : List Nat → Nat → Sys → Sys × Status × Nat
  | [], k, w => (w, SUCCESS, k)
  | f :: fs, k, w =>
    if y ≠ f ∧ w.state f = .running then
      let r := back w f ⟨.mgmt, code, 0⟩ (o.q k)
      if r.2 ≠ SUCCESS then (r.1, r.2, k) else requestLoop code y o fs (k + 1) r.1
    else requestLoop code y o fs k w

/-- quiesce all and terminate all (1181-1227, 1243-1290) -/
def requestAllH (code : Nat) (w : Sys) (y : Nat) (o : Oracle) : Sys × Status :=
  let r := requestLoop code y o w.tree 0 w
  if r.2.1 ≠ SUCCESS then (r.1, r.2.1)
  else back r.1 y ⟨.mgmt, Fiber.MGMT_REQUEST_RESULT, SUCCESS.toNat⟩ (o.q r.2.2)

/-- psock_read_block.c:91-102 and the callback, psock_write_block.c:88-99 likewise: `Epoll.block`. -/
def blockH (w : Sys) (y : Nat) (sd : Side) (ps : Nat) (o : Oracle) : Sys × Status :=
  let r := Epoll.block ⟨fun _ => SUCCESS, o.ctl⟩ w.io ⟨y, ps, sd⟩
  ({ w with io := r.1 }, r.2)

/-- the fibers found by a pass of the idle fiber go to the run queue.
By disciplined_fiber_scheduler_add_fiber_to_run_queue.c, called in src/psock/platform/epoll/psock_idle_fiber_entry.c. -/
def wakeAll : List Wake → Sys → Sys
  | [], w => w
  | k :: ks, w => wakeAll ks (back w k.fib ⟨.psock, k.event, k.param.toNat⟩ SUCCESS).1

/-- A round of the idle fiber (src/psock/platform/epoll/psock_idle_fiber_entry.c:43-185): `Epoll.idlePass`, then
`fiber_scheduler_run`. -/
def pollH (w : Sys) (y : Nat) (evs : List (Nat × Mask)) (o : Oracle) : Sys × Status :=
  let r := idlePass ⟨fun _ => SUCCESS, o.ctl⟩ { w.io with runq := [] } evs
  runH (wakeAll r.1.runq { w with io := { r.1 with runq := [] } }) y o

/-! ### The dispatch -/

/-- The callback a call leads to (fiber_scheduler_create_with_disciplines.c:664-673). -/
def handler (w : Sys) (c : Call) (o : Oracle) : Sys × Status :=
  match c with
  | .run => runH w w.cur o
  | .add f => addH w w.cur f o
  | .stop => stopH w w.cur
  | .quiesce f => requestH Fiber.MGMT_QUIESCE_REQUEST w w.cur f o
  | .terminate f => requestH Fiber.MGMT_TERMINATION_REQUEST w w.cur f o
  | .quiesceAll => requestAllH Fiber.MGMT_QUIESCE_REQUEST w w.cur o
  | .terminateAll => requestAllH Fiber.MGMT_TERMINATION_REQUEST w w.cur o
  | .block sd ps => blockH w w.cur sd ps o
  | .poll evs => pollH w w.cur evs o

/-- What happens next: the call fails at once, a fiber is entered, it is resumed from a call, or from a call of
`psock_read_block` or `psock_write_block`: then `told` is the fiber whose handler was called with the event, and `res`
what the function returns, if it does not go round again.
(fiber_scheduler_yield.c:80-93, psock_read_block.c, psock_write_block.c) -/
inductive Next
  | fail (st : Status)
  | start (f : Nat) (e : Ev)
  | ret (f : Nat) (c : Call) (e : Ev)
  | blk (f : Nat) (sd : Side) (ps : Nat) (e : Ev) (told : Option Nat) (res : Option Status)
  deriving DecidableEq

/-- Not in the code: a record of one call, for the specification. -/
structure Item where
  who : Nat
  call : Call
  next : Next
  deriving DecidableEq

/-- After the yield the fiber is no longer blocked (psock_read_block.c:104-106, psock_write_block.c:101-103). -/
def leave (w : Sys) (f : Nat) (sd : Side) (ps : Nat) : Sys := { w with io := Epoll.resume w.io ⟨f, ps, sd⟩ }

/-- Fiber `f` runs again with event `e`: fiber_scheduler_yield.c:80-93, psock_read_block.c:104-138 (psock_write_block.c
likewise), fiber_unexpected_event.c:40-62. -/
def arrive (cfg : Cfg) (w : Sys) (f : Nat) (e : Ev) (o : Oracle) : Sys × Next :=
  match w.call f with
  | none => ({ setEv w f e with cur := f, state := fun g => if g = f then .running else w.state g }, .start f e)
  | some c =>
    let w := { setEv w f e with cur := f, call := fun g => if g = f then none else w.call g }
    match c with
    | .block sd ps =>
      let w := leave w f sd ps
      if e.disc = .psock then (w, .blk f sd ps e none (some SUCCESS))
      else if cfg.handler (cfg.owner ps) = false then (w, .blk f sd ps e none (some ERROR_FIBER_NO_UNEXPECTED_HANDLER))
      else if o.h ≠ SUCCESS then (w, .blk f sd ps e (some (cfg.owner ps)) (some o.h))
      else ({ w with todo := some (.block sd ps) }, .blk f sd ps e (some (cfg.owner ps)) none)
    | c => (w, .ret f c e)

/-- The fiber `y` is now inside call `c`. Not in the code: which call is on the stack of the fiber. -/
def setCall (w : Sys) (y : Nat) (c : Call) : Sys := { w with call := fun g => if g = y then some c else w.call g }

/-- A call that fails at once returns to its fiber.
(fiber_scheduler_yield.c:70-77, psock_read_block.c:104-106, psock_write_block.c:101-103) -/
def failed (w : Sys) (y : Nat) (c : Call) (st : Status) : Sys × Item :=
  match c with
  | .block sd ps => (leave w y sd ps, ⟨y, c, .fail st⟩)
  | _ => (w, ⟨y, c, .fail st⟩)

/-- A fiber is refused before it yields if another is blocked there (psock_read_block.c:85-89,
psock_write_block.c:82-86). -/
def busy (w : Sys) : Call → Bool
  | .block sd ps => (w.io.socks ps).reg sd != 0
  | _ => false

/-- One yield: fiber_scheduler_yield.c:52-100, fiber_scheduler_create_with_disciplines.c:654-719. -/
def step (cfg : Cfg) (w : Sys) (c : Call) (o : Oracle) : Sys × Item :=
  let w := { w with todo := none }
  if busy w c then (w, ⟨w.cur, c, .fail ERROR_PSOCK_DOUBLE_BLOCK_UNSUPPORTED⟩)
  else
    let r := handler w c o
    if r.2 ≠ SUCCESS then failed r.1 w.cur c r.2
    else
      match r.1.runq with
      | f :: q =>
        let s := arrive cfg { setCall r.1 w.cur c with runq := q } f (r.1.ev f) o
        (s.1, ⟨w.cur, c, s.2⟩)
      | [] =>
        if r.1.idle ≠ 0 then
          let s := arrive cfg (setCall r.1 w.cur c) r.1.idle ⟨.internal, Fiber.RESUME_IDLE, 0⟩ o
          (s.1, ⟨w.cur, c, s.2⟩)
        else failed r.1 w.cur c ERROR_FIBER_SCHEDULER_EXHAUSTED

/-- The main fiber runs; nothing is registered.
(fiber_scheduler_create_with_disciplines.c, psock_create_wrap_async.c) -/
def init (main idle : Nat) : Sys :=
  { ev := fun _ => ⟨.internal, Fiber.RESUME_MAIN, 0⟩
    state := fun f => if f = main then .running else .created
    call := fun _ => none
    cur := main
    runq := []
    idle := idle
    tree := []
    io := ⟨fun _ => ⟨0, 0⟩, fun _ => none, []⟩
    todo := none }

/-- What fibers do: the idle fiber polls, the kernel answering it in its way, and does nothing else; it is set by
`psock_create_wrap_async` and known to nobody else. The fibers given to calls exist. A fiber whose handler asked for another round makes it.
(src/psock/psock_create_wrap_async.c, disciplined_fiber_scheduler_set_idle_fiber.c) -/
structure Enabled (w : Sys) (c : Call) : Prop where
  todo : ∀ d, w.todo = some d → c = d
  idle : w.cur = w.idle ↔ ∃ evs, c = .poll evs
  kernel : ∀ evs, c = .poll evs → KernelMayReport w.io evs
  known : ∀ f, c = .add f ∨ c = .quiesce f ∨ c = .terminate f → f ≠ w.idle ∧ f ≠ 0

/-- Histories of calls that satisfy `P`; `tr` is what can be seen.
Not in the code: the program that makes the calls. -/
inductive Hist (cfg : Cfg) (P : Sys → Call → Oracle → Prop) (main idle : Nat) : Sys → List Item → Prop
  | init : main ≠ 0 → main ≠ idle → Hist cfg P main idle (init main idle) []
  | step {w tr} (c : Call) (o : Oracle) : Hist cfg P main idle w tr → Enabled w c → P w c o →
      Hist cfg P main idle (step cfg w c o).1 (tr ++ [(step cfg w c o).2])

end Rcpr.Io
