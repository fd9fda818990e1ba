import Verif.Status

/-!
Model of a disciplined scheduler with the internal, management, message and condition disciplines:
`src/fiber/common`, `src/message`, `src/condition`.

Fibers are numbers, `0` is the NULL pointer. One step of the model is one yielding API call made by the
fiber that runs; it ends when some fiber runs again. What a fiber does between its calls is left open: a
history is any list of calls, each made by whichever fiber is then running.

Simplifications. The red-black trees of fibers, mailboxes and conditions are finite maps (they are
modelled in their own module); the run queue, the message queues and the wait lists are lists (queue and
slist are modelled in their own modules); reclaiming a queue node or a list node succeeds. The switch of
stacks (`fiber_switch.s`) is the change of `cur`. Registering the disciplines and the numbering of
callbacks is in `Verif.Disc`. The counters of addresses are natural numbers (`uint64_t` in C, 2^64
creations to wrap).
-/
namespace Rcpr.Fiber

open Rcpr

/-- the ids of the disciplines.
Only compared for equality (fiber_scheduler_internal_discipline_id.c, fiber_scheduler_management_discipline_definitions.c, src/message/message_discipline_definitions.c, src/condition/fiber/condition_discipline_definitions.c). -/
inductive Did
  | internal
  | mgmt
  | msg
  | cond
  deriving DecidableEq

/-- What a fiber is resumed with: discipline id, event and parameter (`restore_discipline_id`,
`restore_reason_code`, `restore_param`, src/fiber/common/fiber_internal.h:40-42). A status in the
parameter is the number it is cast to. -/
structure Ev where
  disc : Did
  code : Nat
  param : Nat
  deriving DecidableEq

/-! Resume events: include/rcpr/fiber.h:67-81. -/
/-- (include/rcpr/fiber.h:70) -/
def RESUME_MAIN : Nat := 0x10
/-- (include/rcpr/fiber.h:71) -/
def RESUME_ADD_FIBER : Nat := 0x11
/-- (include/rcpr/fiber.h:72) -/
def RESUME_RUN : Nat := 0x12
/-- (include/rcpr/fiber.h:73) -/
def RESUME_RESOURCE_RELEASE : Nat := 0x13
/-- (include/rcpr/fiber.h:76) -/
def RESUME_IDLE : Nat := 0x20
/-! include/rcpr/fiber/disciplines/management.h:52-65 -/
/-- (include/rcpr/fiber/disciplines/management.h:52) -/
def MGMT_FIBER_ADD : Nat := 0
/-- (include/rcpr/fiber/disciplines/management.h:55) -/
def MGMT_FIBER_STOP : Nat := 1
/-- (include/rcpr/fiber/disciplines/management.h:58) -/
def MGMT_QUIESCE_REQUEST : Nat := 2
/-- (include/rcpr/fiber/disciplines/management.h:61) -/
def MGMT_TERMINATION_REQUEST : Nat := 3
/-- (include/rcpr/fiber/disciplines/management.h:65) -/
def MGMT_REQUEST_RESULT : Nat := 4
/-! include/rcpr/fiber/disciplines/message.h:49-67 -/
/-- (include/rcpr/fiber/disciplines/message.h:49) -/
def MSG_CREATE_SUCCESS : Nat := 0
/-- (include/rcpr/fiber/disciplines/message.h:52) -/
def MSG_CREATE_FAILURE : Nat := 1
/-- (include/rcpr/fiber/disciplines/message.h:55) -/
def MSG_CLOSE : Nat := 2
/-- (include/rcpr/fiber/disciplines/message.h:58) -/
def MSG_SEND_SUCCESS : Nat := 3
/-- (include/rcpr/fiber/disciplines/message.h:61) -/
def MSG_SEND_FAILURE : Nat := 4
/-- (include/rcpr/fiber/disciplines/message.h:64) -/
def MSG_RECEIVE_SUCCESS : Nat := 5
/-- (include/rcpr/fiber/disciplines/message.h:67) -/
def MSG_RECEIVE_FAILURE : Nat := 6
/-! include/rcpr/fiber/disciplines/condition.h:54-81 -/
/-- (include/rcpr/fiber/disciplines/condition.h:54) -/
def COND_CREATE_SUCCESS : Nat := 0
/-- (include/rcpr/fiber/disciplines/condition.h:57) -/
def COND_CREATE_FAILURE : Nat := 1
/-- (include/rcpr/fiber/disciplines/condition.h:62) -/
def COND_CLOSE_SUCCESS : Nat := 2
/-- (include/rcpr/fiber/disciplines/condition.h:65) -/
def COND_CLOSE_FAILURE : Nat := 3
/-- (include/rcpr/fiber/disciplines/condition.h:70) -/
def COND_WAIT_SUCCESS : Nat := 4
/-- (include/rcpr/fiber/disciplines/condition.h:73) -/
def COND_WAIT_FAILURE : Nat := 5
/-- (include/rcpr/fiber/disciplines/condition.h:78) -/
def COND_NOTIFY_SUCCESS : Nat := 6
/-- (include/rcpr/fiber/disciplines/condition.h:81) -/
def COND_NOTIFY_FAILURE : Nat := 7

/-- `enum fiber_state` (include/rcpr/fiber.h:86-96) -/
inductive FState
  | created
  | running
  | stopped
  deriving DecidableEq

/-- The yielding API calls.
(include/rcpr/fiber.h, message.h, condition.h; the functions behind them are cited at the handlers below) -/
inductive Call
  | run
  | add (f : Nat)
  | stop
  | release
  | mgmtReceive
  | quiesce (f : Nat)
  | terminate (f : Nat)
  | quiesceAll
  | terminateAll
  | boxCreate
  | boxClose (a : Nat)
  | send (a m : Nat)
  | receive (a : Nat)
  | condCreate
  | condClose (h : Nat)
  | wait (h : Nat)
  | notifyOne (h : Nat)
  | notifyAll (h : Nat)
  deriving DecidableEq

/-- `struct mailbox` (src/message/message_internal.h:38-48) -/
structure Box where
  blocked : Nat
  msgs : List Nat
  deriving DecidableEq

/-- The scheduler (fiber_internal.h:47-84), the fields of the fibers, the contexts of the message and
condition disciplines (message_internal.h:53-64, condition_internal.h:40-51). `call` is not in the code:
it is the API call a fiber that does not run is inside of. -/
structure Sys where
  ev : Nat → Ev
  state : Nat → FState
  call : Nat → Option Call
  cur : Nat
  runq : List Nat
  idle : Nat
  mgmt : Nat
  tree : List Nat
  boxes : Nat → Option Box
  mindex : Nat
  conds : Nat → Option (List Nat)
  cindex : Nat

/-- The answers the environment gives during one call: `q k` for the k-th allocation of a run queue
node, `a k` for the k-th of the other fallible operations.
Not in the code: the allocator and the releases of resources. -/
structure Oracle where
  q : Nat → Status
  a : Nat → Status

/-- `restore_discipline_id`, `restore_reason_code`, `restore_param` of a fiber (src/fiber/common/fiber_internal.h:40-42). -/
def setEv (w : Sys) (f : Nat) (e : Ev) : Sys :=
  { w with ev := fun g => if g = f then e else w.ev g }

/-- `disciplined_fiber_scheduler_add_fiber_to_run_queue`
(disciplined_fiber_scheduler_add_fiber_to_run_queue.c:44-67): the fields are set first, the append may
fail. -/
def back (w : Sys) (f : Nat) (e : Ev) (st : Status) : Sys × Status :=
  if st ≠ SUCCESS then (setEv w f e, st)
  else ({ setEv w f e with runq := w.runq ++ [f] }, SUCCESS)

/-- `disciplined_fiber_scheduler_set_next_fiber_to_run`
(disciplined_fiber_scheduler_set_next_fiber_to_run.c:45-68). -/
def front (w : Sys) (f : Nat) (e : Ev) (st : Status) : Sys × Status :=
  if st ≠ SUCCESS then (setEv w f e, st)
  else ({ setEv w f e with runq := f :: w.runq }, SUCCESS)

/-! ### Internal callbacks (src/fiber/common/fiber_scheduler_create_with_disciplines.c) -/

/-- run (735-762) -/
def runH (w : Sys) (y : Nat) (o : Oracle) : Sys × Status :=
  if y = w.idle then (w, SUCCESS)
  else back w y ⟨.internal, RESUME_RUN, 0⟩ (o.q 0)

/-- the tree of fibers is ordered by pointer.
`fibers_by_pointer` (src/fiber/common/fiber_internal.h:76). Simplified: a sorted list instead of the red-black tree, see Verif.FibTree. -/
def insertFib (f : Nat) : List Nat → List Nat
  | [] => [f]
  | g :: gs => if f < g then f :: g :: gs else g :: insertFib f gs

/-- add (818-895). `fiber_scheduler_add` (fiber_scheduler_add.c:44-85) calls it like a yield. The
removal from the tree after a failing append is taken to succeed. -/
def addH (w : Sys) (y f : Nat) (o : Oracle) : Sys × Status :=
  if o.a 0 ≠ SUCCESS then (w, o.a 0)
  else
    let r := back { w with tree := insertFib f w.tree } f ⟨.internal, RESUME_ADD_FIBER, 0⟩ (o.q 0)
    if r.2 ≠ SUCCESS then ({ r.1 with tree := w.tree }, r.2)
    else
      let r := front r.1 y ⟨.internal, RESUME_ADD_FIBER, 0⟩ (o.q 1)
      if r.2 ≠ SUCCESS then r
      else if w.mgmt ≠ 0 then
        let r := front r.1 w.mgmt ⟨.mgmt, MGMT_FIBER_ADD, f⟩ (o.q 2)
        if r.2 ≠ SUCCESS then r else ({ r.1 with mgmt := 0 }, SUCCESS)
      else (r.1, SUCCESS)

/-- stop (911-952), called at the end of `fiber_entry` (fiber_entry.c:26-46), which sets the state
first (36). -/
def stopH (w : Sys) (y : Nat) (o : Oracle) : Sys × Status :=
  let w := { w with state := fun g => if g = y then .stopped else w.state g }
  if w.mgmt ≠ 0 then
    let r := front w w.mgmt ⟨.mgmt, MGMT_FIBER_STOP, y⟩ (o.q 0)
    if r.2 ≠ SUCCESS then r else ({ r.1 with mgmt := 0 }, SUCCESS)
  else (w, SUCCESS)

/-- resource release (968-987) -/
def releaseH (w : Sys) (y : Nat) (o : Oracle) : Sys × Status :=
  front w y ⟨.internal, RESUME_RESOURCE_RELEASE, 0⟩ (o.q 0)

/-! ### Management callbacks (same file) -/

/-- receive event (1003-1023) -/
def mgmtReceiveH (w : Sys) (y : Nat) : Sys × Status := ({ w with mgmt := y }, SUCCESS)

/-- quiesce and terminate (1039-1094, 1110-1165): the two differ in the event `code`. -/
def requestH (code : Nat) (w : Sys) (y f : Nat) (o : Oracle) : Sys × Status :=
  if w.state f ≠ .running then
    front w y ⟨.mgmt, MGMT_REQUEST_RESULT, ERROR_FIBER_INVALID_STATE.toNat⟩ (o.q 0)
  else
    let r := front w y ⟨.mgmt, MGMT_REQUEST_RESULT, SUCCESS.toNat⟩ (o.q 0)
    if r.2 ≠ SUCCESS then r
    else front r.1 f ⟨.mgmt, code, 0⟩ (o.q 1)

/-- the loop of quiesce all and terminate all (1196-1219, 1258-1282), `k` allocations done so far -/
def requestLoop (code y : Nat) (o : Oracle) : List Nat → Nat → Sys → Sys × Status × Nat
  | [], k, w => (w, SUCCESS, k)
  | f :: fs, k, w =>
    if y ≠ f ∧ w.mgmt ≠ f ∧ w.state f = .running then
      let r := back w f ⟨.mgmt, code, 0⟩ (o.q k)
      if r.2 ≠ SUCCESS then (r.1, r.2, k) else requestLoop code y o fs (k + 1) r.1
    else requestLoop code y o fs k w

/-- quiesce all and terminate all (1181-1227, 1243-1290) -/
def requestAllH (code : Nat) (w : Sys) (y : Nat) (o : Oracle) : Sys × Status :=
  let r := requestLoop code y o w.tree 0 w
  if r.2.1 ≠ SUCCESS then (r.1, r.2.1)
  else back r.1 y ⟨.mgmt, MGMT_REQUEST_RESULT, SUCCESS.toNat⟩ (o.q r.2.2)

/-! ### Message callbacks (src/message) -/

/-- The tree `mailboxes` (src/message/message_internal.h:62). Simplified: a map instead of the red-black tree, see Verif.MsgTree. -/
def setBox (w : Sys) (a : Nat) (b : Option Box) : Sys :=
  { w with boxes := fun x => if x = a then b else w.boxes x }

/-- `mailbox_resource_create` (mailbox_resource_create.c:42-106): the statuses of the allocation, of
`queue_create` and of the reclaim on failure. -/
def boxResource (alloc queue reclaim : Status) : Status :=
  if alloc ≠ SUCCESS then alloc
  else if queue ≠ SUCCESS then
    if reclaim ≠ SUCCESS then reclaim else queue
  else SUCCESS

/-- create (message_discipline_mailbox_create_callback_handler.c:33-96): `a 0`, `a 1`, `a 2` for
`mailbox_resource_create`, `a 3` the tree insertion, `a 4` the release of the mailbox. Line 82 tests
`retval`, so the status becomes that of the release. -/
def boxCreateH (w : Sys) (y : Nat) (o : Oracle) : Sys × Status :=
  let addr := w.mindex + 1
  let st := boxResource (o.a 0) (o.a 1) (o.a 2)
  if st ≠ SUCCESS then front w y ⟨.msg, MSG_CREATE_FAILURE, st.toNat⟩ (o.q 0)
  else if o.a 3 ≠ SUCCESS then
    let st := if o.a 3 ≠ SUCCESS then o.a 4 else o.a 3
    front w y ⟨.msg, MSG_CREATE_FAILURE, st.toNat⟩ (o.q 0)
  else
    front { setBox w addr (some ⟨0, []⟩) with mindex := w.mindex + 1 } y ⟨.msg, MSG_CREATE_SUCCESS, addr⟩ (o.q 0)

/-- close (message_discipline_mailbox_close_callback_handler.c:32-74): `rbtree_delete` finds the
mailbox, takes it out of the tree and releases it with its messages; `a 0` is the status of that
release. -/
def boxCloseH (w : Sys) (y a : Nat) (o : Oracle) : Sys × Status :=
  match w.boxes a with
  | none => front w y ⟨.msg, MSG_CLOSE, ERROR_RBTREE_NOT_FOUND.toNat⟩ (o.q 0)
  | some _ => front (setBox w a none) y ⟨.msg, MSG_CLOSE, (o.a 0).toNat⟩ (o.q 0)

/-- send (message_discipline_message_send_callback_handler.c:34-132); `a 0` is the allocation of the
queue node for the message. -/
def sendH (w : Sys) (y a m : Nat) (o : Oracle) : Sys × Status :=
  match w.boxes a with
  | none => front w y ⟨.msg, MSG_SEND_FAILURE, ERROR_RBTREE_NOT_FOUND.toNat⟩ (o.q 0)
  | some b =>
    if o.a 0 ≠ SUCCESS then front w y ⟨.msg, MSG_SEND_FAILURE, (o.a 0).toNat⟩ (o.q 0)
    else
      let w := setBox w a (some ⟨b.blocked, b.msgs ++ [m]⟩)
      let r := front w y ⟨.msg, MSG_SEND_SUCCESS, 0⟩ (o.q 0)
      if r.2 ≠ SUCCESS then r
      else if b.blocked ≠ 0 then
        match b.msgs ++ [m] with
        | [] => (setBox r.1 a (some ⟨0, []⟩), SUCCESS)
        | m' :: ms => front (setBox r.1 a (some ⟨0, ms⟩)) b.blocked ⟨.msg, MSG_RECEIVE_SUCCESS, m'⟩ (o.q 1)
      else (r.1, SUCCESS)

/-- receive (message_discipline_message_receive_callback_handler.c:34-112) -/
def receiveH (w : Sys) (y a : Nat) (o : Oracle) : Sys × Status :=
  match w.boxes a with
  | none => front w y ⟨.msg, MSG_RECEIVE_FAILURE, ERROR_RBTREE_NOT_FOUND.toNat⟩ (o.q 0)
  | some b =>
    match b.msgs with
    | [] =>
      if b.blocked ≠ 0 then
        front w y ⟨.msg, MSG_RECEIVE_FAILURE, ERROR_MESSAGE_ALREADY_BLOCKED.toNat⟩ (o.q 0)
      else (setBox w a (some ⟨y, []⟩), SUCCESS)
    | m :: ms => front (setBox w a (some ⟨b.blocked, ms⟩)) y ⟨.msg, MSG_RECEIVE_SUCCESS, m⟩ (o.q 0)

/-! ### Condition callbacks (src/condition/fiber) -/

/-- The tree of condition barriers (src/condition/condition_internal.h). Simplified: a map instead of the red-black tree, see Verif.MsgTree. -/
def setCond (w : Sys) (h : Nat) (l : Option (List Nat)) : Sys :=
  { w with conds := fun x => if x = h then l else w.conds x }

/-- create (condition_discipline_create_callback_handler.c:33-96, condition_barrier_create.c:43-106);
same shape, and the same test in line 82, as the creation of a mailbox. -/
def condCreateH (w : Sys) (y : Nat) (o : Oracle) : Sys × Status :=
  let h := w.cindex + 1
  let st := boxResource (o.a 0) (o.a 1) (o.a 2)
  if st ≠ SUCCESS then front w y ⟨.cond, COND_CREATE_FAILURE, st.toNat⟩ (o.q 0)
  else if o.a 3 ≠ SUCCESS then
    let st := if o.a 3 ≠ SUCCESS then o.a 4 else o.a 3
    front w y ⟨.cond, COND_CREATE_FAILURE, st.toNat⟩ (o.q 0)
  else
    front { setCond w h (some []) with cindex := w.cindex + 1 } y ⟨.cond, COND_CREATE_SUCCESS, h⟩ (o.q 0)

/-- close (condition_discipline_close_callback_handler.c:32-74); the release of the barrier drops its
wait list (condition_barrier_create.c:117-161). -/
def condCloseH (w : Sys) (y h : Nat) (o : Oracle) : Sys × Status :=
  match w.conds h with
  | none => front w y ⟨.cond, COND_CLOSE_FAILURE, ERROR_RBTREE_NOT_FOUND.toNat⟩ (o.q 0)
  | some _ =>
    if o.a 0 ≠ SUCCESS then front (setCond w h none) y ⟨.cond, COND_CLOSE_FAILURE, (o.a 0).toNat⟩ (o.q 0)
    else front (setCond w h none) y ⟨.cond, COND_CLOSE_SUCCESS, SUCCESS.toNat⟩ (o.q 0)

/-- wait (condition_discipline_wait_callback_handler.c:34-78); `a 0` is the allocation of the list
node. -/
def waitH (w : Sys) (y h : Nat) (o : Oracle) : Sys × Status :=
  match w.conds h with
  | none => front w y ⟨.cond, COND_WAIT_FAILURE, ERROR_RBTREE_NOT_FOUND.toNat⟩ (o.q 0)
  | some l =>
    if o.a 0 ≠ SUCCESS then front w y ⟨.cond, COND_WAIT_FAILURE, (o.a 0).toNat⟩ (o.q 0)
    else (setCond w h (some (l ++ [y])), SUCCESS)

/-- notify one (condition_discipline_notify_one_callback_handler.c:34-106) -/
def notifyOneH (w : Sys) (y h : Nat) (o : Oracle) : Sys × Status :=
  match w.conds h with
  | none => back w y ⟨.cond, COND_NOTIFY_FAILURE, ERROR_RBTREE_NOT_FOUND.toNat⟩ (o.q 0)
  | some [] => back w y ⟨.cond, COND_NOTIFY_SUCCESS, SUCCESS.toNat⟩ (o.q 0)
  | some (f :: l) =>
    let r := back (setCond w h (some l)) f ⟨.cond, COND_WAIT_SUCCESS, SUCCESS.toNat⟩ (o.q 0)
    back r.1 y ⟨.cond, COND_NOTIFY_SUCCESS, r.2.toNat⟩ (o.q 1)

/-- the loop of notify all (condition_discipline_notify_all_callback_handler.c:64-86) over the wait
list; the last status is kept (`retval`) -/
def notifyLoop (o : Oracle) : List Nat → Nat → Status → Sys → Sys × Status × Nat
  | [], k, st, w => (w, st, k)
  | f :: l, k, _, w =>
    let r := back w f ⟨.cond, COND_WAIT_SUCCESS, SUCCESS.toNat⟩ (o.q k)
    notifyLoop o l (k + 1) r.2 r.1

/-- notify all (condition_discipline_notify_all_callback_handler.c:34-106) -/
def notifyAllH (w : Sys) (y h : Nat) (o : Oracle) : Sys × Status :=
  match w.conds h with
  | none => back w y ⟨.cond, COND_NOTIFY_FAILURE, ERROR_RBTREE_NOT_FOUND.toNat⟩ (o.q 0)
  | some l =>
    let r := notifyLoop o l 0 SUCCESS (setCond w h (some []))
    back r.1 y ⟨.cond, COND_NOTIFY_SUCCESS, r.2.1.toNat⟩ (o.q r.2.2)

/-! ### The dispatch -/

/-- the callback a call leads to (for the numbering see `Verif.Disc`)
(fiber_scheduler_create_with_disciplines.c:664-673). -/
def handler (w : Sys) (c : Call) (o : Oracle) : Sys × Status :=
  let y := w.cur
  match c with
  | .run => runH w y o
  | .add f => addH w y f o
  | .stop => stopH w y o
  | .release => releaseH w y o
  | .mgmtReceive => mgmtReceiveH w y
  | .quiesce f => requestH MGMT_QUIESCE_REQUEST w y f o
  | .terminate f => requestH MGMT_TERMINATION_REQUEST w y f o
  | .quiesceAll => requestAllH MGMT_QUIESCE_REQUEST w y o
  | .terminateAll => requestAllH MGMT_TERMINATION_REQUEST w y o
  | .boxCreate => boxCreateH w y o
  | .boxClose a => boxCloseH w y a o
  | .send a m => sendH w y a m o
  | .receive a => receiveH w y a o
  | .condCreate => condCreateH w y o
  | .condClose h => condCloseH w y h o
  | .wait h => waitH w y h o
  | .notifyOne h => notifyOneH w y h o
  | .notifyAll h => notifyAllH w y h o

/-- What happens next after a call was made: it fails at once and its fiber runs on, a fiber is resumed
from the call it was inside of, or a fiber is started.
Not in the code: a record of what `fiber_scheduler_yield` and `fiber_entry` lead to (fiber_scheduler_yield.c:80-93, fiber_entry.c). -/
inductive Next
  | fail (st : Status)
  | ret (f : Nat) (c : Call) (e : Ev)
  | start (f : Nat) (e : Ev)
  deriving DecidableEq

/-- What can be seen of one call: the fiber that made it, the call, and what happened next.
Not in the code: a record for the specification. -/
structure Item where
  who : Nat
  call : Call
  next : Next
  deriving DecidableEq

/-- The switch to fiber `f` (fiber_scheduler_yield.c:80-93): it sees event `e`. A fiber that is inside
no call is entered for the first time (fiber_entry.c:30 sets its state). -/
def switch (w : Sys) (f : Nat) (e : Ev) : Sys × Next :=
  match w.call f with
  | some c => ({ setEv w f e with cur := f, call := fun g => if g = f then none else w.call g }, .ret f c e)
  | none =>
    ({ setEv w f e with cur := f, state := fun g => if g = f then .running else w.state g }, .start f e)

/-- The fiber `y` is now inside call `c`. Not in the code: which call is on the stack of the fiber. -/
def setCall (w : Sys) (y : Nat) (c : Call) : Sys :=
  { w with call := fun g => if g = y then some c else w.call g }

/-- One call by the running fiber: `fiber_scheduler_yield` (fiber_scheduler_yield.c:52-100) and the
scheduler's callback (fiber_scheduler_create_with_disciplines.c:654-719). -/
def step (w : Sys) (c : Call) (o : Oracle) : Sys × Item :=
  let r := handler w c o
  if r.2 ≠ SUCCESS then (r.1, ⟨w.cur, c, .fail r.2⟩)
  else
    match r.1.runq with
    | f :: q =>
      let s := switch { setCall r.1 w.cur c with runq := q } f (r.1.ev f)
      (s.1, ⟨w.cur, c, s.2⟩)
    | [] =>
      if r.1.idle ≠ 0 then
        let s := switch (setCall r.1 w.cur c) r.1.idle ⟨.internal, RESUME_IDLE, 0⟩
        (s.1, ⟨w.cur, c, s.2⟩)
      else (r.1, ⟨w.cur, c, .fail ERROR_FIBER_SCHEDULER_EXHAUSTED⟩)

/-- A history: each call is made by the fiber that runs at that point.
Not in the code: the program that makes the calls. -/
def exec : Sys → List (Call × Oracle) → Sys × List Item
  | w, [] => (w, [])
  | w, (c, o) :: cs => ((exec (step w c o).1 cs).1, (step w c o).2 :: (exec (step w c o).1 cs).2)

/-- After `fiber_scheduler_create_with_disciplines` the main fiber runs, and `idle` has been set as
the idle fiber (0: none). (fiber_scheduler_create_with_disciplines.c, disciplined_fiber_scheduler_set_idle_fiber.c) -/
def init (main idle : Nat) : Sys :=
  { ev := fun _ => ⟨.internal, RESUME_MAIN, 0⟩
    state := fun f => if f = main then .running else .created
    call := fun _ => none
    cur := main
    runq := []
    idle := idle
    mgmt := 0
    tree := []
    boxes := fun _ => none
    mindex := 0
    conds := fun _ => none
    cindex := 0 }

/-! ### What the API functions make of the event they are resumed with -/

/-- `(status)(ptrdiff_t)resume_param`. As in src/message/message_send.c:66. -/
def statusOf (p : Nat) : Status := BitVec.ofNat 32 p

/-- Result of an API call: the status returned and the value stored to the output parameter, if any.
`mailbox_create` (mailbox_create.c:57-75), `mailbox_close` (mailbox_close.c:55-64), `message_send`
(message_send.c:62-79), `message_receive` (message_receive.c:64-86), `conditional_create`
(conditional_create.c:58-76), `conditional_close` (conditional_close.c:55-66), `conditional_wait`
(conditional_wait.c:55-72), `conditional_notify_one` and `_all` (conditional_notify_one.c:55-72),
`disciplined_fiber_scheduler_send_quiesce_request_to_fiber` and the three functions like it
(disciplined_fiber_scheduler_send_quiesce_request_to_fiber.c:68-78). The other calls hand the event to
their caller, or ignore it; for them the result is success. -/
def result (c : Call) (e : Ev) : Status × Option Nat :=
  match c with
  | .boxCreate =>
    if e.code = MSG_CREATE_FAILURE then (statusOf e.param, none)
    else if e.code = MSG_CREATE_SUCCESS then (SUCCESS, some e.param)
    else (ERROR_MESSAGE_UNKNOWN_ERROR, none)
  | .boxClose _ =>
    if e.code = MSG_CLOSE then (statusOf e.param, none) else (ERROR_MESSAGE_UNKNOWN_ERROR, none)
  | .send _ _ =>
    if e.code = MSG_SEND_FAILURE then (statusOf e.param, none)
    else if e.code = MSG_SEND_SUCCESS then (SUCCESS, none)
    else (ERROR_MESSAGE_UNKNOWN_ERROR, none)
  | .receive _ =>
    if e.code = MSG_RECEIVE_FAILURE then (statusOf e.param, none)
    else if e.code = MSG_RECEIVE_SUCCESS then (SUCCESS, some e.param)
    else (ERROR_MESSAGE_UNKNOWN_ERROR, none)
  | .condCreate =>
    if e.code = COND_CREATE_FAILURE then (statusOf e.param, none)
    else if e.code = COND_CREATE_SUCCESS then (SUCCESS, some e.param)
    else (ERROR_CONDITION_UNKNOWN_ERROR, none)
  | .condClose _ =>
    if e.code = COND_CLOSE_FAILURE ∨ e.code = COND_CLOSE_SUCCESS then (statusOf e.param, none)
    else (ERROR_CONDITION_UNKNOWN_ERROR, none)
  | .wait _ =>
    if e.code = COND_WAIT_FAILURE then (statusOf e.param, none)
    else if e.code = COND_WAIT_SUCCESS then (SUCCESS, none)
    else (ERROR_CONDITION_UNKNOWN_ERROR, none)
  | .notifyOne _ | .notifyAll _ =>
    if e.code = COND_NOTIFY_FAILURE then (statusOf e.param, none)
    else if e.code = COND_NOTIFY_SUCCESS then (SUCCESS, none)
    else (ERROR_CONDITION_UNKNOWN_ERROR, none)
  | .quiesce _ | .terminate _ | .quiesceAll | .terminateAll =>
    if e.disc ≠ .mgmt ∨ e.code ≠ MGMT_REQUEST_RESULT then (ERROR_FIBER_UNEXPECTED_RESUME_EVENT, none)
    else (statusOf e.param, none)
  | _ => (SUCCESS, none)

end Rcpr.Fiber
