import Verif.Queue
import Verif.Fiber

/-!
The scheduler with its queues in memory. `Verif.Fiber` has lists in place of the run queue, the message queues of the
mailboxes and the wait lists of the conditions; here the handlers call the functions of `Verif.Queue` and `Verif.SList` as
the code does, on nodes in memory, and the allocator answers with addresses. The three red-black trees are finite maps
here, as in `Verif.Fiber` (they are in `Verif.MsgTree` and `Verif.FibTree`). The fields `runq`, `boxes` and `conds` of
`Sys` are not used.

A fiber or message is named by its address, `0` is NULL. To read memory that is not allocated is undefined, and so is a
loop that does not end (`none`). Reclaiming memory succeeds.
-/
namespace Rcpr.FibMem

open Rcpr Fiber
open Rcpr.SList (Addr okEnv)

/-- `struct mailbox` (src/message/message_internal.h:38-48) -/
structure QBox where
  blocked : Nat
  queue : Addr

/-- The scheduler context and the contexts of the disciplines (fiber_internal.h:47-84, message_internal.h:53-64,
condition_internal.h:26-51): `runq` is the address of the run queue, `conds` has the address of the wait list of a
condition. `log` is a record that is not in the code: for each node of the run queue asked for during the call, whether
it was granted. -/
structure World where
  fib : Sys
  mem : Queue.Mem
  runq : Addr
  boxes : Nat → Option QBox
  conds : Nat → Option Addr
  log : List Status

/-- What the environment answers during a call: the k-th node of the run queue, the node for a message or for a waiting
fiber, the mailbox or condition structure, a message queue with its list (or a wait list), the insertion into the tree,
and what the variable for a popped value holds before the pop.
Not in the code: the allocator. -/
structure Ans where
  q : Nat → Queue.Mem → Option Addr
  node : Queue.Mem → Option Addr
  alloc : Status
  qa : Queue.Mem → Option Addr
  la : Queue.Mem → Option Addr
  ins : Status
  junk : Nat

/-- `disciplined_fiber_scheduler_add_fiber_to_run_queue`
(disciplined_fiber_scheduler_add_fiber_to_run_queue.c:44-67). -/
def backQ (w : World) (f : Nat) (e : Ev) (x : Ans) : Option (World × Status) :=
  (Queue.append w.mem (x.q w.log.length w.mem) w.runq f).map fun r =>
    ({ w with fib := setEv w.fib f e, mem := r.2, log := w.log ++ [r.1] }, r.1)

/-- `disciplined_fiber_scheduler_set_next_fiber_to_run`
(disciplined_fiber_scheduler_set_next_fiber_to_run.c:45-68). -/
def frontQ (w : World) (f : Nat) (e : Ev) (x : Ans) : Option (World × Status) :=
  (Queue.insert w.mem (x.q w.log.length w.mem) w.runq f).map fun r =>
    ({ w with fib := setEv w.fib f e, mem := r.2, log := w.log ++ [r.1] }, r.1)

/-! ### Internal callbacks (src/fiber/common/fiber_scheduler_create_with_disciplines.c) -/

/-- run (735-762) -/
def runQ (w : World) (y : Nat) (x : Ans) : Option (World × Status) :=
  if y = w.fib.idle then some (w, SUCCESS)
  else backQ w y ⟨.internal, RESUME_RUN, 0⟩ x

/-- the field `management_fiber` (fiber_internal.h:80). -/
def clearMgmt (w : World) : World := { w with fib := { w.fib with mgmt := 0 } }

/-- add (818-895); the removal from the tree after a failing append is taken to succeed. -/
def addQ (w : World) (y f : Nat) (x : Ans) : Option (World × Status) :=
  if x.ins ≠ SUCCESS then some (w, x.ins)
  else
    (backQ { w with fib := { w.fib with tree := insertFib f w.fib.tree } } f ⟨.internal, RESUME_ADD_FIBER, 0⟩ x).bind fun r =>
      if r.2 ≠ SUCCESS then some ({ r.1 with fib := { r.1.fib with tree := w.fib.tree } }, r.2)
      else
        (frontQ r.1 y ⟨.internal, RESUME_ADD_FIBER, 0⟩ x).bind fun r =>
          if r.2 ≠ SUCCESS then some r
          else if w.fib.mgmt ≠ 0 then
            (frontQ r.1 w.fib.mgmt ⟨.mgmt, MGMT_FIBER_ADD, f⟩ x).map fun r =>
              if r.2 ≠ SUCCESS then r else (clearMgmt r.1, SUCCESS)
          else some (r.1, SUCCESS)

/-- stop (911-952), called at the end of `fiber_entry` (fiber_entry.c:26-46), which sets the state first (36). -/
def stopQ (w : World) (y : Nat) (x : Ans) : Option (World × Status) :=
  let w : World := { w with fib := { w.fib with state := fun g => if g = y then .stopped else w.fib.state g } }
  if w.fib.mgmt ≠ 0 then
    (frontQ w w.fib.mgmt ⟨.mgmt, MGMT_FIBER_STOP, y⟩ x).map fun r =>
      if r.2 ≠ SUCCESS then r else (clearMgmt r.1, SUCCESS)
  else some (w, SUCCESS)

/-- resource release (968-987) -/
def releaseQ (w : World) (y : Nat) (x : Ans) : Option (World × Status) :=
  frontQ w y ⟨.internal, RESUME_RESOURCE_RELEASE, 0⟩ x

/-- receive event (1003-1023) -/
def mgmtReceiveQ (w : World) (y : Nat) : Option (World × Status) :=
  some ({ w with fib := { w.fib with mgmt := y } }, SUCCESS)

/-- quiesce and terminate (1039-1094, 1110-1165): the two differ in the event `code`. -/
def requestQ (code : Nat) (w : World) (y f : Nat) (x : Ans) : Option (World × Status) :=
  if w.fib.state f ≠ .running then
    frontQ w y ⟨.mgmt, MGMT_REQUEST_RESULT, ERROR_FIBER_INVALID_STATE.toNat⟩ x
  else
    (frontQ w y ⟨.mgmt, MGMT_REQUEST_RESULT, SUCCESS.toNat⟩ x).bind fun r =>
      if r.2 ≠ SUCCESS then some r
      else frontQ r.1 f ⟨.mgmt, code, 0⟩ x

/-- the loop of quiesce all and terminate all (1196-1219, 1258-1282) -/
def requestLoopQ (code y : Nat) (x : Ans) : List Nat → World → Option (World × Status)
  | [], w => some (w, SUCCESS)
  | f :: fs, w =>
    if y ≠ f ∧ w.fib.mgmt ≠ f ∧ w.fib.state f = .running then
      (backQ w f ⟨.mgmt, code, 0⟩ x).bind fun r =>
        if r.2 ≠ SUCCESS then some r else requestLoopQ code y x fs r.1
    else requestLoopQ code y x fs w

/-- quiesce all and terminate all (1181-1227, 1243-1290) -/
def requestAllQ (code : Nat) (w : World) (y : Nat) (x : Ans) : Option (World × Status) :=
  (requestLoopQ code y x w.fib.tree w).bind fun r =>
    if r.2 ≠ SUCCESS then some r
    else backQ r.1 y ⟨.mgmt, MGMT_REQUEST_RESULT, SUCCESS.toNat⟩ x

/-! ### Message callbacks (src/message) -/

/-- The tree `mailboxes` (src/message/message_internal.h:62). Simplified: a map instead of the red-black tree, see
Verif.MsgTree. -/
def putBox (w : World) (a : Nat) (b : Option QBox) : World :=
  { w with boxes := fun k => if k = a then b else w.boxes k }

/-- Release of a mailbox (mailbox_resource_create.c:117-143): of its message queue, with the messages in it. The loop of
the release has fuel for every value the queue counts. -/
def freeQueue (m : Queue.Mem) (q : Addr) : Option (Status × Queue.Mem) :=
  (Queue.count m q).bind fun n => Queue.release okEnv (n.toNat + 1) m q

/-- create (message_discipline_mailbox_create_callback_handler.c:33-96) with `mailbox_resource_create`
(mailbox_resource_create.c:42-106). Line 82 tests `retval`, so the status becomes that of the release. -/
def boxCreateQ (w : World) (y : Nat) (x : Ans) : Option (World × Status) :=
  let addr := w.fib.mindex + 1
  if x.alloc ≠ SUCCESS then frontQ w y ⟨.msg, MSG_CREATE_FAILURE, x.alloc.toNat⟩ x
  else
    let r := Queue.create okEnv w.mem (x.qa w.mem) (x.la w.mem)
    let w : World := { w with mem := r.2.2 }
    if r.1 ≠ SUCCESS then frontQ w y ⟨.msg, MSG_CREATE_FAILURE, r.1.toNat⟩ x
    else if x.ins ≠ SUCCESS then
      (freeQueue w.mem r.2.1).bind fun d =>
        frontQ { w with mem := d.2 } y ⟨.msg, MSG_CREATE_FAILURE, d.1.toNat⟩ x
    else
      frontQ { putBox w addr (some ⟨0, r.2.1⟩) with fib := { w.fib with mindex := addr } } y ⟨.msg, MSG_CREATE_SUCCESS, addr⟩ x

/-- close (message_discipline_mailbox_close_callback_handler.c:32-74). -/
def boxCloseQ (w : World) (y a : Nat) (x : Ans) : Option (World × Status) :=
  match w.boxes a with
  | none => frontQ w y ⟨.msg, MSG_CLOSE, ERROR_RBTREE_NOT_FOUND.toNat⟩ x
  | some b =>
    (freeQueue w.mem b.queue).bind fun d =>
      frontQ { putBox w a none with mem := d.2 } y ⟨.msg, MSG_CLOSE, d.1.toNat⟩ x

/-- The second half of send, after the sender was scheduled
(message_discipline_message_send_callback_handler.c:88-121). -/
def wakeReceiver (w : World) (a : Nat) (b : QBox) (x : Ans) : Option (World × Status) :=
  if b.blocked ≠ 0 then
    (Queue.pop okEnv w.mem b.queue x.junk).bind fun p =>
      let w : World := { putBox w a (some ⟨0, b.queue⟩) with mem := p.2.2 }
      if p.1 ≠ SUCCESS then frontQ w b.blocked ⟨.msg, MSG_RECEIVE_FAILURE, p.1.toNat⟩ x
      else frontQ w b.blocked ⟨.msg, MSG_RECEIVE_SUCCESS, p.2.1⟩ x
  else some (w, SUCCESS)

/-- send (message_discipline_message_send_callback_handler.c:34-132). -/
def sendQ (w : World) (y a m : Nat) (x : Ans) : Option (World × Status) :=
  match w.boxes a with
  | none => frontQ w y ⟨.msg, MSG_SEND_FAILURE, ERROR_RBTREE_NOT_FOUND.toNat⟩ x
  | some b =>
    (Queue.append w.mem (x.node w.mem) b.queue m).bind fun p =>
      let w : World := { w with mem := p.2 }
      if p.1 ≠ SUCCESS then frontQ w y ⟨.msg, MSG_SEND_FAILURE, p.1.toNat⟩ x
      else
        (frontQ w y ⟨.msg, MSG_SEND_SUCCESS, 0⟩ x).bind fun r =>
          if r.2 ≠ SUCCESS then some r
          else wakeReceiver r.1 a b x

/-- receive (message_discipline_message_receive_callback_handler.c:34-112) -/
def receiveQ (w : World) (y a : Nat) (x : Ans) : Option (World × Status) :=
  match w.boxes a with
  | none => frontQ w y ⟨.msg, MSG_RECEIVE_FAILURE, ERROR_RBTREE_NOT_FOUND.toNat⟩ x
  | some b =>
    (Queue.count w.mem b.queue).bind fun n =>
      if n = 0#64 then
        if b.blocked ≠ 0 then frontQ w y ⟨.msg, MSG_RECEIVE_FAILURE, ERROR_MESSAGE_ALREADY_BLOCKED.toNat⟩ x
        else some (putBox w a (some ⟨y, b.queue⟩), SUCCESS)
      else
        (Queue.pop okEnv w.mem b.queue x.junk).bind fun p =>
          let w : World := { w with mem := p.2.2 }
          if p.1 ≠ SUCCESS then frontQ w y ⟨.msg, MSG_RECEIVE_FAILURE, p.1.toNat⟩ x
          else frontQ w y ⟨.msg, MSG_RECEIVE_SUCCESS, p.2.1⟩ x

/-! ### Condition callbacks (src/condition) -/

/-- The tree of condition barriers (src/condition/condition_internal.h:49). Simplified: a map instead of the red-black
tree, see Verif.MsgTree. -/
def putCond (w : World) (h : Nat) (l : Option Addr) : World :=
  { w with conds := fun k => if k = h then l else w.conds k }

/-- The memory of the lists has changed. Not in the code. -/
def World.setSl (w : World) (sl : SList.Mem) : World := { w with mem := { w.mem with sl := sl } }

/-- the loop that empties the wait list (condition_barrier_create.c:129-139) -/
def dropAll (x : Ans) (l : Addr) : Nat → SList.Mem → Status → Option (SList.Mem × Status)
  | 0, _, _ => none
  | fuel + 1, m, st =>
    (SList.count m l).bind fun n =>
      if n = 0#64 then some (m, st)
      else (SList.pop okEnv m l x.junk).bind fun p =>
        dropAll x l fuel p.2.2 (if p.1 ≠ SUCCESS then p.1 else st)

/-- Release of a condition barrier (condition_barrier_create.c:117-161): the fibers in the wait list are popped and not
released, then the list is. -/
def freeWaiters (x : Ans) (m : SList.Mem) (l : Addr) : Option (Status × SList.Mem) :=
  (SList.count m l).bind fun n =>
    (dropAll x l (n.toNat + 1) m SUCCESS).bind fun d =>
      (SList.count d.1 l).bind fun n' =>
        (SList.release okEnv (n'.toNat + 1) d.1 l).map fun r =>
          (if d.2 ≠ SUCCESS then d.2 else if r.1 ≠ SUCCESS then r.1 else SUCCESS, r.2)

/-- create (condition_discipline_create_callback_handler.c:33-96) with `condition_barrier_create`
(condition_barrier_create.c:43-106). Line 82 as in the creation of a mailbox. -/
def condCreateQ (w : World) (y : Nat) (x : Ans) : Option (World × Status) :=
  let h := w.fib.cindex + 1
  if x.alloc ≠ SUCCESS then frontQ w y ⟨.cond, COND_CREATE_FAILURE, x.alloc.toNat⟩ x
  else
    let r := SList.create w.mem.sl (x.la w.mem)
    let w := w.setSl r.2.2
    if r.1 ≠ SUCCESS then frontQ w y ⟨.cond, COND_CREATE_FAILURE, r.1.toNat⟩ x
    else if x.ins ≠ SUCCESS then
      (freeWaiters x w.mem.sl r.2.1).bind fun d =>
        frontQ (w.setSl d.2) y ⟨.cond, COND_CREATE_FAILURE, d.1.toNat⟩ x
    else
      frontQ { putCond w h (some r.2.1) with fib := { w.fib with cindex := h } } y ⟨.cond, COND_CREATE_SUCCESS, h⟩ x

/-- close (condition_discipline_close_callback_handler.c:32-74). -/
def condCloseQ (w : World) (y h : Nat) (x : Ans) : Option (World × Status) :=
  match w.conds h with
  | none => frontQ w y ⟨.cond, COND_CLOSE_FAILURE, ERROR_RBTREE_NOT_FOUND.toNat⟩ x
  | some l =>
    (freeWaiters x w.mem.sl l).bind fun d =>
      let w := (putCond w h none).setSl d.2
      if d.1 ≠ SUCCESS then frontQ w y ⟨.cond, COND_CLOSE_FAILURE, d.1.toNat⟩ x
      else frontQ w y ⟨.cond, COND_CLOSE_SUCCESS, SUCCESS.toNat⟩ x

/-- wait (condition_discipline_wait_callback_handler.c:34-78) -/
def waitQ (w : World) (y h : Nat) (x : Ans) : Option (World × Status) :=
  match w.conds h with
  | none => frontQ w y ⟨.cond, COND_WAIT_FAILURE, ERROR_RBTREE_NOT_FOUND.toNat⟩ x
  | some l =>
    (SList.appendTail w.mem.sl (x.node w.mem) l y).bind fun p =>
      let w := w.setSl p.2
      if p.1 ≠ SUCCESS then frontQ w y ⟨.cond, COND_WAIT_FAILURE, p.1.toNat⟩ x
      else some (w, SUCCESS)

/-- notify one (condition_discipline_notify_one_callback_handler.c:34-106) -/
def notifyOneQ (w : World) (y h : Nat) (x : Ans) : Option (World × Status) :=
  match w.conds h with
  | none => backQ w y ⟨.cond, COND_NOTIFY_FAILURE, ERROR_RBTREE_NOT_FOUND.toNat⟩ x
  | some l =>
    (SList.count w.mem.sl l).bind fun n =>
      if n = 0#64 then backQ w y ⟨.cond, COND_NOTIFY_SUCCESS, SUCCESS.toNat⟩ x
      else
        (SList.pop okEnv w.mem.sl l x.junk).bind fun p =>
          let w := w.setSl p.2.2
          if p.1 ≠ SUCCESS then backQ w y ⟨.cond, COND_NOTIFY_SUCCESS, p.1.toNat⟩ x
          else
            (backQ w p.2.1 ⟨.cond, COND_WAIT_SUCCESS, SUCCESS.toNat⟩ x).bind fun r =>
              backQ r.1 y ⟨.cond, COND_NOTIFY_SUCCESS, r.2.toNat⟩ x

/-- the loop of notify all (condition_discipline_notify_all_callback_handler.c:64-86); the last status is kept
(`retval`). The first argument is fuel. -/
def notifyLoopQ (x : Ans) (l : Addr) : Nat → World → Status → Option (World × Status)
  | 0, _, _ => none
  | fuel + 1, w, st =>
    (SList.count w.mem.sl l).bind fun n =>
      if n = 0#64 then some (w, st)
      else
        (SList.pop okEnv w.mem.sl l x.junk).bind fun p =>
          let w := w.setSl p.2.2
          if p.1 ≠ SUCCESS then notifyLoopQ x l fuel w p.1
          else
            (backQ w p.2.1 ⟨.cond, COND_WAIT_SUCCESS, SUCCESS.toNat⟩ x).bind fun r =>
              notifyLoopQ x l fuel r.1 r.2

/-- notify all (condition_discipline_notify_all_callback_handler.c:34-106); the loop has fuel for every fiber the list
counts. -/
def notifyAllQ (w : World) (y h : Nat) (x : Ans) : Option (World × Status) :=
  match w.conds h with
  | none => backQ w y ⟨.cond, COND_NOTIFY_FAILURE, ERROR_RBTREE_NOT_FOUND.toNat⟩ x
  | some l =>
    (SList.count w.mem.sl l).bind fun n =>
      (notifyLoopQ x l (n.toNat + 1) w SUCCESS).bind fun r =>
        backQ r.1 y ⟨.cond, COND_NOTIFY_SUCCESS, r.2.toNat⟩ x

/-! ### The dispatch -/

/-- the callback a call leads to (fiber_scheduler_create_with_disciplines.c:664-673). -/
def handlerQ (w : World) (c : Call) (x : Ans) : Option (World × Status) :=
  let y := w.fib.cur
  match c with
  | .run => runQ w y x
  | .add f => addQ w y f x
  | .stop => stopQ w y x
  | .release => releaseQ w y x
  | .mgmtReceive => mgmtReceiveQ w y
  | .quiesce f => requestQ MGMT_QUIESCE_REQUEST w y f x
  | .terminate f => requestQ MGMT_TERMINATION_REQUEST w y f x
  | .quiesceAll => requestAllQ MGMT_QUIESCE_REQUEST w y x
  | .terminateAll => requestAllQ MGMT_TERMINATION_REQUEST w y x
  | .boxCreate => boxCreateQ w y x
  | .boxClose a => boxCloseQ w y a x
  | .send a m => sendQ w y a m x
  | .receive a => receiveQ w y a x
  | .condCreate => condCreateQ w y x
  | .condClose h => condCloseQ w y h x
  | .wait h => waitQ w y h x
  | .notifyOne h => notifyOneQ w y h x
  | .notifyAll h => notifyAllQ w y h x

/-- What runs next after the callback succeeded (fiber_scheduler_create_with_disciplines.c:681-718). -/
def nextQ (w : World) (y : Nat) (c : Call) : Option (World × Item) :=
  (Queue.count w.mem w.runq).bind fun n =>
    if n ≠ 0#64 then
      (Queue.pop okEnv w.mem w.runq 0).map fun p =>
        let w : World := { w with mem := p.2.2 }
        if p.1 ≠ SUCCESS then (w, ⟨y, c, .fail p.1⟩)
        else
          let s := switch (setCall w.fib y c) p.2.1 (w.fib.ev p.2.1)
          ({ w with fib := s.1 }, ⟨y, c, s.2⟩)
    else if w.fib.idle ≠ 0 then
      let s := switch (setCall w.fib y c) w.fib.idle ⟨.internal, RESUME_IDLE, 0⟩
      some ({ w with fib := s.1 }, ⟨y, c, s.2⟩)
    else some (w, ⟨y, c, .fail ERROR_FIBER_SCHEDULER_EXHAUSTED⟩)

/-- One call by the running fiber: `fiber_scheduler_yield` (fiber_scheduler_yield.c:52-100) and the scheduler's callback
(fiber_scheduler_create_with_disciplines.c:654-719). -/
def stepQ (w : World) (c : Call) (x : Ans) : Option (World × Item) :=
  (handlerQ { w with log := [] } c x).bind fun r =>
    if r.2 ≠ SUCCESS then some (r.1, ⟨w.fib.cur, c, .fail r.2⟩)
    else nextQ r.1 w.fib.cur c

/-- A history: each call is made by the fiber that runs at that point.
Not in the code: the program that makes the calls. -/
def execQ : World → List (Call × Ans) → Option (World × List Item)
  | w, [] => some (w, [])
  | w, (c, x) :: cs => (stepQ w c x).bind fun r => (execQ r.1 cs).map fun t => (t.1, r.2 :: t.2)

/-- After `fiber_scheduler_create_with_disciplines` the run queue has been created (193) at address `q`, its list at `l`;
the main fiber runs and the idle fiber has been set. -/
def initQ (main idle : Nat) (q l : Addr) : World :=
  { fib := Fiber.init main idle
    mem := (Queue.create okEnv Queue.Mem.empty (some q) (some l)).2.2
    runq := q
    boxes := fun _ => none
    conds := fun _ => none
    log := [] }

/-! ### The release of the scheduler -/

/-- the loop that empties the run queue (fiber_scheduler_create_with_disciplines.c:515-524); the fibers are popped and
not released. The first argument after the queue is fuel. -/
def dropRun (q : Addr) : Nat → Queue.Mem → Nat → Status → Option (Queue.Mem × Status)
  | 0, _, _, _ => none
  | fuel + 1, m, r, st =>
    (Queue.count m q).bind fun n =>
      if n = 0#64 then some (m, st)
      else (Queue.pop okEnv m q r).bind fun p =>
        dropRun q fuel p.2.2 p.2.1 (if p.1 ≠ SUCCESS then p.1 else st)

/-- The mailboxes are released with their tree (message_discipline_context_create.c:188-190), in the order `as`. -/
def freeBoxes (w : World) : List Nat → Queue.Mem → Option Queue.Mem
  | [], m => some m
  | a :: as, m => (w.boxes a).bind fun b => (freeQueue m b.queue).bind fun d => freeBoxes w as d.2

/-- The conditions are released with their tree (condition_discipline_context_create.c:190-192), in the order `hs`. -/
def freeConds (w : World) (x : Ans) : List Nat → SList.Mem → Option SList.Mem
  | [], m => some m
  | h :: hs, m => (w.conds h).bind fun l => (freeWaiters x m l).bind fun d => freeConds w x hs d.2

/-- The queues in the release of a scheduler (fiber_scheduler_create_with_disciplines.c:486-584): with the disciplines
(511-513) go the mailboxes and the conditions, then the run queue (515-532). Simplified: only what the queues, lists and
messages see of it. -/
def teardownQ (w : World) (as hs : List Nat) (x : Ans) : Option (Status × Queue.Mem) :=
  (freeBoxes w as w.mem).bind fun m =>
    (freeConds w x hs m.sl).bind fun sl =>
      (Queue.count { m with sl := sl } w.runq).bind fun n =>
        (dropRun w.runq (n.toNat + 1) { m with sl := sl } 0 SUCCESS).bind fun d =>
          (freeQueue d.1 w.runq).map fun r => (if r.1 ≠ SUCCESS then r.1 else d.2, r.2)

end Rcpr.FibMem
