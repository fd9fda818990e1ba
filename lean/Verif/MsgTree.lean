import Verif.Fiber
import Verif.RBTree
import Verif.RBSpec

/-!
The message and condition disciplines with the red-black trees they keep their mailboxes and barriers in.
`Verif.Fiber` has a finite map in place of each tree; here the handlers call the tree functions of `Verif.RBTree`
as the code does, on nodes in memory.

A mailbox structure is named by its address, a barrier by its handle: each number is given to one structure
only, so this is the pointer to it. `boxes` and `conds` of the scheduler state are the structures that exist. To
use one that was released, found through the tree, is undefined (`none`).
-/
namespace Rcpr.MsgTree

open Rcpr Fiber

/-- Keys are the addresses: message_discipline_mailbox_address_compare and message_discipline_mailbox_get_key
(message_discipline_context_create.c:133-147, 157-167), condition_discipline_condition_barrier_compare and
condition_discipline_condition_barrier_get_key (condition_discipline_context_create.c:134-148, 159-169). -/
def byAddr : RB.Order Nat := ⟨id, compare⟩

/-- Calls made of a tree and what they returned; a record that is not in the code.
See include/rcpr/rbtree.h for the calls. -/
abbrev Log := List (RB.Spec.Op Nat × RB.Spec.Out)

/-- The scheduler with the trees of the two contexts (message_internal.h:53-64, condition_internal.h:40-51). -/
structure World where
  sys : Sys
  mail : RB.St
  cond : RB.St
  mlog : Log
  clog : Log

/-- The answers of the environment during one call: as for `Fiber.step`, the address of a new tree node, and the
results of releasing a structure and of reclaiming a node. Not in the code: the environment. -/
structure Ans where
  o : Oracle
  node : Nat
  env : RB.Env

/-- A call of the tree of mailboxes. `mailboxes` (src/message/message_internal.h:62). -/
def World.askMail (w : World) (env : RB.Env) (op : RB.Spec.Op Nat) : Option (RB.Spec.Out × World) :=
  (RB.call byAddr env w.mail op).map fun r => (r.1, { w with mail := r.2, mlog := w.mlog ++ [(op, r.1)] })

/-- A call of the tree of barriers. (src/condition/condition_internal.h) -/
def World.askCond (w : World) (env : RB.Env) (op : RB.Spec.Op Nat) : Option (RB.Spec.Out × World) :=
  (RB.call byAddr env w.cond op).map fun r => (r.1, { w with cond := r.2, clog := w.clog ++ [(op, r.1)] })

/-- Not in the code: the run queue part of a handler, as in `Verif.Fiber`. -/
def World.put (w : World) (r : Sys × Status) : World × Status := ({ w with sys := r.1 }, r.2)

/-- The mailboxes released by a call of the tree cease to exist: mailbox_resource_release
(mailbox_resource_create.c:117-143). -/
def dropBoxes (w : Sys) (l : List Nat) : Sys := l.foldl (fun w a => setBox w a none) w

/-- condition_barrier_release (condition_barrier_create.c:117-161) -/
def dropConds (w : Sys) (l : List Nat) : Sys := l.foldl (fun w a => setCond w a none) w

/-! ### Handlers -/

/-- create (message_discipline_mailbox_create_callback_handler.c:33-96) -/
def boxCreateT (w : World) (y : Nat) (x : Ans) : Option (World × Status) :=
  let addr := w.sys.mindex + 1
  let st := boxResource (x.o.a 0) (x.o.a 1) (x.o.a 2)
  if st ≠ SUCCESS then some (w.put (front w.sys y ⟨.msg, MSG_CREATE_FAILURE, st.toNat⟩ (x.o.q 0)))
  else (w.askMail x.env (.insert addr x.node (x.o.a 3))).map fun r =>
    if r.1.1 ≠ SUCCESS then
      let st := if r.1.1 ≠ SUCCESS then x.o.a 4 else r.1.1
      r.2.put (front w.sys y ⟨.msg, MSG_CREATE_FAILURE, st.toNat⟩ (x.o.q 0))
    else
      r.2.put (front { setBox w.sys addr (some ⟨0, []⟩) with mindex := w.sys.mindex + 1 } y ⟨.msg, MSG_CREATE_SUCCESS, addr⟩ (x.o.q 0))

/-- close (message_discipline_mailbox_close_callback_handler.c:32-74); `rbtree_delete` with NULL as first argument
releases the value it takes out. -/
def boxCloseT (w : World) (y a : Nat) (x : Ans) : Option (World × Status) :=
  (w.askMail x.env (.delete a false)).map fun r =>
    r.2.put (front (dropBoxes w.sys (r.2.mail.released.drop w.mail.released.length)) y ⟨.msg, MSG_CLOSE, r.1.1.toNat⟩ (x.o.q 0))

/-- send (message_discipline_message_send_callback_handler.c:34-132): after the lookup (62) as in `Fiber.sendH`,
with the mailbox found. -/
def sendT (w : World) (y a m : Nat) (x : Ans) : Option (World × Status) :=
  (w.askMail x.env (.find a)).bind fun r =>
    if r.1.1 ≠ SUCCESS then some (r.2.put (front w.sys y ⟨.msg, MSG_SEND_FAILURE, r.1.1.toNat⟩ (x.o.q 0)))
    else if w.sys.boxes r.1.2 = none then none
    else some (r.2.put (sendH w.sys y r.1.2 m x.o))

/-- receive (message_discipline_message_receive_callback_handler.c:34-112); lookup in line 54 -/
def receiveT (w : World) (y a : Nat) (x : Ans) : Option (World × Status) :=
  (w.askMail x.env (.find a)).bind fun r =>
    if r.1.1 ≠ SUCCESS then some (r.2.put (front w.sys y ⟨.msg, MSG_RECEIVE_FAILURE, r.1.1.toNat⟩ (x.o.q 0)))
    else if w.sys.boxes r.1.2 = none then none
    else some (r.2.put (receiveH w.sys y r.1.2 x.o))

/-- create (condition_discipline_create_callback_handler.c:33-96) -/
def condCreateT (w : World) (y : Nat) (x : Ans) : Option (World × Status) :=
  let h := w.sys.cindex + 1
  let st := boxResource (x.o.a 0) (x.o.a 1) (x.o.a 2)
  if st ≠ SUCCESS then some (w.put (front w.sys y ⟨.cond, COND_CREATE_FAILURE, st.toNat⟩ (x.o.q 0)))
  else (w.askCond x.env (.insert h x.node (x.o.a 3))).map fun r =>
    if r.1.1 ≠ SUCCESS then
      let st := if r.1.1 ≠ SUCCESS then x.o.a 4 else r.1.1
      r.2.put (front w.sys y ⟨.cond, COND_CREATE_FAILURE, st.toNat⟩ (x.o.q 0))
    else
      r.2.put (front { setCond w.sys h (some []) with cindex := w.sys.cindex + 1 } y ⟨.cond, COND_CREATE_SUCCESS, h⟩ (x.o.q 0))

/-- close (condition_discipline_close_callback_handler.c:32-74) -/
def condCloseT (w : World) (y h : Nat) (x : Ans) : Option (World × Status) :=
  (w.askCond x.env (.delete h false)).map fun r =>
    let s := dropConds w.sys (r.2.cond.released.drop w.cond.released.length)
    if r.1.1 ≠ SUCCESS then r.2.put (front s y ⟨.cond, COND_CLOSE_FAILURE, r.1.1.toNat⟩ (x.o.q 0))
    else r.2.put (front s y ⟨.cond, COND_CLOSE_SUCCESS, SUCCESS.toNat⟩ (x.o.q 0))

/-- wait (condition_discipline_wait_callback_handler.c:34-78); lookup in line 52 -/
def waitT (w : World) (y h : Nat) (x : Ans) : Option (World × Status) :=
  (w.askCond x.env (.find h)).bind fun r =>
    if r.1.1 ≠ SUCCESS then some (r.2.put (front w.sys y ⟨.cond, COND_WAIT_FAILURE, r.1.1.toNat⟩ (x.o.q 0)))
    else if w.sys.conds r.1.2 = none then none
    else some (r.2.put (waitH w.sys y r.1.2 x.o))

/-- notify one (condition_discipline_notify_one_callback_handler.c:34-106); lookup in line 54 -/
def notifyOneT (w : World) (y h : Nat) (x : Ans) : Option (World × Status) :=
  (w.askCond x.env (.find h)).bind fun r =>
    if r.1.1 ≠ SUCCESS then some (r.2.put (back w.sys y ⟨.cond, COND_NOTIFY_FAILURE, r.1.1.toNat⟩ (x.o.q 0)))
    else if w.sys.conds r.1.2 = none then none
    else some (r.2.put (notifyOneH w.sys y r.1.2 x.o))

/-- notify all (condition_discipline_notify_all_callback_handler.c:34-106); lookup in line 54 -/
def notifyAllT (w : World) (y h : Nat) (x : Ans) : Option (World × Status) :=
  (w.askCond x.env (.find h)).bind fun r =>
    if r.1.1 ≠ SUCCESS then some (r.2.put (back w.sys y ⟨.cond, COND_NOTIFY_FAILURE, r.1.1.toNat⟩ (x.o.q 0)))
    else if w.sys.conds r.1.2 = none then none
    else some (r.2.put (notifyAllH w.sys y r.1.2 x.o))

/-- The callback a call leads to. The other disciplines do not use these trees.
(fiber_scheduler_create_with_disciplines.c:664-673) -/
def handlerT (w : World) (c : Call) (x : Ans) : Option (World × Status) :=
  match c with
  | .boxCreate => boxCreateT w w.sys.cur x
  | .boxClose a => boxCloseT w w.sys.cur a x
  | .send a m => sendT w w.sys.cur a m x
  | .receive a => receiveT w w.sys.cur a x
  | .condCreate => condCreateT w w.sys.cur x
  | .condClose h => condCloseT w w.sys.cur h x
  | .wait h => waitT w w.sys.cur h x
  | .notifyOne h => notifyOneT w w.sys.cur h x
  | .notifyAll h => notifyAllT w w.sys.cur h x
  | c => some (w.put (handler w.sys c x.o))

/-- What follows the handler: fiber_scheduler_yield.c:52-100 and
fiber_scheduler_create_with_disciplines.c:654-719, as in `Fiber.step`. -/
def finish (y : Nat) (c : Call) (r : Sys × Status) : Sys × Item :=
  if r.2 ≠ SUCCESS then (r.1, ⟨y, c, .fail r.2⟩)
  else
    match r.1.runq with
    | f :: q =>
      let s := switch { setCall r.1 y c with runq := q } f (r.1.ev f)
      (s.1, ⟨y, c, s.2⟩)
    | [] =>
      if r.1.idle ≠ 0 then
        let s := switch (setCall r.1 y c) r.1.idle ⟨.internal, RESUME_IDLE, 0⟩
        (s.1, ⟨y, c, s.2⟩)
      else (r.1, ⟨y, c, .fail ERROR_FIBER_SCHEDULER_EXHAUSTED⟩)

/-- One call by the running fiber. (fiber_scheduler_yield.c) -/
def stepT (w : World) (c : Call) (x : Ans) : Option (World × Item) :=
  (handlerT w c x).map fun r => ({ r.1 with sys := (finish w.sys.cur c (r.1.sys, r.2)).1 }, (finish w.sys.cur c (r.1.sys, r.2)).2)

/-- After the disciplines were added: `N` and `M` are the sentinels of the two trees
(message_discipline_context_create.c:48-119, condition_discipline_context_create.c:48-120). -/
def initT (main idle N M : Nat) : World := ⟨init main idle, RB.create N, RB.create M, [], []⟩

/-! ### Histories -/

/-- New tree nodes are not in use. Not in the code: the allocator does not hand out what is in use. -/
def Fresh (w : World) (c : Call) (x : Ans) : Prop :=
  (c = .boxCreate → x.o.a 3 = SUCCESS → w.mail.heap x.node = none) ∧
  (c = .condCreate → x.o.a 3 = SUCCESS → w.cond.heap x.node = none)

/-- What a call asks of the trees. (the calls made in src/message/message_discipline_*_callback_handler.c) -/
def mailOp (w : World) (c : Call) (x : Ans) : Option (RB.Spec.Op Nat) :=
  match c with
  | .boxCreate => if boxResource (x.o.a 0) (x.o.a 1) (x.o.a 2) ≠ SUCCESS then none else some (.insert (w.sys.mindex + 1) x.node (x.o.a 3))
  | .boxClose a => some (.delete a false)
  | .send a _ | .receive a => some (.find a)
  | _ => none

/-- What a call asks of the tree of barriers (the calls made in src/condition/fiber/condition_discipline_*_callback_handler.c). -/
def condOp (w : World) (c : Call) (x : Ans) : Option (RB.Spec.Op Nat) :=
  match c with
  | .condCreate => if boxResource (x.o.a 0) (x.o.a 1) (x.o.a 2) ≠ SUCCESS then none else some (.insert (w.sys.cindex + 1) x.node (x.o.a 3))
  | .condClose h => some (.delete h false)
  | .wait h | .notifyOne h | .notifyAll h => some (.find h)
  | _ => none

/-- A restriction of the use of a tree: which calls are made of it, given the calls so far and its state.
Not in the code: an assumption about clients. -/
abbrev Use := Log → RB.St → RB.Spec.Op Nat → Prop

/-- The call keeps to the restriction on both trees. Not in the code: an assumption about clients. -/
def Keeps (P : Use) (w : World) (c : Call) (x : Ans) : Prop :=
  (∀ op, mailOp w c x = some op → P w.mlog w.mail op) ∧ (∀ op, condOp w c x = some op → P w.clog w.cond op)

/-- Histories of calls that satisfy `L` and keep to `P`; `tr` is what can be seen. Not in the code: clients. -/
inductive HistT (P : Use) (L : Sys → Call → Oracle → Prop) (main idle N M : Nat) : World → List Item → Prop
  | init : main ≠ 0 → main ≠ idle → HistT P L main idle N M (initT main idle N M) []
  | step {w tr w' it} (c : Call) (x : Ans) : HistT P L main idle N M w tr → L w.sys c x.o → Fresh w c x → Keeps P w c x →
      stepT w c x = some (w', it) → HistT P L main idle N M w' (tr ++ [it])

/-- Any call at all. Not in the code: an assumption about clients. -/
def anyCall (_ : Sys) (_ : Call) (_ : Oracle) : Prop := True

/-- A mailbox or condition that is closed has the least address of those that exist: what was created first is
closed first. A call that closes nothing is not restricted. Not in the code: an assumption about clients. -/
def Oldest (w : Sys) : Call → Prop
  | .boxClose a => w.boxes a ≠ none → ∀ b, w.boxes b ≠ none → b ≠ a → a < b
  | .condClose a => w.conds a ≠ none → ∀ b, w.conds b ≠ none → b ≠ a → a < b
  | _ => True

/-- A mailbox or condition that is closed has the greatest address of those that exist: what was created last is
closed first. A call that closes nothing is not restricted. Not in the code: an assumption about clients. -/
def Newest (w : Sys) : Call → Prop
  | .boxClose a => w.boxes a ≠ none → ∀ b, w.boxes b ≠ none → b ≠ a → b < a
  | .condClose a => w.conds a ≠ none → ∀ b, w.conds b ≠ none → b ≠ a → b < a
  | _ => True

/-- Calls in sequence. Not in the code: a client. -/
def execT : World → List (Call × Ans) → Option (World × List Item)
  | w, [] => some (w, [])
  | w, (c, x) :: cs => (stepT w c x).bind fun r => (execT r.1 cs).map fun q => (q.1, r.2 :: q.2)

end Rcpr.MsgTree
