import Verif.Fiber

/-!
What users of fibers, mailboxes and conditions rely on, said in terms of calls and their results.
-/
namespace Rcpr.Fiber

open Rcpr

/-- The events that answer a call. A fiber is never resumed from `stop`. -/
def Answers (c : Call) (e : Ev) : Prop :=
  match c with
  | .run => e = ⟨.internal, RESUME_RUN, 0⟩ ∨ e = ⟨.internal, RESUME_IDLE, 0⟩
  | .add _ => e = ⟨.internal, RESUME_ADD_FIBER, 0⟩
  | .stop => False
  | .release => e = ⟨.internal, RESUME_RESOURCE_RELEASE, 0⟩
  | .mgmtReceive => e.disc = .mgmt ∧ (e.code = MGMT_FIBER_ADD ∨ e.code = MGMT_FIBER_STOP)
  | .quiesce _ | .terminate _ | .quiesceAll | .terminateAll => e.disc = .mgmt ∧ e.code = MGMT_REQUEST_RESULT
  | .boxCreate => e.disc = .msg ∧ (e.code = MSG_CREATE_SUCCESS ∨ e.code = MSG_CREATE_FAILURE)
  | .boxClose _ => e.disc = .msg ∧ e.code = MSG_CLOSE
  | .send _ _ => e.disc = .msg ∧ (e.code = MSG_SEND_SUCCESS ∨ e.code = MSG_SEND_FAILURE)
  | .receive _ => e.disc = .msg ∧ (e.code = MSG_RECEIVE_SUCCESS ∨ e.code = MSG_RECEIVE_FAILURE)
  | .condCreate => e.disc = .cond ∧ (e.code = COND_CREATE_SUCCESS ∨ e.code = COND_CREATE_FAILURE)
  | .condClose _ => e.disc = .cond ∧ (e.code = COND_CLOSE_SUCCESS ∨ e.code = COND_CLOSE_FAILURE)
  | .wait _ => e.disc = .cond ∧ (e.code = COND_WAIT_SUCCESS ∨ e.code = COND_WAIT_FAILURE)
  | .notifyOne _ | .notifyAll _ => e.disc = .cond ∧ (e.code = COND_NOTIFY_SUCCESS ∨ e.code = COND_NOTIFY_FAILURE)

/-- The events a new fiber may be started with. -/
def Starts (e : Ev) : Prop :=
  e = ⟨.internal, RESUME_ADD_FIBER, 0⟩ ∨ e = ⟨.internal, RESUME_IDLE, 0⟩

/-- Management requests, which resume a fiber out of whatever it is doing. -/
def Call.isRequest : Call → Bool
  | .quiesce _ | .terminate _ | .quiesceAll | .terminateAll => true
  | _ => false

/-- The calls covered by the positive theorems: allocations of run queue nodes succeed, no quiesce or
terminate requests, only new fibers are added, the idle fiber only yields, and there is something to
run (an idle fiber, or a queued one). All other allocations and releases may fail. -/
structure Legal (w : Sys) (c : Call) (o : Oracle) : Prop where
  alloc : ∀ k, o.q k = SUCCESS
  request : c.isRequest = false
  fresh : ∀ f, c = .add f → f ≠ 0 ∧ f ∉ w.cur :: w.runq ∧ w.call f = none
  idle : w.cur = w.idle → c = .run
  more : w.idle ≠ 0 ∨ w.runq ≠ []

/-- Histories of such calls. -/
inductive Hist (main idle : Nat) : Sys → List Item → Prop
  | init : main ≠ 0 → main ≠ idle → Hist main idle (init main idle) []
  | step {w tr} (c : Call) (o : Oracle) : Hist main idle w tr → Legal w c o →
      Hist main idle (step w c o).1 (tr ++ [(step w c o).2])

/-- The same without restriction. -/
inductive Any (main idle : Nat) : Sys → List Item → Prop
  | init : main ≠ 0 → main ≠ idle → Any main idle (init main idle) []
  | step {w tr} (c : Call) (o : Oracle) : Any main idle w tr →
      Any main idle (step w c o).1 (tr ++ [(step w c o).2])

/-- A sequence of calls each of which is legal when it is made. -/
def Legals : Sys → List (Call × Oracle) → Prop
  | _, [] => True
  | w, (c, o) :: cs => Legal w c o ∧ Legals (step w c o).1 cs

/-- The item returns control to fiber `f`. -/
def Item.resumes (i : Item) (f : Nat) : Bool :=
  match i.next with
  | .fail _ => false
  | .ret g _ _ => g == f
  | .start g _ => g == f

/-- The call that fiber `f` is inside of after one more item, `p` being the one before: what the item's
fiber called, unless control returned. -/
def pend (f : Nat) (p : Option Call) (i : Item) : Option Call :=
  match i.next with
  | .fail _ => p
  | .ret g _ _ => if g = f then none else if i.who = f then some i.call else p
  | .start g _ => if g = f then none else if i.who = f then some i.call else p

/-- The call of `f` that has not returned yet. -/
def pending (f : Nat) (tr : List Item) : Option Call := tr.foldl (pend f) none

/-- The calls after which the calling fiber goes to the back of the run queue. -/
def Call.yields : Call → Bool
  | .run | .notifyOne _ | .notifyAll _ => true
  | _ => false

/-- The call was answered with a failure on the spot. -/
def Item.refused (i : Item) : Bool :=
  match i.next with
  | .fail _ => true
  | .ret f c e => f == i.who && (result c e).1 != SUCCESS
  | .start _ _ => false

/-- The messages sent to mailbox `a`: those of the calls not refused, in the order of the calls. -/
def sent (a : Nat) (tr : List Item) : List Nat :=
  tr.filterMap fun i =>
    match i.call with
    | .send a' m => if a' = a ∧ i.refused = false then some m else none
    | _ => none

/-- The message that the item hands to a receiver on mailbox `a`. -/
def Item.recvd (a : Nat) (i : Item) : Option Nat :=
  match i.next with
  | .ret _ (.receive a') e => if a' = a ∧ (result (.receive a') e).1 = SUCCESS then (result (.receive a') e).2 else none
  | _ => none

/-- The messages that calls of `message_receive` on `a` returned, in order. -/
def recvd (a : Nat) (tr : List Item) : List Nat := tr.filterMap (Item.recvd a)

/-- The address that the item returns from `mailbox_create`. -/
def Item.created (i : Item) : Option Nat :=
  match i.next with
  | .ret _ .boxCreate e => if (result .boxCreate e).1 = SUCCESS then (result .boxCreate e).2 else none
  | _ => none

/-- The addresses returned by `mailbox_create`, in order. -/
def created (tr : List Item) : List Nat := tr.filterMap Item.created

/-- `mailbox_close` on `a` was called and not refused. -/
def closed (a : Nat) (tr : List Item) : Prop :=
  ∃ i ∈ tr, i.call = .boxClose a ∧ i.refused = false

/-- The fibers that called `conditional_wait` on `h` and were not refused, in order. -/
def waited (h : Nat) (tr : List Item) : List Nat :=
  tr.filterMap fun i => if i.call = .wait h ∧ i.refused = false then some i.who else none

/-- The fiber for which the item ends a wait on `h` with success. -/
def Item.woken (h : Nat) (i : Item) : Option Nat :=
  match i.next with
  | .ret f (.wait h') e => if h' = h ∧ (result (.wait h') e).1 = SUCCESS then some f else none
  | _ => none

/-- The fibers whose wait on `h` ended with success, in order. -/
def woken (h : Nat) (tr : List Item) : List Nat := tr.filterMap (Item.woken h)

end Rcpr.Fiber
