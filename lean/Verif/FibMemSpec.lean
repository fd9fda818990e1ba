import Verif.FibMem
import Verif.FiberSpec
import Verif.ListMem

/-! What is said about histories over queues in memory. -/
namespace Rcpr.FibMem

open Rcpr Fiber
open Rcpr.SList (Addr Unused)

/-- The allocator hands out blocks that are not in use, with addresses of 64 bits, never NULL. -/
structure Ans.Fair (x : Ans) : Prop where
  q : ∀ k m, Unused m.sl (x.q k m)
  node : ∀ m, Unused m.sl (x.node m)
  qa : ∀ m a, x.qa m = some a → a ≠ 0 ∧ m.queues a = none
  la : ∀ m a, x.la m = some a → a ≠ 0 ∧ m.sl.lists a = none

/-- Fibers and messages are not NULL. -/
def Args : Call → Prop
  | .add f => f ≠ 0
  | .quiesce f => f ≠ 0
  | .terminate f => f ≠ 0
  | .send _ m => m ≠ 0
  | _ => True

/-- whether the allocator has a node for the message or the waiting fiber -/
def nodeSt (x : Ans) (m : Queue.Mem) : Status := if x.node m = none then ERROR_GENERAL_OUT_OF_MEMORY else SUCCESS

/-- what the creation of a mailbox or condition is told; `st` is for the queue or list -/
def creating (x : Ans) (st : Status) : Nat → Status
  | 0 => x.alloc
  | 1 => st
  | 3 => x.ins
  | _ => SUCCESS

/-- what a call is told besides the nodes of the run queue -/
def told (w : World) (c : Call) (x : Ans) : Nat → Status :=
  match c with
  | .add _ => fun _ => x.ins
  | .boxCreate => creating x (if x.qa w.mem = none ∨ x.la w.mem = none then ERROR_GENERAL_OUT_OF_MEMORY else SUCCESS)
  | .condCreate => creating x (if x.la w.mem = none then ERROR_GENERAL_OUT_OF_MEMORY else SUCCESS)
  | .send _ _ => fun _ => nodeSt x w.mem
  | .wait _ => fun _ => nodeSt x w.mem
  | _ => fun _ => SUCCESS

/-- The oracle for the call `c` that found the scheduler as in `w`: the run queue answered as in `log`. -/
def oracle (w : World) (c : Call) (x : Ans) (log : List Status) : Oracle :=
  ⟨fun k => match log[k]? with
    | some st => st
    | none => SUCCESS, told w c x⟩

/-- The calls of a history with their oracles. -/
def oracles : World → List (Call × Ans) → List (Call × Oracle)
  | _, [] => []
  | w, (c, x) :: cs =>
    match stepQ w c x with
    | none => []
    | some r => (c, oracle w c x r.1.log) :: oracles r.1 cs

/-- No node for the run queue was refused. -/
def Granted : World → List (Call × Ans) → Prop
  | _, [] => True
  | w, (c, x) :: cs =>
    match stepQ w c x with
    | none => True
    | some r => (∀ st ∈ r.1.log, st = SUCCESS) ∧ Granted r.1 cs

/-- the fibers that the calls add -/
def added (cs : List (Call × Ans)) : List Nat :=
  cs.filterMap fun p => match p.1 with
    | .add f => some f
    | _ => none

/-- There is an idle fiber and it only yields; every fiber is added once; there are no quiesce or terminate requests. -/
structure Tame (main idle : Nat) (cs : List (Call × Ans)) (tr : List Item) : Prop where
  main0 : main ≠ 0
  idle0 : idle ≠ 0
  ne : main ≠ idle
  once : (added cs).Nodup
  new : ∀ f ∈ added cs, f ≠ main ∧ f ≠ idle
  request : ∀ p ∈ cs, p.1.isRequest = false
  idles : ∀ i ∈ tr, i.who = idle → i.call = .run

/-- The messages that were sent to `a` and not received. -/
def unread (a : Nat) (tr : List Item) : List Nat := (sent a tr).drop (recvd a tr).length

/-- The messages that go with a mailbox when it is closed: those unread so far. -/
def drops (pre : List Item) (i : Item) : List Nat :=
  match i.call with
  | .boxClose a => if i.refused = false then unread a pre else []
  | _ => []

/-- All the messages that went with their mailboxes during `tr`, after `pre`. -/
def dropped : List Item → List Item → List Nat
  | _, [] => []
  | pre, i :: tr => drops pre i ++ dropped (pre ++ [i]) tr

/-- The message that the item sends: the call was not refused. -/
def sends (i : Item) : Option Nat :=
  match i.call with
  | .send _ m => if i.refused = false then some m else none
  | _ => none

/-- The message that the item hands to a receiver. -/
def takes (i : Item) : Option Nat :=
  match i.next with
  | .ret _ (.receive a) e => if (result (.receive a) e).1 = SUCCESS then (result (.receive a) e).2 else none
  | _ => none

end Rcpr.FibMem
