import Verif.MsgTree

/-!
The scheduler with the red-black tree it keeps its fibers in (`fibers_by_pointer`). `Verif.Fiber` has a sorted list in
place of this tree and no way to take a fiber out of it; here the handlers call the tree functions of `Verif.RBTree`
as the code does, on nodes in memory, and `disciplined_fiber_scheduler_remove_fiber` is a call of its own. The trees of
mailboxes and conditions are finite maps here (they are in `Verif.MsgTree`). The field `tree` of `Sys` is not used.

A fiber is named by its address, `0` is NULL. To read a node that is not allocated is undefined, and so is a loop over
the tree that does not end (`none`).
-/
namespace Rcpr.FibTree

open Rcpr Fiber
open Rcpr.MsgTree (byAddr Log Ans Use finish)

/-- The scheduler with the tree of its context (fiber_internal.h:47-84). The order of the tree is that of the addresses:
fiber_by_pointer_compare and fiber_by_pointer_key (fiber_scheduler_create_with_disciplines.c:394-425), as `byAddr`; the
code compares by the sign of the difference, which is the order of addresses below 2^63. `flog` is a record that is not in
the code. -/
structure World where
  sys : Sys
  fibs : RB.St
  flog : Log

/-- A call of the tree of fibers. `fibers_by_pointer` (src/fiber/common/fiber_internal.h:76). -/
def World.ask (w : World) (env : RB.Env) (op : RB.Spec.Op Nat) : Option (RB.Spec.Out × World) :=
  (RB.call byAddr env w.fibs op).map fun r => (r.1, { w with fibs := r.2, flog := w.flog ++ [(op, r.1)] })

/-- The queues after a fiber has got its node in the tree (fiber_scheduler_create_with_disciplines.c:862-894). -/
def announce (s : Sys) (y f : Nat) (o : Oracle) : Sys × Status :=
  let r := front s y ⟨.internal, RESUME_ADD_FIBER, 0⟩ (o.q 1)
  if r.2 ≠ SUCCESS then r
  else if s.mgmt ≠ 0 then
    let r := front r.1 s.mgmt ⟨.mgmt, MGMT_FIBER_ADD, f⟩ (o.q 2)
    if r.2 ≠ SUCCESS then r else ({ r.1 with mgmt := 0 }, SUCCESS)
  else (r.1, SUCCESS)

/-- add (fiber_scheduler_create_with_disciplines.c:818-895): the tree first (836-841), then the run queue (844-860). If
there is no room in the run queue the fiber is taken out of the tree again, and the last error is returned. -/
def addF (w : World) (y f : Nat) (x : Ans) : Option (World × Status) :=
  (w.ask x.env (.insert f x.node (x.o.a 0))).bind fun r =>
    if r.1.1 ≠ SUCCESS then some (r.2, r.1.1)
    else
      let b := back w.sys f ⟨.internal, RESUME_ADD_FIBER, 0⟩ (x.o.q 0)
      if b.2 ≠ SUCCESS then
        (r.2.ask x.env (.delete f true)).map fun d =>
          ({ d.2 with sys := b.1 }, if d.1.1 ≠ SUCCESS then d.1.1 else b.2)
      else
        let a := announce b.1 y f x.o
        some ({ r.2 with sys := a.1 }, a.2)

/-- The loop of quiesce all and terminate all (1196-1219, 1258-1282) from node `nd` on, `k` allocations done so far; the
first argument is fuel. -/
def requestLoopF (code y : Nat) (o : Oracle) (t : RB.St) : Nat → Nat → Nat → Sys → Option (Sys × Status × Nat)
  | 0, _, _, _ => none
  | n + 1, nd, k, w =>
    if nd = t.tree.nil then some (w, SUCCESS, k)
    else (t.heap nd).bind fun x =>
      if x.value ≠ 0 ∧ y ≠ x.value ∧ w.mgmt ≠ x.value ∧ w.state x.value = .running then
        let r := back w x.value ⟨.mgmt, code, 0⟩ (o.q k)
        if r.2 ≠ SUCCESS then some (r.1, r.2, k)
        else (RB.successor (t.tree.count + 1) t.heap t.tree.nil nd).bind fun m => requestLoopF code y o t n m (k + 1) r.1
      else (RB.successor (t.tree.count + 1) t.heap t.tree.nil nd).bind fun m => requestLoopF code y o t n m k w

/-- quiesce all and terminate all (1181-1227, 1243-1290); the loop has fuel for every value the tree counts. -/
def requestAllF (code : Nat) (w : World) (y : Nat) (o : Oracle) : Option (World × Status) :=
  (RB.minimum w.fibs.heap w.fibs.tree.nil (w.fibs.tree.count + 1) w.fibs.tree.root).bind fun m =>
    (requestLoopF code y o w.fibs (w.fibs.tree.count + 1) m 0 w.sys).map fun r =>
      if r.2.1 ≠ SUCCESS then ({ w with sys := r.1 }, r.2.1)
      else
        let b := back r.1 y ⟨.mgmt, MGMT_REQUEST_RESULT, SUCCESS.toNat⟩ (o.q r.2.2)
        ({ w with sys := b.1 }, b.2)

/-- The callback a call leads to. The other calls do not use this tree.
By `callback_vector` (fiber_scheduler_create_with_disciplines.c:664-673). -/
def handlerF (w : World) (c : Call) (x : Ans) : Option (World × Status) :=
  match c with
  | .add f => addF w w.sys.cur f x
  | .quiesceAll => requestAllF MGMT_QUIESCE_REQUEST w w.sys.cur x.o
  | .terminateAll => requestAllF MGMT_TERMINATION_REQUEST w w.sys.cur x.o
  | c => let r := handler w.sys c x.o; some ({ w with sys := r.1 }, r.2)

/-- What the running fiber does: a call that yields, or `disciplined_fiber_scheduler_remove_fiber`, which does not.
(include/rcpr/fiber.h) -/
inductive Act
  | call (c : Call)
  | remove (f : Nat)
  deriving DecidableEq

/-- What can be seen of it. Not in the code: a record for the specification. -/
inductive Seen
  | call (it : Item)
  | remove (f : Nat) (st : Status)
  deriving DecidableEq

/-- One act of the running fiber; remove is disciplined_fiber_scheduler_remove_fiber.c:42-60 (what the tree hands out is
the fiber itself, the caller has it already). -/
def stepF (w : World) (a : Act) (x : Ans) : Option (World × Seen) :=
  match a with
  | .call c => (handlerF w c x).map fun r =>
      let s := finish w.sys.cur c (r.1.sys, r.2)
      ({ r.1 with sys := s.1 }, .call s.2)
  | .remove f => (w.ask x.env (.delete f true)).map fun r => (r.2, .remove f r.1.1)

/-- After the scheduler was created; `N` is the sentinel of the tree. (fiber_scheduler_create_with_disciplines.c) -/
def initF (main idle N : Nat) : World := ⟨init main idle, RB.create N, []⟩

/-! ### Histories -/

/-- A new tree node is not in use. Not in the code: the allocator does not hand out what is in use. -/
def Fresh (w : World) (a : Act) (x : Ans) : Prop := ∀ f, a = .call (.add f) → x.o.a 0 = SUCCESS → w.fibs.heap x.node = none

/-- What is asked of the tree keeps to the restriction. Not in the code: an assumption about clients. -/
def Keeps (P : Use) (w : World) (a : Act) (x : Ans) : Prop :=
  match a with
  | .call (.add f) => P w.flog w.fibs (.insert f x.node (x.o.a 0)) ∧
      ∀ r, w.ask x.env (.insert f x.node (x.o.a 0)) = some r → x.o.a 0 = SUCCESS → x.o.q 0 ≠ SUCCESS → P r.2.flog r.2.fibs (.delete f true)
  | .call _ => True
  | .remove f => P w.flog w.fibs (.delete f true)

/-- Histories of acts that satisfy `L` and keep to `P`; `tr` is what can be seen. Not in the code: clients. -/
inductive HistF (P : Use) (L : World → List Seen → Act → Ans → Prop) (main idle N : Nat) : World → List Seen → Prop
  | init : main ≠ 0 → main ≠ idle → HistF P L main idle N (initF main idle N) []
  | step {w tr w' s} (a : Act) (x : Ans) : HistF P L main idle N w tr → L w tr a x → Fresh w a x → Keeps P w a x →
      stepF w a x = some (w', s) → HistF P L main idle N w' (tr ++ [s])

/-- Acts in sequence. Not in the code: a client. -/
def execF : World → List (Act × Ans) → Option (World × List Seen)
  | w, [] => some (w, [])
  | w, (a, x) :: as => (stepF w a x).bind fun r => (execF r.1 as).map fun q => (q.1, r.2 :: q.2)

end Rcpr.FibTree
