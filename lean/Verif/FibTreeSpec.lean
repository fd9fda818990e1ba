import Verif.FibTree

/-! Which fibers a scheduler owns, told from what can be seen of the calls. -/
namespace Rcpr.FibTree

open Rcpr Fiber
open Rcpr.MsgTree (Ans)

/-- The calls that yield. -/
def items : List Seen → List Item
  | [] => []
  | .call it :: tr => it :: items tr
  | .remove _ _ :: tr => items tr

/-- `fiber_scheduler_add` for `f` did not fail. -/
def Gains (f : Nat) (s : Seen) : Prop := ∃ it, s = .call it ∧ it.call = .add f ∧ ∀ st, it.next ≠ .fail st

/-- `f` was added, and has not been removed with success since. -/
def Owned (f : Nat) (tr : List Seen) : Prop := ∃ A s B, tr = A ++ s :: B ∧ Gains f s ∧ Seen.remove f SUCCESS ∉ B

/-- What is asked of the client and of the environment: the fiber to be added is not NULL and not owned already; once the
new fiber has its place in the run queue there is room for the caller and the management fiber too; reclaiming the tree
node of a fiber that is removed does not fail. -/
def Lawful (_ : World) (tr : List Seen) (a : Act) (x : Ans) : Prop :=
  match a with
  | .call (.add f) => f ≠ 0 ∧ ¬ Owned f tr ∧ (x.o.q 0 = SUCCESS → x.o.q 1 = SUCCESS ∧ x.o.q 2 = SUCCESS)
  | .call _ => True
  | .remove _ => ∀ n, x.env.reclaim n = SUCCESS

end Rcpr.FibTree
