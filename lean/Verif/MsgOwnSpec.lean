import Verif.FiberSpec

/-!
Who owns a message, by the documentation (include/rcpr/message.h:177-180 for `message_send`, 200-203 for
`message_receive`): a send takes the message from the sender, a send that fails leaves it with the sender, a
receive gives it to the receiver, and closing a mailbox disposes of what it holds.
-/
namespace Rcpr.MsgOwn

open Rcpr Rcpr.Fiber

inductive Holder
  | nobody
  | fiber (f : Nat)
  | box (a : Nat)
  deriving DecidableEq

/-- who owns each message -/
abbrev Hold := Nat → Holder

def put (h : Hold) (m : Nat) (x : Holder) : Hold := fun n => if n = m then x else h n

/-- a call is made -/
def called (h : Hold) (i : Item) : Hold :=
  match i.call with
  | .send a m => put h m (.box a)
  | .boxClose a => if i.refused then h else fun m => if h m = .box a then .nobody else h m
  | _ => h

/-- Control returns to a fiber and tells it that it owns a message: `(a, m, f)` when `f` is told that its send
of `m` to `a` failed, or receives `m` from `a`. -/
def hands (i : Item) : Option (Nat × Nat × Nat) :=
  match i.next with
  | .fail _ => match i.call with
    | .send a m => some (a, m, i.who)
    | _ => none
  | .ret f (.send a m) e => if (result (.send a m) e).1 ≠ SUCCESS then some (a, m, f) else none
  | .ret f (.receive a) e =>
    if (result (.receive a) e).1 = SUCCESS then (result (.receive a) e).2.map fun m => (a, m, f) else none
  | _ => none

/-- the owners after the item -/
def after (h : Hold) (i : Item) : Hold :=
  match hands i with
  | some (_, m, f) => put (called h i) m (.fiber f)
  | none => called h i

/-- Histories of fibers that send only messages they own. Between calls they create messages, release messages
they own and pass them on to each other. `P` restricts the calls. -/
inductive Owned (P : Sys → Call → Oracle → Prop) (main idle : Nat) : Sys → List Item → Hold → Prop
  | init : main ≠ 0 → main ≠ idle → Owned P main idle (init main idle) [] fun _ => .nobody
  | step {w tr h} (c : Call) (o : Oracle) : Owned P main idle w tr h → P w c o →
      (∀ a m, c = .send a m → h m = .fiber w.cur) →
      Owned P main idle (step w c o).1 (tr ++ [(step w c o).2]) (after h (step w c o).2)
  | create {w tr h} (m f : Nat) : Owned P main idle w tr h → h m = .nobody → Owned P main idle w tr (put h m (.fiber f))
  | release {w tr h} (m f : Nat) : Owned P main idle w tr h → h m = .fiber f → Owned P main idle w tr (put h m .nobody)
  | pass {w tr h} (m f g : Nat) : Owned P main idle w tr h → h m = .fiber f → Owned P main idle w tr (put h m (.fiber g))

end Rcpr.MsgOwn
