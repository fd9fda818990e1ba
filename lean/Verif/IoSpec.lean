import Verif.IoFiber

/-! What users of async psocks rely on in a scheduler with requests, said of what can be seen. -/
namespace Rcpr.Io

open Rcpr Epoll

/-- The call that fiber `f` made last. -/
def lastCall (f : Nat) (tr : List Item) : Option Call := tr.foldl (fun c i => if i.who = f then some i.call else c) none

/-- `epoll_wait` returned this side of the socket as ready. -/
def Item.reports (i : Item) (sd : Side) (ps : Nat) : Bool :=
  match i.call with
  | .poll evs => evs.any fun e => e.1 == ps && has e.2 sd.bit
  | _ => false

/-- It did so after the last call of fiber `f`. -/
def readySince (f : Nat) (sd : Side) (ps : Nat) (tr : List Item) : Bool :=
  tr.foldl (fun b i => if i.who = f then false else b || i.reports sd ps) false

/-- A fiber that is not waiting for a socket is resumed with an event of a socket. -/
def Next.strays : Next → Bool
  | .start _ e => e.disc == .psock
  | .ret _ _ e => e.disc == .psock
  | _ => false

/-- The event is a quiesce or terminate request. -/
def Ev.isRequest (e : Ev) : Bool := e.disc == .mgmt && (e.code == Fiber.MGMT_QUIESCE_REQUEST || e.code == Fiber.MGMT_TERMINATION_REQUEST)

/-- Fiber `f` is resumed with a request. -/
def Item.gets (i : Item) (f : Nat) : Bool :=
  match i.next with
  | .start g e => g == f && e.isRequest
  | .ret g _ e => g == f && e.isRequest
  | .blk g _ _ e _ _ => g == f && e.isRequest
  | .fail _ => false

/-- Fiber `f` is resumed with a request, and the handler of `h` is told. -/
def Item.tells (i : Item) (f h : Nat) : Bool :=
  match i.next with
  | .blk g _ _ e t _ => g == f && e.isRequest && t == some h
  | _ => false

/-- Fiber `f` was entered and has not ended. -/
def liveStep (f : Nat) (b : Bool) (i : Item) : Bool :=
  (b && !(i.who == f && i.call == .stop)) || (match i.next with | .start g _ => g == f | _ => false)

/-- The main fiber is live from the start. -/
def live (main f : Nat) (tr : List Item) : Bool := tr.foldl (liveStep f) (main == f)

/-- The call fails at once. -/
def Next.fails : Next → Bool
  | .fail _ => true
  | _ => false

/-- Fiber `f` was given to the scheduler. -/
def added (f : Nat) (tr : List Item) : Bool := tr.any fun i => i.call == .add f && !i.next.fails

/-- Given whether `f` is live and added: the item is a request that concerns it. -/
def Item.sends (i : Item) (f : Nat) (lv ad : Bool) : Bool :=
  match i.call with
  | .quiesce g | .terminate g => g == f && lv
  | .quiesceAll | .terminateAll => i.who != f && lv && ad
  | _ => false

/-- The number of requests to `f`. -/
def sent (main f : Nat) : List Item → List Item → Nat
  | _, [] => 0
  | pre, i :: tr => (if i.sends f (live main f pre) (added f pre) then 1 else 0) + sent main f (pre ++ [i]) tr

/-- The number of times `f` was resumed with a request. -/
def got (f : Nat) (tr : List Item) : Nat := tr.countP (·.gets f)

/-- The number of times the handler of `h` was told of a request to `f`. -/
def told (f h : Nat) (tr : List Item) : Nat := tr.countP (·.tells f h)

/-- Requests go to fibers that are neither running nor about to run; run queue nodes can be allocated; only new fibers are
added. -/
structure Once (w : Sys) (c : Call) (o : Oracle) : Prop where
  alloc : ∀ k, o.q k = SUCCESS
  fresh : ∀ f, c = .add f → f ≠ 0 ∧ f ∉ w.cur :: w.runq ∧ w.call f = none ∧ f ∉ w.tree ∧ w.state f = .created
  one : ∀ f, c = .quiesce f ∨ c = .terminate f → f ∉ w.cur :: w.runq
  all : c = .quiesceAll ∨ c = .terminateAll → ∀ f ∈ w.tree, f ≠ w.cur → w.state f = .running → f ∉ w.runq

/-- Fiber `f` runs next: its call failed at once, or it is entered or resumed. -/
def Item.runs (i : Item) (f : Nat) : Bool :=
  match i.next with
  | .fail _ => i.who == f
  | .start g _ => g == f
  | .ret g _ _ => g == f
  | .blk g _ _ _ _ _ => g == f

/-- The call that fiber `f` has made and not yet come back from. -/
def inside (f : Nat) (tr : List Item) : Option Call :=
  tr.foldl (fun c i => if i.runs f then none else if i.who = f then some i.call else c) none

/-- Of the fibers that wait for one side of a socket there is only one; the idle fiber can arm sockets again. -/
structure Alone (w : Sys) (c : Call) (o : Oracle) : Prop where
  one : ∀ sd ps, c = .block sd ps → ∀ g, w.call g ≠ some (.block sd ps)
  ctl : ∀ evs, c = .poll evs → ∀ p, o.ctl p = false

end Rcpr.Io
