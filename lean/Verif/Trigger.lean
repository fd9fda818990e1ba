import Verif.Status

/-!
Model of `src/auto_reset_trigger`, including listeners that use the trigger they are called from.

A listener is a function pointer and a context; what it does with the trigger is a list of calls,
which may depend on everything that happened before (parameter `body`). Pointer `0` is `NULL`.
The trace records the calls in the order they happen. Listeners may call `step` and so recurse
without end: the model takes fuel, and running out of it is `none`.
-/
namespace Rcpr.Trigger

open Rcpr

/-- `struct auto_reset_trigger` (src/auto_reset_trigger/auto_reset_trigger_internal.h:21-30) without
its header and allocator -/
structure Trig where
  triggered : Bool
  cb : Nat
  ctx : Nat
  deriving DecidableEq

/-- `auto_reset_trigger_create` (src/auto_reset_trigger/auto_reset_trigger_create.c:60-103): status and
what is stored to `*trigger`, if anything. -/
def create (alloc : Status) : Status × Option Trig :=
  if alloc ≠ SUCCESS then (alloc, none) else (SUCCESS, some ⟨false, 0, 0⟩)

/-- The calls of include/rcpr/auto_reset_trigger.h. -/
inductive Op
  | signal
  | register (cb ctx : Nat)
  | step
  deriving DecidableEq

/-- what happened: a signal, a registration and its status, a step and the listener it called
(include/rcpr/auto_reset_trigger.h) -/
inductive Ev
  | signal
  | register (cb ctx : Nat) (st : Status)
  | step (called : Option (Nat × Nat))
  deriving DecidableEq

/-- `auto_reset_trigger_register` (src/auto_reset_trigger/auto_reset_trigger_register.c:27-47). -/
def register (t : Trig) (cb ctx : Nat) : Trig × Status :=
  if t.cb ≠ 0 then (t, ERROR_AUTO_RESET_TRIGGER_LISTENER_ALREADY_REGISTERED)
  else ({ t with cb := cb, ctx := ctx }, SUCCESS)

/-- `auto_reset_trigger_signal` (src/auto_reset_trigger/auto_reset_trigger_signal.c:24-32). -/
def signal (t : Trig) : Trig := { t with triggered := true }

/-- A sequence of calls. The case `step` is `auto_reset_trigger_step`
(src/auto_reset_trigger/auto_reset_trigger_step.c:19-40): the listener runs first (32), then the
trigger is reset (35-37). -/
def exec (body : List Ev → Nat → Nat → List Op) :
    Nat → Trig → List Ev → List Op → Option (Trig × List Ev)
  | _, t, tr, [] => some (t, tr)
  | 0, _, _, _ :: _ => none
  | n + 1, t, tr, .signal :: ops => exec body n (signal t) (tr ++ [.signal]) ops
  | n + 1, t, tr, .register cb ctx :: ops =>
    exec body n (register t cb ctx).1 (tr ++ [.register cb ctx (register t cb ctx).2]) ops
  | n + 1, t, tr, .step :: ops =>
    if t.triggered then
      if t.cb ≠ 0 then
        match exec body n t (tr ++ [.step (some (t.cb, t.ctx))]) (body tr t.cb t.ctx) with
        | none => none
        | some (_, tr) => exec body n ⟨false, 0, 0⟩ tr ops
      else exec body n t (tr ++ [.step none]) ops
    else exec body n t (tr ++ [.step none]) ops

/-! ### Specification -/

/-- does this event call a listener. Not in the code: the specification. -/
def Ev.isCall : Ev → Bool
  | .step (some _) => true
  | _ => false

/-- the events after the last call of a listener. Not in the code: the specification. -/
def since (tr : List Ev) : List Ev := (tr.reverse.takeWhile fun e => !e.isCall).reverse

/-- What the interface promises for an event after the history `pre`: a registration is accepted
exactly when no accepted registration is waiting; a step calls a listener exactly when since the
last call there were a signal and an accepted registration, and it calls the registered one.
(include/rcpr/auto_reset_trigger.h) -/
def Allowed (pre : List Ev) : Ev → Prop
  | .signal => True
  | .register _ _ st =>
    (st = SUCCESS ∧ ∀ c x, .register c x SUCCESS ∉ since pre) ∨
    (st = ERROR_AUTO_RESET_TRIGGER_LISTENER_ALREADY_REGISTERED ∧
      ∃ c x, .register c x SUCCESS ∈ since pre)
  | .step (some (c, x)) => .signal ∈ since pre ∧ .register c x SUCCESS ∈ since pre
  | .step none => ¬ (.signal ∈ since pre ∧ ∃ c x, .register c x SUCCESS ∈ since pre)

/-- a history in which every event is allowed. Not in the code: the specification. -/
def Good (tr : List Ev) : Prop := ∀ pre e post, tr = pre ++ e :: post → Allowed pre e

/-- the listeners called, in order. Not in the code: the specification. -/
def calls (tr : List Ev) : List (Nat × Nat) :=
  tr.filterMap fun | .step r => r | _ => none

/-- the accepted registrations, in order. Not in the code: the specification. -/
def accepted (tr : List Ev) : List (Nat × Nat) :=
  tr.filterMap fun | .register c x st => if st = SUCCESS then some (c, x) else none | _ => none

/-- `NULL` is not registered. Not in the code: an assumption about clients (include/rcpr/auto_reset_trigger.h). -/
def OkOps (ops : List Op) : Prop := ∀ c x, .register c x ∈ ops → c ≠ 0

end Rcpr.Trigger
