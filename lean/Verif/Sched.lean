import Verif.Status

/-!
Creation and release of a disciplined fiber scheduler
(src/fiber/common/fiber_scheduler_create_with_disciplines.c), as a ledger of allocated objects.

Simplified: allocations fail with `ERROR_GENERAL_OUT_OF_MEMORY` or succeed, as the answers `ok` say, the
n-th request by `ok n`; reclaiming memory succeeds. Contents are left out, except for the links that decide
what is released. Reclaiming an object that is not allocated, or reading one, is undefined (`none`).
-/
namespace Rcpr.Sched

open Rcpr

/-- The objects. `main` is the main fiber, `qnode` the run queue node that holds it, `disc`, `dvec`,
`dcodes` the management discipline with its two arrays and `dnode` its tree node.
(fiber_scheduler_create_with_disciplines.c, src/fiber/common/fiber_internal.h:47-99) -/
inductive Obj
  | ctx | fibers | discs | queue | qlist | cbs | ctxs | sched | main | qnode | disc | dvec | dcodes | dnode
  deriving DecidableEq

/-- `live`: what is allocated; `asks`: the allocation requests so far; `linked`: `ctx->sched` is set;
`inTree`: the management discipline is in the discipline tree. (`sched`: src/fiber/common/fiber_internal.h:71) -/
structure St where
  live : Obj → Bool
  asks : Nat
  linked : Bool
  inTree : Bool

/-- Not in the code: before the first call. -/
def start : St := ⟨fun _ => false, 0, false, false⟩

/-- `allocator_allocate` (include/rcpr/allocator.h) -/
def alloc (ok : Nat → Bool) (x : Obj) (s : St) : Bool × St :=
  if ok s.asks then (true, { s with live := fun y => if y = x then true else s.live y, asks := s.asks + 1 })
  else (false, { s with asks := s.asks + 1 })

/-- `allocator_reallocate`: on failure the old block stays. (include/rcpr/allocator.h) -/
def realloc (ok : Nat → Bool) (x : Obj) (s : St) : Option (Bool × St) :=
  if s.live x then some (ok s.asks, { s with asks := s.asks + 1 }) else none

/-- `allocator_reclaim` (include/rcpr/allocator.h) Simplified: it does not fail. -/
def free (x : Obj) (s : St) : Option St :=
  if s.live x then some { s with live := fun y => if y = x then false else s.live y } else none

/-- `queue_create` (src/queue/queue_create.c) -/
def queueCreate (ok : Nat → Bool) (s : St) : Option (Bool × St) :=
  match alloc ok .queue s with
  | (false, s) => some (false, s)
  | (true, s) =>
    match alloc ok .qlist s with
    | (true, s) => some (true, s)
    | (false, s) => (free .queue s).map fun s => (false, s)

/-- `queue_release` (src/queue/queue_create.c) of a queue without elements -/
def queueRelease (s : St) : Option St := (free .qlist s).bind (free .queue)

/-- `fiber_scheduler_disciplined_callback` (654-719) for the main event (779-801): a queue node is
allocated for the main fiber, which is then popped. The handler does not use `ctx->sched`. -/
def mainCallback (ok : Nat → Bool) (s : St) : Option (Bool × St) :=
  match alloc ok .qnode s with
  | (false, s) => some (false, s)
  | (true, s) => (free .qnode s).map fun s => (true, s)

/-- The same for the release event (968-987): the handler reads `ctx->sched->context`
(disciplined_fiber_scheduler_set_next_fiber_to_run.c:57). -/
def releaseCallback (ok : Nat → Bool) (s : St) : Option (Bool × St) :=
  if s.linked = false ∨ s.live .sched = false then none
  else
    match alloc ok .qnode s with
    | (false, s) => some (false, s)
    | (true, s) => (free .qnode s).map fun s => (true, s)

/-- `fiber_scheduler_resource_release` (fiber_scheduler_resource_release.c:29-86); `m`: there is a main
fiber. -/
def schedRelease (ok : Nat → Bool) (m : Bool) (s : St) : Option (Bool × St) :=
  if m then
    (releaseCallback ok s).bind fun (r, s) => (free .main s).bind fun s => (free .sched s).map fun s => (r, s)
  else (free .sched s).map fun s => (true, s)

/-- `fiber_scheduler_create` (fiber_scheduler_create.c:68-160) with the callback above -/
def schedCreate (ok : Nat → Bool) (s : St) : Option (Bool × St) :=
  match alloc ok .sched s with
  | (false, s) => some (false, s)
  | (true, s) =>
    match alloc ok .main s with
    | (false, s) => (schedRelease ok false s).map fun (_, s) => (false, s)
    | (true, s) =>
      (mainCallback ok s).bind fun
        | (true, s) => some (true, s)
        | (false, s) => (schedRelease ok true s).map fun (_, s) => (false, s)

/-- `fiber_scheduler_discipline_create` (fiber_scheduler_discipline_create.c:71-165) -/
def discCreate (ok : Nat → Bool) (s : St) : Option (Bool × St) :=
  match alloc ok .disc s with
  | (false, s) => some (false, s)
  | (true, s) =>
    match alloc ok .dvec s with
    | (false, s) => (free .disc s).map fun s => (false, s)
    | (true, s) =>
      match alloc ok .dcodes s with
      | (true, s) => some (true, s)
      | (false, s) => (free .dvec s).bind fun s => (free .disc s).map fun s => (false, s)

/-- `fiber_scheduler_discipline_resource_release` (fiber_scheduler_discipline_create.c:176-213) -/
def discRelease (s : St) : Option St :=
  if s.live .disc then (free .dvec s).bind fun s => (free .dcodes s).bind (free .disc) else none

/-- `fiber_scheduler_discipline_add` (fiber_scheduler_discipline_add.c:51-163) on a scheduler without
disciplines -/
def discAdd (ok : Nat → Bool) (s : St) : Option (Bool × St) :=
  match alloc ok .dnode s with
  | (false, s) => some (false, s)
  | (true, s) =>
    (realloc ok .cbs { s with inTree := true }).bind fun
      | (false, s) => some (false, s)
      | (true, s) => realloc ok .ctxs s

/-- `fiber_scheduler_disciplined_context_resource_release` (486-585). It does not reclaim the context
itself. There are no fibers in the tree, no idle fiber, and nothing in the run queue. -/
def ctxRelease (s : St) : Option St :=
  if s.live .ctx then
    (free .fibers s).bind fun s =>
      (if s.inTree then (discRelease s).bind (free .dnode) else some s).bind fun s =>
        (free .discs s).bind fun s => (queueRelease s).bind fun s => (free .cbs s).bind (free .ctxs)
  else none

/-- `fiber_scheduler_disciplined_resource_release` (596-635) -/
def release (ok : Nat → Bool) (s : St) : Option (Bool × St) :=
  if s.live .sched then
    (schedRelease ok true s).bind fun (r, s) => (ctxRelease s).map fun s => (r, s)
  else none

/-- The labels from `cleanup_run_queue` on (336-375). At line 352 the wrong status is tested, so the
failure is replaced by the status of the release, which is success. -/
def cleanupFrom (n : Nat) (st : Status) (s : St) : Option (Status × St) :=
  (if 4 ≤ n then free .ctxs s else some s).bind fun s =>
  (if 3 ≤ n then free .cbs s else some s).bind fun s =>
  (if 2 ≤ n then queueRelease s else some s).bind fun s =>
  (if 1 ≤ n then
      (free .discs s).map fun s => (if st ≠ SUCCESS then SUCCESS else st, s)
    else some (st, s)).bind fun (st, s) =>
  (if 0 ≤ n then free .fibers s else some s).bind fun s =>
  (free .ctx s).map fun s => (st, s)

/-- `cleanup_scheduler` (303-315) -/
def cleanupSched (ok : Nat → Bool) (st : Status) (s : St) : Option (Status × St) :=
  (release ok s).map fun (r, s) => (if r then st else ERROR_GENERAL_OUT_OF_MEMORY, s)

/-- `fiber_scheduler_create_with_disciplines` (129-375): status, whether `*sched` was set, and the
state. -/
def create (ok : Nat → Bool) (s : St) : Option (Status × Bool × St) :=
  let oom := ERROR_GENERAL_OUT_OF_MEMORY
  let fail := fun (r : Option (Status × St)) => r.map fun (st, s) => (st, false, s)
  match alloc ok .ctx s with
  | (false, s) => some (oom, false, s)
  | (true, s) =>
  match alloc ok .fibers s with
  | (false, s) => fail ((free .ctx s).map fun s => (oom, s))
  | (true, s) =>
  match alloc ok .discs s with
  | (false, s) => fail (cleanupFrom 0 oom s)
  | (true, s) =>
  (queueCreate ok s).bind fun
  | (false, s) => fail (cleanupFrom 1 oom s)
  | (true, s) =>
  match alloc ok .cbs s with
  | (false, s) => fail (cleanupFrom 2 oom s)
  | (true, s) =>
  match alloc ok .ctxs s with
  | (false, s) => fail (cleanupFrom 3 oom s)
  | (true, s) =>
  (schedCreate ok s).bind fun
  | (false, s) => fail (cleanupFrom 4 oom s)
  | (true, s) =>
  (discCreate ok { s with linked := true }).bind fun
  | (false, s) => fail (cleanupSched ok oom s)
  | (true, s) =>
  (discAdd ok s).bind fun
  | (false, s) => fail ((discRelease s).bind (cleanupSched ok oom))
  | (true, s) => some (SUCCESS, true, s)

end Rcpr.Sched
