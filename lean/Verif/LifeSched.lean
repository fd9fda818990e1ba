import Verif.Life

/-!
What a disciplined scheduler owns: its disciplines, its fibers, its idle fiber and its two vectors, as a
ledger (`Verif.Life`). Left out: the structures of the scheduler, its trees and its run queue (`Verif.Sched`
has them), the nodes of the run queue, and what the callbacks of the disciplines do (`Verif.Fiber`).
Trees are lists here.
-/
namespace Rcpr.Life

open Rcpr

/-- The context that is released together with a discipline: none (management), one with a tree (messages,
conditions), one with a descriptor (epoll).
(src/message/message_internal.h:53-64, src/condition/condition_internal.h, src/psock/platform/epoll) -/
inductive Ctx
  | none | tree (h : Two) | io (h : Two)
  deriving DecidableEq, Repr

/-- A node of `disciplines_by_uuid` (src/fiber/common/fiber_internal.h) -/
structure Entry where
  id : Nat
  node : Nat
  disc : Disc
  ctx : Ctx
  deriving DecidableEq, Repr

/-- `fiber_scheduler_disciplined_context` (src/fiber/common/fiber_internal.h:66-84): trees of disciplines and
fibers, callback vector, context vector, idle fiber. -/
structure Sch where
  discs : List Entry
  fibers : List (Nat × Fiber)
  vec : Option Nat
  cvec : Option Nat
  idle : Option Fiber
  deriving DecidableEq, Repr

/-- Identifiers of the disciplines; their values do not matter.
(src/fiber/common/fiber_scheduler_management_discipline_definitions.c) -/
def MGMT_ID : Nat := 0
/-- (src/message/message_discipline_definitions.c) -/
def MESSAGE_ID : Nat := 1
/-- (src/condition/fiber/condition_discipline_definitions.c) -/
def CONDITION_ID : Nat := 2
/-- (src/psock/psock_io_discipline_definitions.c) -/
def IO_ID : Nat := 3

/-- `rbtree_find` in `disciplines_by_uuid`: reads the key of a node, which is a field of the discipline
(fiber_scheduler_create_with_disciplines.c:467-477). Simplified: goes through all nodes up to the one sought,
where the tree goes through those on a path. -/
def find (id : Nat) : List Entry → M (Option Entry)
  | [] => pure none
  | en :: l => do
    use en.node
    use en.disc.p
    if en.id = id then pure (some en) else find id l

/-- Allocate or enlarge a vector (src/fiber/common/fiber_scheduler_discipline_add.c:104-122, 130-145).
Simplified: an enlarged block keeps its name. -/
def grow : Option Nat → M (Status × Option Nat)
  | none => do
    match ← get .mem with
    | .error a => pure (a, none)
    | .ok p => pure (SUCCESS, some p)
  | some v => do
    use v
    let a ← ask
    pure (a, some v)

/-- `fiber_scheduler_discipline_add` (src/fiber/common/fiber_scheduler_discipline_add.c:51-163). Simplified:
`c`, the context released together with the discipline, is noted at once; the code sets the release method
right after the call (messages, conditions) or before it (sockets). -/
def discAdd (sch : Sch) (id : Nat) (d : Disc) (c : Ctx) : M (Status × Sch) := do
  use d.p
  match ← find id sch.discs with
  | some _ => pure (ERROR_FIBER_SCHEDULER_DUPLICATE_DISCIPLINE_ID, sch)
  | none =>
    match ← get .mem with
    | .error a => pure (a, sch)
    | .ok n =>
      let sch := { sch with discs := ⟨id, n, d, c⟩ :: sch.discs }
      let (a, v) ← grow sch.vec
      let sch := { sch with vec := v }
      if a ≠ SUCCESS then pure (a, sch)
      else
        let (b, v) ← grow sch.cvec
        let sch := { sch with cvec := v }
        if b ≠ SUCCESS then pure (b, sch)
        else
          use d.p
          pure (SUCCESS, sch)

/-- `message_discipline_get_or_create` (src/message/message_discipline_get_or_create.c:40-119) and
`condition_discipline_get_or_create` (src/condition/fiber/condition_discipline_get_or_create.c:40-120) -/
def getOrCreate (id : Nat) (sch : Sch) : M (Status × Out Disc × Sch) := do
  match ← find id sch.discs with
  | some en => pure (SUCCESS, .set en.disc, sch)
  | none =>
    match ← contextCreate with
    | (_, .set ctx) =>
      match ← discCreate with
      | (_, .set d) =>
        let (a, sch) ← discAdd sch id d (.tree ctx)
        if a ≠ SUCCESS then
          let r ← discRelease d
          let r' ← contextRelease ctx
          pure (over (over a r) r', .null, sch)
        else
          use d.p
          use ctx.p
          pure (SUCCESS, .set d, sch)
      | (a, _) =>
        let r ← contextRelease ctx
        pure (over a r, .untouched, sch)
    | (a, _) => pure (a, .untouched, sch)

/-- The part of `psock_create_wrap_async` that concerns the scheduler (src/psock/psock_create_wrap_async.c:
130-156) with `psock_create_wrap_async_add_psock_discipline` (278-351), on a platform with epoll. The test of
the status of `set_idle_fiber` is left out: it cannot fail
(src/fiber/common/disciplined_fiber_scheduler_set_idle_fiber.c:42-60). -/
def ioGetOrCreate (sch : Sch) : M (Status × Out Disc × Sch) := do
  match ← find IO_ID sch.discs with
  | some en => pure (SUCCESS, .set en.disc, sch)
  | none =>
    match ← ioDiscCreate with
    | (_, .set h) =>
      let (a, sch) ← discAdd sch IO_ID h.disc (.io h.ctx)
      if a ≠ SUCCESS then
        let r ← ioDiscRelease h
        pure (over a r, .null, sch)
      else
        match ← fiberCreate with
        | (_, .set f) => pure (SUCCESS, .set h.disc, { sch with idle := some f })
        | (a, _) => pure (a, .set h.disc, sch)
    | (a, _) => pure (a, .untouched, sch)

/-- `fiber_scheduler_add` with the callback for added fibers
(fiber_scheduler_create_with_disciplines.c:818-895): tree node, then place in the run queue for the new
fiber, for the calling fiber, and for the management fiber if there is one (`mgmt`). -/
def fiberAdd (mgmt : Bool) (sch : Sch) (f : Fiber) : M (Status × Sch) := do
  use f.p
  match ← get .mem with
  | .error a => pure (a, sch)
  | .ok n =>
    let a ← ask
    if a ≠ SUCCESS then
      let r ← put .mem n
      pure (over a r, sch)
    else
      let sch := { sch with fibers := (n, f) :: sch.fibers }
      let a ← ask
      if a ≠ SUCCESS then pure (a, sch)
      else if mgmt then
        let a ← ask
        if a ≠ SUCCESS then pure (a, sch)
        else pure (SUCCESS, sch)
      else pure (SUCCESS, sch)

/-- `disciplined_fiber_scheduler_remove_fiber`
(src/fiber/common/disciplined_fiber_scheduler_remove_fiber.c:42-60) of the n-th fiber of the tree. The key is
the address of the fiber, which is not read through. -/
def fiberRemove (sch : Sch) (n : Nat) : M (Status × Option Fiber × Sch) := do
  match sch.fibers[n]? with
  | none => pure (ERROR_RBTREE_NOT_FOUND, none, sch)
  | some (node, f) =>
    use node
    let r ← put .mem node
    pure (r, some f, { sch with fibers := sch.fibers.eraseIdx n })

/-- The release method of a discipline: the chained one
(src/message/message_discipline_set_resource_release.c:72-101 and its analogues for conditions and sockets) or
that of a discipline on its own -/
def entryValueRelease (d : Disc) : Ctx → M Status
  | .none => discRelease d
  | .tree c => do
    use d.p
    use c.p
    let a ← contextRelease c
    use d.p
    let r ← discRelease d
    pure (first a r)
  | .io c => ioDiscRelease ⟨c, d⟩

/-- `rbtree_node_release` (src/rbtree/rbtree_node_create.c:112-140) -/
def nodeRelease (node : Nat) (value : M Status) : M Status := do
  use node
  let r ← value
  if r ≠ SUCCESS then pure r
  else
    use node
    put .mem node

/-- `rbtree_delete_nodes` (src/rbtree/rbtree_delete_nodes.c:31-61): all nodes, whatever the failures; the
first failure is returned. Simplified: the order of the nodes. -/
def releaseNodes : List (M Status) → M Status
  | [] => pure SUCCESS
  | m :: l => do
    let a ← m
    let b ← releaseNodes l
    pure (first a b)

/-- Release of the idle fiber (fiber_scheduler_create_with_disciplines.c:535-539) -/
def idleRelease : Option Fiber → M Status
  | some f => fiberRelease f
  | none => pure SUCCESS

/-- `fiber_scheduler_disciplined_context_resource_release`
(fiber_scheduler_create_with_disciplines.c:487-585), without the trees and the run queue themselves -/
def schRelease (sch : Sch) : M Status := do
  let a ← releaseNodes (sch.fibers.map fun x => nodeRelease x.1 (fiberRelease x.2))
  let b ← releaseNodes (sch.discs.map fun en => nodeRelease en.node (entryValueRelease en.disc en.ctx))
  let c ← idleRelease sch.idle
  let d ← putIf sch.vec
  let e ← putIf sch.cvec
  pure (first a (first b (first c (first d e))))

/-! ### Programs -/

/-- A program with one scheduler: `mine` are the fibers it has created and not handed over.
Not in the code: a client of include/rcpr/fiber.h. -/
structure Prog where
  sch : Sch
  mine : List Fiber
  st : St

/-- What a program does with a scheduler. `disc`: a discipline of its own is created and added, and released
if it cannot be added, as `fiber_scheduler_create_with_disciplines` does too; `messages` with its identifier:
`message_discipline_get_or_create` and its twin. `setIdle` hands a fiber over as idle fiber, as
`psock_create_wrap_async` does; `setIdleAdded` makes an added fiber the idle fiber, as the documentation of
`disciplined_fiber_scheduler_set_idle_fiber` asks (include/rcpr/fiber.h:837-849); `idleExit` is the end of
the idle fiber (src/psock/platform/epoll/psock_idle_fiber_entry.c:190-197). -/
inductive Do
  | disc (id : Nat) | messages (id : Nat) | io | create | add (mgmt : Bool) (n : Nat) | remove (n : Nat)
  | release (n : Nat) | setIdle (n : Nat) | setIdleAdded (n : Nat) | idleExit
  deriving DecidableEq, Repr

/-- A program adds a discipline of its own.
By fiber_scheduler_discipline_create.c and fiber_scheduler_discipline_add.c. -/
def ownDisc (id : Nat) (sch : Sch) : M (Status × Out Disc × Sch) := do
  match ← discCreate with
  | (_, .set d) =>
    let (a, sch) ← discAdd sch id d .none
    if a ≠ SUCCESS then
      let r ← discRelease d
      pure (over a r, .null, sch)
    else pure (SUCCESS, .set d, sch)
  | (a, _) => pure (a, .untouched, sch)

/-- One call: its status, the discipline it answers, and the new state. A program does not use what it does
not have, and does not replace an idle fiber. (include/rcpr/fiber.h) -/
def Prog.act (w : Prog) : Do → M (Status × Out Disc × Sch × List Fiber)
  | .disc id => do
    let (a, o, sch) ← ownDisc id w.sch
    pure (a, o, sch, w.mine)
  | .messages id => do
    let (a, o, sch) ← getOrCreate id w.sch
    pure (a, o, sch, w.mine)
  | .io => do
    let (a, o, sch) ← ioGetOrCreate w.sch
    pure (a, o, sch, w.mine)
  | .create => do
    match ← fiberCreate with
    | (a, .set f) => pure (a, .untouched, w.sch, f :: w.mine)
    | (a, _) => pure (a, .untouched, w.sch, w.mine)
  | .add mgmt n =>
    match w.mine[n]? with
    | none => pure (SUCCESS, .untouched, w.sch, w.mine)
    | some f => do
      let (a, sch) ← fiberAdd mgmt w.sch f
      pure (a, .untouched, sch, if a = SUCCESS then w.mine.eraseIdx n else w.mine)
  | .remove n => do
    let (a, f, sch) ← fiberRemove w.sch n
    match f with
    | some f => pure (a, .untouched, sch, f :: w.mine)
    | none => pure (a, .untouched, sch, w.mine)
  | .release n =>
    match w.mine[n]? with
    | none => pure (SUCCESS, .untouched, w.sch, w.mine)
    | some f => do
      let a ← fiberRelease f
      pure (a, .untouched, w.sch, w.mine.eraseIdx n)
  | .setIdle n =>
    match w.mine[n]?, w.sch.idle with
    | some f, none => pure (SUCCESS, .untouched, { w.sch with idle := some f }, w.mine.eraseIdx n)
    | _, _ => pure (SUCCESS, .untouched, w.sch, w.mine)
  | .setIdleAdded n =>
    match w.sch.fibers[n]?, w.sch.idle with
    | some x, none => pure (SUCCESS, .untouched, { w.sch with idle := some x.2 }, w.mine)
    | _, _ => pure (SUCCESS, .untouched, w.sch, w.mine)
  | .idleExit => pure (SUCCESS, .untouched, { w.sch with idle := none }, w.mine)

/-- One call of a program, with what it answers. Not in the code: a client. -/
def Prog.step (e : Env) (w : Prog) (o : Do) : Option (Status × Out Disc × Prog) :=
  match w.act o e w.st with
  | none => none
  | some ((a, d, sch, mine), s) => some (a, d, ⟨sch, mine, s⟩)

/-- Not in the code: a client that makes these calls. -/
def Prog.run (e : Env) : Prog → List Do → Option Prog
  | w, [] => some w
  | w, o :: os =>
    match w.step e o with
    | none => none
    | some (_, _, w) => w.run e os

/-- The end of the program: its own fibers, then the scheduler.
(fiber_resource_release.c, fiber_scheduler_resource_release.c) -/
def Prog.finish (w : Prog) : M Status := do
  let a ← releaseNodes (w.mine.map fiberRelease)
  let b ← schRelease w.sch
  pure (first a b)

/-- A scheduler with its two vectors (fiber_scheduler_create_with_disciplines.c:199-219), without disciplines
and fibers, and a program without fibers. -/
def Prog.start : Prog :=
  ⟨⟨[], [], some 0, some 1, none⟩, [], ⟨fun i => if i < 2 then some .mem else none, 2, 0, 0⟩⟩

end Rcpr.Life
