import Verif.LifeSched

/-!
What the echo server example owns for its connections (`examples/echo_server/src/main.c`): the ledger of
`Verif.Life` for `dispatch`, the dispatch context, the part of `listen_entry` after `psock_accept`, the end of
`echo_entry`, and the part of `fiber_manager_entry` that cleans up after a fiber that has stopped.

Simplifications: the socket discipline is there, as the listening psock was wrapped before
(main.c:1043-1045); what `echo_entry` does in between is in `Verif.Echo`; output with `printf` is left out.
-/
namespace Rcpr.EchoLife

open Rcpr Rcpr.Life

/-- What an async psock over a psock for a descriptor holds: the structure, the wrapped psock
(src/psock/psock_internal.h:76-85). -/
structure Wrap where
  p : Nat
  child : Two
  deriving DecidableEq, Repr

/-- `psock_create_wrap_async` (src/psock/psock_create_wrap_async.c:158-224), with the socket discipline
there -/
def wrapCreate (child : Two) : M (Status × Out Wrap) := do
  match ← get .mem with
  | .error a => pure (a, .untouched)
  | .ok p =>
    use child.p
    let n ← ask
    if n ≠ SUCCESS then
      let r ← put .mem p
      pure (over n r, .untouched)
    else pure (SUCCESS, .set ⟨p, child⟩)

/-- `psock_wrap_async_release` (psock_create_wrap_async.c:235-263) -/
def wrapRelease (h : Wrap) : M Status := do
  use h.p
  let a ← descRelease h.child
  use h.p
  let r ← put .mem h.p
  pure (first a r)

/-- `dispatch_context` (examples/echo_server/src/main.c:41-48): the structure, its psock if it is not
NULL -/
structure Client where
  p : Nat
  sock : Option Wrap
  deriving DecidableEq, Repr

/-- `dispatch_context_create` (examples/echo_server/src/main.c:411-449) with NULL as psock, as `dispatch`
calls it (313) -/
def clientCreate : M (Status × Out Client) := do
  match ← get .mem with
  | .error a => pure (a, .untouched)
  | .ok p => pure (SUCCESS, .set ⟨p, none⟩)

/-- What cannot be carried out: reading through NULL. Not in the code. -/
def fault {α : Type} : M α := fun _ _ => none

/-- `dispatch_context_release` (examples/echo_server/src/main.c:460-487). The psock is released whether it is
NULL or not (469); `resource_release` of NULL reads through it. -/
def clientRelease (h : Client) : M Status := do
  use h.p
  let a ← match h.sock with
    | some w => wrapRelease w
    | none => fault
  let r ← put .mem h.p
  pure (first a r)

/-- label `cleanup_sock` of `dispatch` (examples/echo_server/src/main.c:379-387) -/
def cleanupSock (st : Status) (sock : Option Two) : M Status :=
  match sock with
  | some h => do
    let r ← descRelease h
    pure (over st r)
  | none => pure st

/-- label `cleanup_dispatch_context` of `dispatch` (examples/echo_server/src/main.c:372-377) and what follows
it -/
def cleanupClient (st : Status) (c : Client) (sock : Option Two) : M Status := do
  let r ← clientRelease c
  cleanupSock (over st r) sock

/-- label `cleanup_dispatch_fiber` of `dispatch` (examples/echo_server/src/main.c:355-363) and what follows
it -/
def cleanupFiber (st : Status) (f : Fiber) (c : Client) (sock : Option Two) : M Status := do
  let r ← fiberRelease f
  cleanupClient (over st r) c sock

/-- `dispatch` (examples/echo_server/src/main.c:290-391); the scheduler has a management fiber (143). On
success the context belongs to the new fiber. -/
def dispatch (fd : Nat) (sch : Sch) : M (Status × Sch × Option Client) := do
  match ← descCreate fd with
  | (_, .set sock) =>
    match ← clientCreate with
    | (_, .set c) =>
      match ← fiberCreate with
      | (_, .set f) =>
        match ← wrapCreate sock with
        | (_, .set w) =>
          use c.p
          let c := { c with sock := some w }
          let (a, sch) ← fiberAdd true sch f
          if a ≠ SUCCESS then
            let st ← cleanupFiber a f c none
            pure (st, sch, none)
          else pure (SUCCESS, sch, some c)
        | (a, _) =>
          let st ← cleanupFiber a f c (some sock)
          pure (st, sch, none)
      | (a, _) =>
        let st ← cleanupClient a c (some sock)
        pure (st, sch, none)
    | (a, _) =>
      let st ← cleanupSock a (some sock)
      pure (st, sch, none)
  | (a, _) => pure (a, sch, none)

/-- The server: the scheduler, and the contexts of the connections, in the order of their fibers.
Not in the code: the contexts are on the stacks of the fibers. -/
structure Server where
  sch : Sch
  clients : List Client
  deriving DecidableEq, Repr

/-- One pass of the loop of `listen_entry` (examples/echo_server/src/main.c:1058-1092), with its status.
`accept` hands out a descriptor. -/
def accept (quiesce : Bool) (w : Server) : M (Status × Server) := do
  match ← get .desc with
  | .error a => pure (a, w)
  | .ok fd =>
    if quiesce then
      let _ ← drop .desc fd
      pure (SUCCESS, w)
    else
      let (a, sch, c) ← dispatch fd w.sch
      if a ≠ SUCCESS then
        let _ ← drop .desc fd
        pure (a, { w with sch := sch })
      else
        match c with
        | some c => pure (a, { sch := sch, clients := c :: w.clients })
        | none => pure (a, { w with sch := sch })

/-- The n-th connection ends: the end of `echo_entry` (examples/echo_server/src/main.c:1168-1175), then
`fiber_manager_entry` removes the fiber and releases it (594-611). -/
def bye (n : Nat) (w : Server) : M (Status × Server) := do
  match w.clients[n]? with
  | none => pure (SUCCESS, w)
  | some c =>
    let a ← clientRelease c
    let (b, f, sch) ← fiberRemove w.sch n
    let w : Server := ⟨sch, w.clients.eraseIdx n⟩
    if b ≠ SUCCESS then pure (b, w)
    else
      match f with
      | some f =>
        let r ← fiberRelease f
        pure (first a r, w)
      | none => pure (a, w)

/-- What can happen to the server. Not in the code. -/
inductive Ev
  | accept (quiesce : Bool) | bye (n : Nat)
  deriving DecidableEq, Repr

/-- Not in the code: one event. -/
def Server.step (w : Server) : Ev → M (Status × Server)
  | .accept q => EchoLife.accept q w
  | .bye n => EchoLife.bye n w

/-- Not in the code: a history of the server. -/
def Server.run (w : Server) : List Ev → M Server
  | [] => pure w
  | o :: os => do
    let (_, w) ← w.step o
    w.run os

end Rcpr.EchoLife
