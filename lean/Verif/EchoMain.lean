import Verif.EchoLife

/-!
What the echo server example owns for itself (`examples/echo_server/src/main.c`): the ledger of `Verif.Life`
for its two fibers, its signal thread and `main`, from the point where the scheduler has been created.

Simplifications: allocator and scheduler are there (125-139), and so are their structures; `printf`, signal
masks and `kill` are left out. A fiber that is added runs after its creator waits: `fiber_scheduler_add` puts
the caller before the new fiber (src/fiber/common/fiber_scheduler_create_with_disciplines.c:861-874).
-/
namespace Rcpr.EchoLife

open Rcpr Rcpr.Life

/-- `psock_create_wrap_async` (src/psock/psock_create_wrap_async.c:110-224) -/
def wrapAsync (sch : Sch) (child : Two) : M (Status × Out Wrap × Sch) := do
  use child.p
  let (a, _, sch) ← ioGetOrCreate sch
  if a ≠ SUCCESS then pure (a, .untouched, sch)
  else
    let (a, o) ← wrapCreate child
    pure (a, o, sch)

/-- `management_fiber_add` (examples/echo_server/src/main.c:499-540). There is no management fiber yet. -/
def managerAdd (sch : Sch) : M (Status × Sch) := do
  match ← fiberCreate with
  | (_, .set f) =>
    let (a, sch) ← fiberAdd false sch f
    if a ≠ SUCCESS then
      let r ← fiberRelease f
      pure (over a r, sch)
    else pure (SUCCESS, sch)
  | (a, _) => pure (a, sch)

/-- `listen_context_release` (examples/echo_server/src/main.c:753-773) -/
def listenContextRelease (p : Nat) : M Status := do
  use p
  put .mem p

/-- `listen_fiber_add` (examples/echo_server/src/main.c:653-742), with the context, which belongs to the fiber
on success. The management fiber has not run yet, so it is not told. `fiber_unexpected_event_callback_add`
cannot fail (src/fiber/common/fiber_unexpected_event_callback_add.c:37-50). -/
def listenAdd (sch : Sch) : M (Status × Option Nat × Sch) := do
  match ← get .mem with
  | .error a => pure (a, none, sch)
  | .ok p =>
    match ← fiberCreate with
    | (_, .set f) =>
      use p
      use f.p
      let (a, sch) ← fiberAdd false sch f
      if a ≠ SUCCESS then
        let r ← fiberRelease f
        let r' ← listenContextRelease p
        pure (over (over a r) r', none, sch)
      else pure (SUCCESS, some p, sch)
    | (a, _) =>
      let r ← listenContextRelease p
      pure (over a r, none, sch)

/-- `listen_entry` up to its loop (examples/echo_server/src/main.c:1017-1055), and from there to its end if it
does not get there (1101-1118) -/
def listenStart (sch : Sch) (p : Nat) : M (Status × Option Wrap × Sch) := do
  use p
  match ← listenCreate with
  | (_, .set d) =>
    use p
    match ← wrapAsync sch d with
    | (_, .set w, sch) => pure (SUCCESS, some w, sch)
    | (a, _, sch) =>
      let r ← descRelease d
      let r' ← listenContextRelease p
      pure (over (over a r) r', none, sch)
  | (a, _) =>
    let r ← listenContextRelease p
    pure (over a r, none, sch)

/-- `listen_entry` from the failing `psock_accept` on (examples/echo_server/src/main.c:1065-1069,
1094-1118) -/
def listenEnd (a : Status) (w : Wrap) (p : Nat) : M Status := do
  let r ← wrapRelease w
  let r' ← listenContextRelease p
  pure (over (over a r) r')

/-- `signal_thread_context` (examples/echo_server/src/main.c:78-84): the structure, its psock if it is not
NULL -/
structure SigCtx where
  p : Nat
  sock : Option Two
  deriving DecidableEq, Repr

/-- `socket_utility_socketpair` (src/socket_utilities/socket_utility_socketpair.c:34-55) -/
def socketPair : M (Except Status (Nat × Nat)) := fun e s =>
  if e.ask s.asks = SUCCESS then
    some (.ok (s.next, s.next + 1),
      { s with
        live := fun i => if i = s.next ∨ i = s.next + 1 then some .desc else s.live i
        next := s.next + 2
        asks := s.asks + 1 })
  else some (.error ERROR_SOCKET_UTILITIES_SOCKETPAIR_FAILURE, { s with asks := s.asks + 1 })

/-- `signal_thread_context_release` (examples/echo_server/src/main.c:922-954) -/
def sigRelease (h : SigCtx) : M Status := do
  use h.p
  let a ← match h.sock with
    | some d => descRelease d
    | none => pure SUCCESS
  let r ← put .mem h.p
  pure (first a r)

/-- What `signal_thread_create` sets up: the thread, the descriptor for its creator, the context of the
thread. -/
structure Sig where
  th : Thread
  right : Nat
  ctx : SigCtx
  deriving DecidableEq, Repr

/-- label `close_fds` of `signal_thread_create` (examples/echo_server/src/main.c:905-907); -1 is `none` -/
def closeFds (left right : Option Nat) : M Unit := do
  match left with
  | some l => let _ ← drop .desc l
  | none => pure ()
  match right with
  | some r => let _ ← drop .desc r
  | none => pure ()

/-- `signal_thread_create` (examples/echo_server/src/main.c:834-911) -/
def sigCreate : M (Status × Out Sig) := do
  match ← socketPair with
  | .error a => pure (a, .untouched)
  | .ok (left, right) =>
    match ← get .mem with
    | .error a =>
      closeFds (some left) (some right)
      pure (a, .untouched)
    | .ok p =>
      match ← descCreate left with
      | (_, .set d) =>
        use p
        match ← threadCreate with
        | (_, .set th) => pure (SUCCESS, .set ⟨th, right, ⟨p, some d⟩⟩)
        | (a, _) =>
          let r ← sigRelease ⟨p, some d⟩
          closeFds none (some right)
          pure (over a r, .untouched)
      | (a, _) =>
        let r ← sigRelease ⟨p, none⟩
        closeFds (some left) (some right)
        pure (over a r, .untouched)

/-- How the fibers run while `main` waits for the signal thread. `os`: connections come and go. Then `main`
ends: `fail a`: reading or sending a request failed (examples/echo_server/src/main.c:200-204, 212-218,
225-231); `stop a byes told`: the fibers were asked to terminate, so `psock_accept` fails with `a` in the
listen fiber, `told`: the management fiber learns of its end, and the connections `byes` end after it.
Not in the code. -/
inductive End
  | fail (a : Status) | stop (a : Status) (told : Bool) (byes : List Nat)
  deriving DecidableEq, Repr

/-- The management fiber removes and releases the n-th fiber (examples/echo_server/src/main.c:594-611). -/
def reap (n : Nat) (sch : Sch) : M Sch := do
  let (b, f, sch) ← fiberRemove sch n
  if b ≠ SUCCESS then pure sch
  else
    match f with
    | some f =>
      let _ ← fiberRelease f
      pure sch
    | none => pure sch

/-- What happens while `main` is in its loop (examples/echo_server/src/main.c:195-234): the listen fiber
starts, connections come and go, and the loop ends. Answers the status `main` has then. -/
def serve (os : List Ev) (how : End) (sch : Sch) (p : Nat) : M (Status × Option Wrap × Server) := do
  match ← listenStart sch p with
  | (_, some lw, sch) =>
    let w ← Server.run ⟨sch, []⟩ os
    match how with
    | .fail a => pure (a, some lw, w)
    | .stop a told byes =>
      let _ ← listenEnd a lw p
      let sch ← if told then reap w.clients.length w.sch else pure w.sch
      let w ← Server.run { w with sch := sch } (byes.map Ev.bye)
      pure (SUCCESS, none, w)
  | (_, none, sch) =>
    let sch ← reap 0 sch
    pure (match how with | .fail a => a | .stop .. => SUCCESS, none, ⟨sch, []⟩)

/-- label `cleanup_scheduler` of `main` (examples/echo_server/src/main.c:262-267) -/
def cleanupSched (a : Status) (sch : Sch) : M Status := do
  let r ← schRelease sch
  pure (over a r)

/-- label `join_signal_thread` of `main` (examples/echo_server/src/main.c:254-260) and what follows it;
`exit` is what the thread answers -/
def joinSignal (exit : Status) (a : Status) (th : Thread) (sch : Sch) : M Status := do
  let r ← threadRelease exit th
  cleanupSched (over a r) sch

/-- Where `main` ended, with what it had then: a record for the specification. Not in the code.
`clean`: the step that was refused left the scheduler's tree as it was; `lw` is the listening psock if the
listen fiber has not ended. -/
inductive Stage
  | manager (clean : Bool) | listen (clean : Bool) | signal (p : Nat) | psock (p : Nat) (sg : Sig)
  | wrap (p : Nat) (sg : Sig) (clean : Bool)
  | served (p : Nat) (sg : Sig) (sock : Wrap) (lw : Option Wrap) (clients : List Client)
  deriving DecidableEq, Repr

/-- `main` (examples/echo_server/src/main.c:113-267) with a scheduler. The main fiber cannot be refused
(src/fiber/common/disciplined_fiber_scheduler_main_fiber_get.c:40-58). -/
def main (os : List Ev) (how : End) (exit : Status) (sch : Sch) : M (Status × Stage) := do
  let (a, sch1) ← managerAdd sch
  if a ≠ SUCCESS then
    let st ← cleanupSched a sch1
    pure (st, .manager (decide (sch1 = sch)))
  else
    match ← listenAdd sch1 with
    | (_, some p, sch2) =>
      match ← sigCreate with
      | (_, .set sg) =>
        match ← descCreate sg.right with
        | (_, .set d) =>
          match ← wrapAsync sch2 d with
          | (_, .set w, sch) =>
            let (a, lw, srv) ← serve os how sch p
            let st ← joinSignal exit a sg.th srv.sch
            pure (st, .served p sg w lw srv.clients)
          | (a, _, sch) =>
            let r ← descRelease d
            let st ← joinSignal exit (over a r) sg.th sch
            pure (st, .wrap p sg (decide (sch.discs = sch2.discs)))
        | (a, _) =>
          let st ← joinSignal exit a sg.th sch2
          pure (st, .psock p sg)
      | (a, _) =>
        let st ← cleanupSched a sch2
        pure (st, .signal p)
    | (a, none, sch2) =>
      let st ← cleanupSched a sch2
      pure (st, .listen (decide (sch2 = sch1)))

end Rcpr.EchoLife
