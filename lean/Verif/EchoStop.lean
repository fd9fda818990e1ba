import Verif.IoFiber

/-!
The echo server example as a whole (`examples/echo_server/src/main.c`): the main fiber, the management fiber, the
listen fiber, the fibers of connections and the idle fiber in one scheduler, from the start to the end of the loop
in `main`; which fiber runs when, with what it is resumed, and what it closes and releases.

Fibers are numbers, `0` is NULL. One move is what one fiber does between two yields. Simplifications. Allocations
succeed (what is given back when they do not is in `Verif.EchoLife`, C86), and so does every read from the signal
thread; a dispatch that fails closes its descriptor and is left out, as it changes nothing here. The bytes of the
connections are left out (`Verif.Echo`). A pass of the idle fiber wakes some of the fibers that wait for a socket,
each of which waits for one side of a socket of its own (`Verif.IoFiber`, C78 and C82, say when). The fibers of
connections have addresses that were not used before. The tree of fibers is a sorted list (`Verif.FibTree`). The
callbacks of the scheduler are those of `Verif.Fiber`, repeated for the events used.
-/
namespace Rcpr.EchoStop

open Io (Did Ev)
open Fiber (FState RESUME_IDLE RESUME_RUN RESUME_ADD_FIBER MGMT_FIBER_ADD MGMT_FIBER_STOP MGMT_QUIESCE_REQUEST
  MGMT_TERMINATION_REQUEST MGMT_REQUEST_RESULT insertFib)

/-- The addresses of the fibers that are there from the start (examples/echo_server/src/main.c:109-154,
psock_create_wrap_async.c); every other fiber is one of a connection. -/
structure Ids where
  main : Nat
  mgr : Nat
  listen : Nat
  idle : Nat
  deriving DecidableEq

/-- Not in the code: the fibers are different and not NULL. -/
structure Ids.Ok (S : Ids) : Prop where
  zero : S.main ≠ 0 ∧ S.mgr ≠ 0 ∧ S.listen ≠ 0 ∧ S.idle ≠ 0
  main : S.main ≠ S.mgr ∧ S.main ≠ S.listen ∧ S.main ≠ S.idle
  mgr : S.mgr ≠ S.listen ∧ S.mgr ≠ S.idle
  listen : S.listen ≠ S.idle

/-- The yield a fiber made last. Not in the code: where its stack pointer is. `new`: none; `rd`: in `psock_read_block`
(from `psock_accept`, `psock_read_raw` or `psock_read_boxed_int64`); `wr`: in `psock_write_block`; `recv`: in
`disciplined_fiber_scheduler_receive_management_event`; `add`: in `fiber_scheduler_add`; `ask`: in
`disciplined_fiber_scheduler_send_quiesce_request_to_all` or `.._terminate_..`; `idle`: in
`disciplined_fiber_scheduler_idle_fiber_yield`; `stop`: at the end of `fiber_entry`. -/
inductive Pc
  | new | rd | wr | recv | add | ask | idle | stop
  deriving DecidableEq

/-- How the loop in `main` ends (examples/echo_server/src/main.c:190-239): not yet, with success, or by
`goto terminate_process`. -/
inductive Fate
  | runs | ended | failed
  deriving DecidableEq

/-- The scheduler (fiber_internal.h:47-84) and the fields of the fibers; `quiesce` of the listen context
(examples/echo_server/src/main.c:62); `got`, how many values `main` has read from the signal thread. Not in the code:
`pc`; `free`, the fibers that were released; `sock`, the fibers whose psock is open; `fate`; `bad`, that something
was used after it was released, or a fiber was resumed after its end. -/
structure Srv where
  runq : List Nat
  ev : Nat → Ev
  st : Nat → FState
  pc : Nat → Pc
  cur : Nat
  mgmt : Nat
  tree : List Nat
  free : Nat → Bool
  sock : Nat → Bool
  quiesce : Bool
  got : Nat
  fate : Fate
  bad : Bool

/-- Assignment to a field of one fiber (src/fiber/common/fiber_internal.h:29-46). -/
def upd {α : Type} (h : Nat → α) (f : Nat) (a : α) : Nat → α := fun g => if g = f then a else h g

/-- disciplined_fiber_scheduler_add_fiber_to_run_queue.c:44-67. It writes to the fiber. -/
def back (s : Srv) (f : Nat) (e : Ev) : Srv :=
  { s with runq := s.runq ++ [f], ev := upd s.ev f e, bad := s.bad || s.free f }

/-- disciplined_fiber_scheduler_set_next_fiber_to_run.c:45-68. It writes to the fiber. -/
def front (s : Srv) (f : Nat) (e : Ev) : Srv :=
  { s with runq := f :: s.runq, ev := upd s.ev f e, bad := s.bad || s.free f }

/-! ### Callbacks (src/fiber/common/fiber_scheduler_create_with_disciplines.c) -/

/-- What add and stop do for the management fiber, if it waits (874-894, 930-945). -/
def report (s : Srv) (e : Ev) : Srv :=
  if s.mgmt ≠ 0 then { front s s.mgmt e with mgmt := 0 } else s

/-- add (818-895) -/
def addH (s : Srv) (y f : Nat) : Srv :=
  report (front (back { s with tree := insertFib f s.tree } f ⟨.internal, RESUME_ADD_FIBER, 0⟩) y ⟨.internal, RESUME_ADD_FIBER, 0⟩)
    ⟨.mgmt, MGMT_FIBER_ADD, f⟩

/-- stop (911-952), after fiber_entry.c:36 -/
def stopH (s : Srv) (y : Nat) : Srv := report { s with st := upd s.st y .stopped } ⟨.mgmt, MGMT_FIBER_STOP, y⟩

/-- receive event (1003-1023) -/
def recvH (s : Srv) (y : Nat) : Srv := { s with mgmt := y }

/-- the loop of quiesce all and terminate all (1196-1219, 1258-1282) -/
def requestLoop (code y : Nat) : List Nat → Srv → Srv
  | [], s => s
  | f :: fs, s =>
    if y ≠ f ∧ s.mgmt ≠ f ∧ s.st f = .running then requestLoop code y fs (back s f ⟨.mgmt, code, 0⟩)
    else requestLoop code y fs s

/-- quiesce all and terminate all (1181-1227, 1243-1290) -/
def requestAllH (code : Nat) (s : Srv) (y : Nat) : Srv :=
  back (requestLoop code y s.tree s) y ⟨.mgmt, MGMT_REQUEST_RESULT, SUCCESS.toNat⟩

/-- The fibers found by a pass of the idle fiber go to the run queue
(src/psock/platform/epoll/psock_idle_fiber_entry.c:64-149). -/
def wake : List Nat → Srv → Srv
  | [], s => s
  | f :: fs, s => wake fs (back s f ⟨.psock, 0, 0⟩)

/-- The switch to a fiber: fiber_scheduler_yield.c:80-93, fiber_entry.c:30. It reads the stack pointer of the fiber;
a fiber that has stopped would return from `fiber_entry`. -/
def enter (s : Srv) (f : Nat) (e : Ev) : Srv :=
  { s with cur := f, ev := upd s.ev f e, st := if s.pc f = .new then upd s.st f .running else s.st,
           bad := s.bad || s.free f || s.pc f == .stop }

/-- The next fiber of the run queue runs, or the idle fiber (fiber_scheduler_create_with_disciplines.c:675-719). -/
def pop (S : Ids) (s : Srv) : Srv :=
  match s.runq with
  | f :: q => enter { s with runq := q } f (s.ev f)
  | [] => enter s S.idle ⟨.internal, RESUME_IDLE, 0⟩

/-- The running fiber is now inside this yield. Not in the code, see `Pc`. -/
def at_ (s : Srv) (p : Pc) : Srv := { s with pc := upd s.pc s.cur p }

/-- A psock is opened for the fiber (examples/echo_server/src/main.c:1032-1048 and 305-345). -/
def openSock (s : Srv) (f : Nat) : Srv := { s with sock := upd s.sock f true }

/-- The psock of a fiber is released (examples/echo_server/src/main.c:1096-1101 and 469). -/
def closeSock (s : Srv) (f : Nat) : Srv := { s with sock := upd s.sock f false, bad := s.bad || !s.sock f }

/-- What the environment decides for one move. Not in the code: the kernel and the peers. `poll`: the fibers that wait for
what `epoll_wait` reports; `value`: the next value of the signal thread is there; `dry`: a call would block on reading;
`full`: on writing; `conn f`: a connection is accepted, its fiber gets address `f`; `fail`: a call fails, or the peer has
closed; `go`: there is nothing to decide. -/
inductive Choice
  | poll (fs : List Nat) | value | dry | full | conn (f : Nat) | fail | go
  deriving DecidableEq

/-- The end of the entry function of a fiber (fiber_entry.c:26-46). -/
def finish (S : Ids) (s : Srv) : Srv := pop S (at_ (stopH s s.cur) .stop)

/-- `fiber_manager_entry` (examples/echo_server/src/main.c:552-632): from the event received (if it is resumed) to the next
`disciplined_fiber_scheduler_receive_management_event`. After the event of a stop the fiber is removed
(disciplined_fiber_scheduler_remove_fiber.c:43-60) and released. -/
def mgrMove (S : Ids) (s : Srv) : Srv :=
  let e := s.ev s.cur
  let s :=
    if s.pc s.cur = .recv ∧ e.disc = .mgmt ∧ e.code = MGMT_FIBER_STOP then
      if e.param ∈ s.tree then
        { s with tree := s.tree.erase e.param, free := upd s.free e.param true, bad := s.bad || s.free e.param }
      else s
    else s
  pop S (at_ (recvH s s.cur) .recv)

/-- The loop of `listen_entry` (examples/echo_server/src/main.c:1056-1092) from a call of `psock_accept`: a connection is
taken and dispatched (`fiber_scheduler_add` yields; when the server quiesces the descriptor is closed instead, and the loop
goes on), or there is none, or the call fails and the fiber ends (1094-1116). -/
def acceptMove (S : Ids) (s : Srv) (c : Choice) : Option Srv :=
  match c with
  | .conn f =>
    if s.quiesce = false ∧ f ≠ 0 ∧ f ≠ S.main ∧ f ≠ S.mgr ∧ f ≠ S.listen ∧ f ≠ S.idle ∧ f ∉ s.tree ∧ s.free f = false then
      some (pop S (at_ (addH (openSock s f) s.cur f) .add))
    else none
  | .dry => some (pop S (at_ s .rd))
  | .fail => some (finish S (closeSock s s.cur))
  | _ => none

/-- `listen_entry` (examples/echo_server/src/main.c:1018-1117). First the listening psock is created; if this fails the
fiber ends. A request while it waits for a connection (psock_wrap_async_accept.c, psock_read_block.c:108-138) is given to
`listen_fiber_unexpected_handler` (examples/echo_server/src/main.c:772-797). -/
def listenMove (S : Ids) (s : Srv) (c : Choice) : Option Srv :=
  let e := s.ev s.cur
  match s.pc s.cur with
  | .new =>
    match c with
    | .fail => some (finish S s)
    | c => acceptMove S (openSock s s.cur) c
  | .rd =>
    if e.disc = .psock then acceptMove S s c
    else if e.disc = .mgmt ∧ e.code = MGMT_QUIESCE_REQUEST then some (pop S (at_ { s with quiesce := true } .rd))
    else some (finish S (closeSock s s.cur))
  | _ => acceptMove S s c

/-- `echo_entry` (examples/echo_server/src/main.c:1131-1176): it reads and writes until a call would block, or fails; then
the dispatch context is released with its psock and the fiber ends. A request while it waits makes the wait fail, as it has no
handler (fiber_unexpected_event.c:50-53, psock_read_block.c:108-133, psock_write_block.c). -/
def echoMove (S : Ids) (s : Srv) (c : Choice) : Option Srv :=
  if (s.pc s.cur = .rd ∨ s.pc s.cur = .wr) ∧ (s.ev s.cur).disc ≠ .psock then some (finish S (closeSock s s.cur))
  else
    match c with
    | .dry => some (pop S (at_ s .rd))
    | .full => some (pop S (at_ s .wr))
    | .fail => some (finish S (closeSock s s.cur))
    | _ => none

/-- The loop in `main` (examples/echo_server/src/main.c:190-239). The signal thread writes the two values in this order
(981-995). The request returns what disciplined_fiber_scheduler_send_quiesce_request_to_all.c:60-77 makes of the event; the main
fiber has no handler. -/
def mainMove (S : Ids) (s : Srv) (c : Choice) : Option Srv :=
  let e := s.ev s.cur
  if s.pc s.cur = .ask ∧ ¬ (e.disc = .mgmt ∧ e.code = MGMT_REQUEST_RESULT ∧ e.param = SUCCESS.toNat) then some { s with fate := .failed }
  else if s.pc s.cur = .rd ∧ e.disc ≠ .psock then some { s with fate := .failed }
  else if s.pc s.cur = .ask ∧ s.got = 2 then some { s with fate := .ended }
  else
    match c with
    | .value =>
      if s.got = 0 then some (pop S (at_ (requestAllH MGMT_QUIESCE_REQUEST { s with got := 1 } s.cur) .ask))
      else some (pop S (at_ (requestAllH MGMT_TERMINATION_REQUEST { s with got := 2 } s.cur) .ask))
    | .dry => some (pop S (at_ s .rd))
    | _ => none

/-- Not in the code: `epoll_wait` returns when there is something, and names no socket twice. -/
def Waiting (s : Srv) (f : Nat) : Prop := f ≠ s.cur ∧ (s.pc f = .rd ∨ s.pc f = .wr)

instance (s : Srv) (f : Nat) : Decidable (Waiting s f) := inferInstanceAs (Decidable (_ ∧ _))

/-- A round of the idle fiber (src/psock/platform/epoll/psock_idle_fiber_entry.c:43-185). The scheduler does not queue it
(fiber_scheduler_create_with_disciplines.c:735-762). -/
def idleMove (S : Ids) (s : Srv) (c : Choice) : Option Srv :=
  match c with
  | .poll fs => if fs ≠ [] ∧ fs.Nodup ∧ (∀ f ∈ fs, Waiting s f) then some (pop S (at_ (wake fs s) .idle)) else none
  | _ => none

/-- What the running fiber does up to its next yield; `none` if the environment cannot choose so, or the loop in `main` has
ended. (examples/echo_server/src/main.c) -/
def move (S : Ids) (s : Srv) (c : Choice) : Option Srv :=
  if s.bad = true ∨ s.fate ≠ .runs then none
  else if s.cur = S.idle then idleMove S s c
  else if s.cur = S.main then mainMove S s c
  else if s.cur = S.mgr then some (mgrMove S s)
  else if s.cur = S.listen then listenMove S s c
  else echoMove S s c

/-- The main fiber has made the scheduler (examples/echo_server/src/main.c:128). -/
def blank (S : Ids) : Srv :=
  { runq := [], ev := fun _ => ⟨.internal, Fiber.RESUME_MAIN, 0⟩, st := fun f => if f = S.main then .running else .created
    pc := fun _ => .new, cur := S.main, mgmt := 0, tree := [], free := fun _ => false, sock := fun _ => false
    quiesce := false, got := 0, fate := .runs, bad := false }

/-- `fiber_scheduler_add` by the main fiber while there is no management fiber that waits: it runs again at once
(fiber_scheduler_add.c:44-85). -/
def mainAdd (S : Ids) (s : Srv) (f : Nat) : Srv := pop S (addH s S.main f)

/-- The main fiber has added the management fiber and the listen fiber and is before its loop
(examples/echo_server/src/main.c:136-189). -/
def start (S : Ids) : Srv := mainAdd S (mainAdd S (blank S) S.mgr) S.listen

/-- The executions of the server in which every choice satisfies `P`. Not in the code: executions. -/
inductive Run (S : Ids) (P : Srv → Choice → Prop) : Srv → Prop
  | start : Run S P (start S)
  | move {s s' : Srv} (c : Choice) : Run S P s → P s c → move S s c = some s' → Run S P s'

end Rcpr.EchoStop
