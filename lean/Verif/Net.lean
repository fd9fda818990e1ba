import Verif.IoWait
import Verif.Bytes

/-!
Fibers in one scheduler that read from and write to connected async psocks: the loops of `psock_wrap_async_read` and
`psock_wrap_async_write` run on the scheduler of `Verif.IoFiber`, over a kernel with a bounded buffer for each socket.

A fiber is a program: from the results of the calls that returned so far it tells the next call. One move is one system
call, the return of one call, or one yield. Simplifications: all psocks come in connected pairs that stay open; reads are blocking
reads (`block` is true); allocations and `epoll_ctl` succeed; no requests are sent; the look-up of vtables succeeds. The main
fiber, when its program ends, waits for ever, as in `disciplined_fiber_scheduler_receive_management_event` with no events.
-/
namespace Rcpr.Net

open Rcpr Epoll Io

/-- What programs call: `psock_wrap_async_read` of `n` bytes (psock_wrap_async_read.c:38-116), `psock_wrap_async_write`
(psock_wrap_async_write.c:39-106), `fiber_scheduler_add` (src/fiber/common/fiber_scheduler_add.c), `fiber_scheduler_run`
(src/fiber/common/fiber_scheduler_run.c). -/
inductive Op
  | read (p n : Nat)
  | write (p : Nat) (d : List Byte)
  | spawn (f : Nat)
  | pause
  deriving DecidableEq

/-- What a fiber sees: bytes moved by the call it is in (`*size`, `read_size`, `dptr` in psock_wrap_async_read.c:109-112), and the return of
the call. -/
inductive Atom
  | byte (b : Byte)
  | done
  deriving DecidableEq

/-- The programs, and the kernel (neither is in the code): `peer p` is the other end of socket `p`, `cap p` how much its receive buffer holds; the other
end is reported writable while there are less than `low p` bytes in it.
(the psocks are those of src/psock/psock_create_wrap_async.c) -/
structure Setup where
  cfg : Cfg
  main : Nat
  idle : Nat
  prog : Nat → List (List Byte) → Option Op
  peer : Nat → Nat
  cap : Nat → Nat
  low : Nat → Nat

/-- The bytes moved by the calls that returned, and those moved by the present one (its local variables, see `Atom`).
(psock_wrap_async_read.c, psock_wrap_async_write.c) -/
def tally (l : List Atom) : List (List Byte) × List Byte :=
  l.foldl (fun t a => match a with | .byte b => (t.1, t.2 ++ [b]) | .done => (t.1 ++ [t.2], [])) ([], [])

/-- The bytes moved by the calls that returned (psock_wrap_async_read.c, psock_wrap_async_write.c). -/
def results (l : List Atom) : List (List Byte) := (tally l).1

/-- The bytes moved by the present call (`dptr`, psock_wrap_async_read.c:109-112 and the same in psock_wrap_async_write.c). -/
def part (l : List Atom) : List Byte := (tally l).2

/-- The scheduler, the receive buffers of the kernel, what each fiber has seen; `bad` if a call failed or a fiber was run past
its end. Not in the code: scheduler, kernel and programs together. -/
structure Net where
  sys : Io.Sys
  buf : Nat → List Byte
  log : Nat → List Atom
  bad : Bool

/-- The environment grants everything. Not in the code: the allocator and the kernel. -/
def plenty : Oracle := ⟨fun _ => SUCCESS, SUCCESS, fun _ => false, SUCCESS⟩

/-- The call failed, or the wait did, or a fiber that had ended was run.
Not in the code: a record for the specification. -/
def errs (i : Item) : Bool :=
  match i.next with
  | .fail _ => true
  | .start _ _ => false
  | .ret _ c _ => c == .stop
  | .blk _ _ _ _ _ (some st) => st != SUCCESS
  | .blk _ _ _ _ _ none => false

/-- One yield of the running fiber (`Io.step`). (fiber_scheduler_yield.c) -/
def yield (S : Setup) (s : Net) (c : Call) : Net :=
  let r := Io.step S.cfg s.sys c plenty
  { s with sys := r.1, bad := s.bad || errs r.2 }

/-- The running fiber saw something. Not in the code: a record for the specification. -/
def note (s : Net) (l : List Atom) : Net := { s with log := fun f => if f = s.sys.cur then s.log f ++ l else s.log f }

/-- Not in the code: the receive buffer of a socket, in the kernel. -/
def setBuf (s : Net) (p : Nat) (d : List Byte) : Net := { s with buf := fun q => if q = p then d else s.buf q }

/-- What `epoll_wait` may return (level-triggered, one-shot): some different sockets, for each some events that it is armed for and
that hold now. It does not return while there are none.
Not in the code: the kernel's side of `epoll_wait` in src/psock/platform/epoll/psock_idle_fiber_entry.c. -/
def reportable (S : Setup) (s : Net) (evs : List (Nat × Mask)) : Bool :=
  !evs.isEmpty && decide (evs.map Prod.fst).Nodup && evs.all fun e =>
    e.2 != 0#32 && e.2 &&& ~~~(EPOLLIN ||| EPOLLOUT) == 0#32 &&
    (match s.sys.io.armed e.1 with
      | some m => e.2 &&& ~~~m == 0#32
      | none => false) &&
    (!has e.2 EPOLLIN || !(s.buf e.1).isEmpty) &&
    (!has e.2 EPOLLOUT || decide ((s.buf (S.peer e.1)).length < S.low (S.peer e.1)))

/-- One move; `k` is the number of bytes the kernel moves, `evs` what it reports; `none` if it cannot do so.
`psock_wrap_async_read` is psock_wrap_async_read.c:70-115 with `block` true, over `read` (psock_from_descriptor_read.c:32-68);
`psock_wrap_async_write` is psock_wrap_async_write.c:70-105 over `write` (psock_from_descriptor_write.c:32-67); the next round of
a wait is made first (psock_read_block.c:116-138). -/
def move (S : Setup) (s : Net) (k : Nat) (evs : List (Nat × Mask)) : Option Net :=
  match s.sys.todo with
  | some c => some (yield S s c)
  | none =>
    if s.sys.cur = s.sys.idle then
      if reportable S s evs then some (yield S s (.poll evs)) else none
    else
      let l := s.log s.sys.cur
      match S.prog s.sys.cur (results l) with
      | none => some (yield S s .stop)
      | some (.read p n) =>
        if (part l).length < n then
          if s.buf p = [] then some (yield S s (.block .rd p))
          else if 0 < k ∧ k ≤ n - (part l).length ∧ k ≤ (s.buf p).length then
            some (note (setBuf s p ((s.buf p).drop k)) (((s.buf p).take k).map .byte))
          else none
        else some (note s [.done])
      | some (.write p d) =>
        let q := S.peer p
        if (part l).length < d.length then
          if S.cap q ≤ (s.buf q).length then some (yield S s (.block .wr p))
          else if 0 < k ∧ k ≤ d.length - (part l).length ∧ k ≤ S.cap q - (s.buf q).length then
            some (note (setBuf s q (s.buf q ++ (d.drop (part l).length).take k)) (((d.drop (part l).length).take k).map .byte))
          else none
        else some (note s [.done])
      | some (.spawn g) => some (yield S (note s [.done]) (.add g))
      | some .pause => some (yield S (note s [.done]) .run)

/-- The main fiber runs, nothing was sent. (fiber_scheduler_create_with_disciplines.c) -/
def start (S : Setup) : Net := ⟨Io.init S.main S.idle, fun _ => [], fun _ => [], false⟩

/-- Executions of `n` moves. Not in the code: executions. -/
inductive Run (S : Setup) : Nat → Net → Prop
  | start : Run S 0 (start S)
  | move {n s s'} (k : Nat) (evs : List (Nat × Mask)) : Run S n s → move S s k evs = some s' → Run S (n + 1) s'

/-- Nothing can happen any more. Not in the code: executions. -/
def Stuck (S : Setup) (s : Net) : Prop := ∀ k evs, move S s k evs = none

end Rcpr.Net
