import Verif.Status

/-!
Model of accept, setsockopt and descriptor transfer over psocks: `psock_accept.c`, `psock_setsockopt.c`,
`psock_read_raw_descriptor.c`, `psock_write_raw_descriptor.c`, `psock_socket_type.c` and the methods of the
kinds of psocks they reach, in `src/psock`.

Simplifications: the look-up of a vtable succeeds; addresses, flags and the one byte of data in a message are
left out; message headers are reduced to the descriptors attached to the message.
-/
namespace Rcpr.Msg

open Rcpr

/-- A method: new state, status, and what was stored through its result pointer. `none`: undefined, or a loop
that has not ended.
(`psock_sendmsg_fn`, `psock_recvmsg_fn`, `psock_accept_fn`, `psock_setsockopt_fn`: include/rcpr/psock.h:161-292) -/
abbrev Op (σ α : Type) := σ → Option (σ × Status × Option α)

/-- The entries of `psock_vtable` used here (include/rcpr/psock.h:306-316); `none` is NULL. The argument of
`recvmsg` is the size of the control buffer in bytes, that of `sendmsg` the descriptor attached, that of
`setsockopt` the option. -/
structure Vt (σ : Type) where
  accept : Option (Op σ Nat)
  sendmsg : Option (Nat → Op σ Unit)
  recvmsg : Option (Nat → Op σ (List Nat))
  setsockopt : Option (Nat → Op σ Unit)

/-- `psock` (src/psock/psock_internal.h:35-45): vtable and socket type -/
structure Sock (σ : Type) where
  vt : Vt σ
  socktype : Nat

/-- include/rcpr/psock.h:341-343 -/
def STREAM : Nat := 1
/-- (include/rcpr/psock.h:342) -/
def DATAGRAM : Nat := 2
/-- (include/rcpr/psock.h:343) -/
def OTHER : Nat := 3

variable {σ : Type}

/-! ### API -/

/-- `psock_accept` (src/psock/psock_accept.c:59-91) -/
def psockAccept (s : Sock σ) : Op σ Nat := fun k =>
  match s.vt.accept with
  | none => some (k, ERROR_PSOCK_METHOD_UNDEFINED, none)
  | some f => f k

/-- `psock_setsockopt` (src/psock/psock_setsockopt.c:47-77) -/
def psockSetsockopt (s : Sock σ) (opt : Nat) : Op σ Unit := fun k =>
  match s.vt.setsockopt with
  | none => some (k, ERROR_PSOCK_METHOD_UNDEFINED, none)
  | some f => f opt k

/-- `psock_socket_type` (src/psock/psock_socket_type.c:25-30) -/
def psockSocketType (s : Sock σ) : Nat := s.socktype

/-- Size of `struct cmsghdr`, and `CMSG_SPACE(sizeof(int))`, on a 64-bit Linux.
As used in src/psock/psock_write_raw_descriptor.c. -/
def CMSGHDR : Nat := 16
/-- `CMSG_SPACE(sizeof(int))` on a 64-bit Linux, as used in src/psock/psock_write_raw_descriptor.c. -/
def CMSG_SPACE_INT : Nat := CMSGHDR + (4 + 7) / 8 * 8

/-- `psock_read_raw_descriptor` (src/psock/psock_read_raw_descriptor.c:48-118); the value stored is `*desc`. -/
def readRawDescriptor (s : Sock σ) : Op σ Int := fun k =>
  if s.socktype ≠ DATAGRAM then some (k, ERROR_PSOCK_UNSUPPORTED_TYPE, none)
  else
    match s.vt.recvmsg with
    | none => some (k, ERROR_PSOCK_UNSUPPORTED_TYPE, none)
    | some f =>
      match f CMSG_SPACE_INT k with
      | none => none
      | some (k, st, r) =>
        if st ≠ SUCCESS then some (k, st, some (-1))
        else
          match r with
          | some (d :: _) => some (k, SUCCESS, some d)
          | _ => some (k, ERROR_PSOCK_READ_GENERAL, some (-1))

/-- `psock_write_raw_descriptor` (src/psock/psock_write_raw_descriptor.c:48-107) -/
def writeRawDescriptor (s : Sock σ) (d : Nat) : Op σ Unit := fun k =>
  if s.socktype ≠ DATAGRAM then some (k, ERROR_PSOCK_UNSUPPORTED_TYPE, none)
  else
    match s.vt.sendmsg with
    | none => some (k, ERROR_PSOCK_UNSUPPORTED_TYPE, none)
    | some f => f d k

/-! ### Wrappers -/

/-- The loops of `psock_wrap_async_accept` (src/psock/psock_wrap_async_accept.c:76-104),
`psock_wrap_async_recvmsg` (src/psock/psock_wrap_async_recvmsg.c:70-90) and `psock_wrap_async_sendmsg`
(src/psock/psock_wrap_async_sendmsg.c:66-86). `wb` is the status for would-block, `wait` is
`psock_read_block` or `psock_write_block`. -/
def retry {α : Type} (wb : Status) (op : Op σ α) (wait : σ → Option (σ × Status)) : Nat → Op σ α
  | 0, _ => none
  | fuel + 1, k =>
    match op k with
    | none => none
    | some (k, st, r) =>
      if st = wb then
        match wait k with
        | none => none
        | some (k, st) => if st ≠ SUCCESS then some (k, st, none) else retry wb op wait fuel k
      else some (k, st, r)

/-- A method of the wrapped psock, or `ERROR_PSOCK_METHOD_UNDEFINED`.
As in src/psock/psock_br_psock_sendmsg.c:40-61. -/
def orUndefined {α : Type} (o : Option (Op σ α)) : Op σ α := fun k =>
  match o with
  | none => some (k, ERROR_PSOCK_METHOD_UNDEFINED, none)
  | some f => f k

/-- A psock made by `psock_create_wrap_async` (src/psock/psock_create_wrap_async.c:35-46, 167-196)
with psock_wrap_async_accept.c:41-105, psock_wrap_async_sendmsg.c:34-90, psock_wrap_async_recvmsg.c:35-91.
The constructor refuses a child that is not a descriptor psock (124-129); here any child is allowed.
`fuel` bounds the number of turns of each loop. -/
def async (rwait wwait : σ → Option (σ × Status)) (fuel : Nat) (c : Sock σ) : Sock σ where
  vt :=
    { accept := some fun k => match c.vt.accept with
        | none => some (k, ERROR_PSOCK_METHOD_UNDEFINED, none)
        | some f => retry ERROR_PSOCK_ACCEPT_WOULD_BLOCK f rwait fuel k
      sendmsg := some fun d k => match c.vt.sendmsg with
        | none => some (k, ERROR_PSOCK_METHOD_UNDEFINED, none)
        | some f => retry ERROR_PSOCK_WRITE_WOULD_BLOCK (f d) wwait fuel k
      recvmsg := some fun n k => match c.vt.recvmsg with
        | none => some (k, ERROR_PSOCK_METHOD_UNDEFINED, none)
        | some f => retry ERROR_PSOCK_READ_WOULD_BLOCK (f n) rwait fuel k
      setsockopt := none }
  socktype := c.socktype

/-- A psock made by `psock_br_create_from_psock` (src/psock/psock_br_create_from_psock.c:23-34, 88-112) with
`psock_br_psock_accept.c:31-63`, `psock_br_psock_sendmsg.c:28-60`, `psock_br_psock_recvmsg.c:29-61`. The
socket type remains 0 from the `memset`. -/
def br (c : Sock σ) : Sock σ where
  vt :=
    { accept := some (orUndefined c.vt.accept)
      sendmsg := some fun d => orUndefined (c.vt.sendmsg.map (· d))
      recvmsg := some fun n => orUndefined (c.vt.recvmsg.map (· n))
      setsockopt := none }
  socktype := 0

/-- A psock made by `psock_create_from_user_methods` from the user's vtable
(src/psock/psock_create_from_user_methods.c:38-49, 120-136, 252-322) -/
def user (u : Vt σ) : Sock σ where
  vt :=
    { accept := some (orUndefined u.accept)
      sendmsg := some fun d => orUndefined (u.sendmsg.map (· d))
      recvmsg := some fun n => orUndefined (u.recvmsg.map (· n))
      setsockopt := none }
  socktype := OTHER

/-- A psock made by `psock_create_from_buffer` (src/psock/psock_create_from_buffer.c:27-38, 117,
src/psock/psock_from_buffer_accept.c:33-45) -/
def buffer : Sock σ where
  vt :=
    { accept := some fun k => some (k, ERROR_PSOCK_UNSUPPORTED_TYPE, none)
      sendmsg := none
      recvmsg := none
      setsockopt := none }
  socktype := OTHER

/-! ### Descriptors -/

/-- What the kernel answers to a call: it does what was asked, `EAGAIN`, or another error.
Not in the code: the kernel. -/
inductive Ev
  | go | again | fail
  deriving DecidableEq, Repr

/-- The kernel as one process and one socket see it. An open file is a number.
`script` are the answers to the next calls; after it everything is done.
`waits` are the outcomes of the next waits: the status with which waiting ends, and the messages and
connections that arrive meanwhile; after it waits end at once.
`arrived` and `backlog` record all messages and connections that ever arrived, `inq` and `conns` those that
were not taken yet. `fds` is the table of descriptors of the process; its length is the limit on their number.
Not in the code: the kernel. -/
structure K where
  fds : List (Option Nat)
  inq : List (List Nat)
  arrived : List (List Nat)
  conns : List Nat
  backlog : List Nat
  out : List (List Nat)
  opts : List Nat
  script : List Ev
  waits : List (Status × List (List Nat) × List Nat)

/-- Messages and connections arrive. Not in the code: the kernel and other processes. -/
def K.arrive (k : K) (ms : List (List Nat)) (cs : List Nat) : K :=
  { k with inq := k.inq ++ ms, arrived := k.arrived ++ ms, conns := k.conns ++ cs, backlog := k.backlog ++ cs }

/-- `psock_read_block`, `psock_write_block` (what happens in the scheduler meanwhile is in `Verif.Fiber`)
(src/psock/psock_read_block.c, src/psock/psock_write_block.c) -/
def K.wait (k : K) : Option (K × Status) :=
  match k.waits with
  | [] => some (k, SUCCESS)
  | (st, ms, cs) :: ws => some ({ k with waits := ws }.arrive ms cs, st)

/-- The answer to the next call. Not in the code: the kernel. -/
def K.next (k : K) : Ev × K :=
  match k.script with
  | [] => (.go, k)
  | e :: es => (e, { k with script := es })

/-- The descriptor the kernel gives next: the lowest that is not in use; none when the limit is reached.
Not in the code: the kernel. -/
def slot (t : List (Option Nat)) : Option Nat := t.findIdx? (·.isNone)

/-- The kernel gives descriptors for open files, one after the other, until the limit is reached (Linux,
net/core/scm.c: `scm_detach_fds` stops at the first failure). -/
def install : List (Option Nat) → List Nat → List (Option Nat) × List Nat
  | t, [] => (t, [])
  | t, f :: fs =>
    match slot t with
    | none => (t, [])
    | some d =>
      let (t, ds) := install (t.set d (some f)) fs
      (t, d :: ds)

/-- `psock_from_descriptor_accept` (src/psock/psock_from_descriptor_accept.c:34-66), descriptor non-blocking -/
def fdAccept : Op K Nat := fun k =>
  match k.next with
  | (.again, k) => some (k, ERROR_PSOCK_ACCEPT_WOULD_BLOCK, none)
  | (.fail, k) => some (k, ERROR_PSOCK_ACCEPT_GENERAL, none)
  | (.go, k) =>
    match k.conns with
    | [] => some (k, ERROR_PSOCK_ACCEPT_WOULD_BLOCK, none)
    | f :: cs =>
      match slot k.fds with
      | none => some (k, ERROR_PSOCK_ACCEPT_GENERAL, none)
      | some d => some ({ k with conns := cs, fds := k.fds.set d (some f) }, SUCCESS, some d)

/-- `psock_from_descriptor_recvmsg` (src/psock/psock_from_descriptor_recvmsg.c:32-64), descriptor
non-blocking. The kernel gives as many of the attached descriptors as have room in the control buffer
(Linux, net/core/scm.c: `scm_detach_fds`, `scm_max_fds`) and drops the others. -/
def fdRecvmsg (size : Nat) : Op K (List Nat) := fun k =>
  match k.next with
  | (.again, k) => some (k, ERROR_PSOCK_READ_WOULD_BLOCK, none)
  | (.fail, k) => some (k, ERROR_PSOCK_RECVMSG_FAILED, none)
  | (.go, k) =>
    match k.inq with
    | [] => some (k, ERROR_PSOCK_READ_WOULD_BLOCK, none)
    | m :: ms =>
      let (t, ds) := install k.fds (m.take ((size - CMSGHDR) / 4))
      some ({ k with inq := ms, fds := t }, SUCCESS, some ds)

/-- `psock_from_descriptor_sendmsg` (src/psock/psock_from_descriptor_sendmsg.c:31-57) with one descriptor
attached, descriptor non-blocking -/
def fdSendmsg (d : Nat) : Op K Unit := fun k =>
  match k.next with
  | (.again, k) => some (k, ERROR_PSOCK_WRITE_WOULD_BLOCK, none)
  | (.fail, k) => some (k, ERROR_PSOCK_SENDMSG_FAILED, none)
  | (.go, k) =>
    match k.fds[d]? with
    | none | some none => some (k, ERROR_PSOCK_SENDMSG_FAILED, none)
    | some (some f) => some ({ k with out := k.out ++ [[f]] }, SUCCESS, some ())

/-- `psock_from_descriptor_setsockopt` (src/psock/psock_from_descriptor_setsockopt.c:34-57) -/
def fdSetsockopt (opt : Nat) : Op K Unit := fun k =>
  match k.next with
  | (.go, k) => some ({ k with opts := k.opts ++ [opt] }, SUCCESS, some ())
  | (_, k) => some (k, ERROR_PSOCK_SETSOCKOPT, none)

/-- `SOCK_STREAM` and `SOCK_DGRAM` on Linux, as used in src/psock/psock_create_from_descriptor.c:147 and 151. -/
def SOCK_STREAM : Nat := 1
/-- As used in src/psock/psock_create_from_descriptor.c:151. -/
def SOCK_DGRAM : Nat := 2

/-- `psock_get_socket_type_from_descriptor` (src/psock/psock_create_from_descriptor.c:138-159); `ans` is what `getsockopt` says
about `SO_TYPE`, `none` if it fails. -/
def socketType (ans : Option Nat) : Nat :=
  match ans with
  | none => OTHER
  | some ty => if ty = SOCK_STREAM then STREAM else if ty = SOCK_DGRAM then DATAGRAM else OTHER

/-- A psock made by `psock_create_from_descriptor` (src/psock/psock_create_from_descriptor.c:27-38, 106-122);
`ty` is what `socketType` makes of the answer of `getsockopt`. -/
def descriptor (ty : Nat) : Sock K where
  vt := ⟨some fdAccept, some fdSendmsg, some fdRecvmsg, some fdSetsockopt⟩
  socktype := ty

/-- A descriptor made asynchronous. (src/psock/psock_create_wrap_async.c) -/
def asyncDescriptor (fuel ty : Nat) : Sock K := async K.wait K.wait fuel (descriptor ty)

/-! ### Histories -/

/-- What a program does with a psock, or what happens to its process: `close` is `close(2)`, `arrive` is the
arrival of messages and connections between calls. (include/rcpr/psock.h) -/
inductive Cmd
  | read | write (d : Nat) | accept | opt (o : Nat) | close (d : Nat)
  | arrive (ms : List (List Nat)) (cs : List Nat)
  deriving DecidableEq, Repr

/-- Status and value stored. Not in the code: what a client sees. -/
abbrev Out := Status × Option Int

/-- One command. (include/rcpr/psock.h) -/
def exec (s : Sock K) (c : Cmd) (k : K) : Option (K × Out) :=
  match c with
  | .read => readRawDescriptor s k
  | .write d => (writeRawDescriptor s d k).map fun (k, st, _) => (k, st, none)
  | .accept => (psockAccept s k).map fun (k, st, r) => (k, st, r.map Int.ofNat)
  | .opt o => (psockSetsockopt s o k).map fun (k, st, _) => (k, st, none)
  | .close d => some ({ k with fds := k.fds.set d none }, SUCCESS, none)
  | .arrive ms cs => some (k.arrive ms cs, SUCCESS, none)

/-- A history. Not in the code: a client of include/rcpr/psock.h. -/
def run (s : Sock K) : List Cmd → K → Option (K × List (Cmd × Out))
  | [], k => some (k, [])
  | c :: cs, k =>
    match exec s c k with
    | none => none
    | some (k, o) =>
      match run s cs k with
      | none => none
      | some (k, os) => some (k, (c, o) :: os)

end Rcpr.Msg
