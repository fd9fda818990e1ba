import Verif.Status

/-!
Model of the run-time check of vtable pointers (`include/rcpr/vtable.h`) and of every kind of call through a
vtable that the library makes: `resource_release`, the four `allocator_*` methods, the `psock` methods that go
through `resource_vtable_read`, and the forwarding methods of a psock made from user methods.

Memory is a partial map from addresses to the 8-byte word stored there (64-bit target); `none` is an address
that is not mapped. A call through a function pointer ends the function in the outcome `call`: what the callee
does is not part of this model. Arguments other than the object are left out.
-/
namespace Rcpr.Vtable

open Rcpr

/-- An address or a pointer. -/
abbrev Word := BitVec 64

/-- Memory, read one word at a time. Not in the code: the memory of the process. -/
abbrev Mem := Word → Option Word

/-- Build options and link-time symbols.
`enforce`: RCPR_VTABLE_RUNTIME_ENFORCEMENT, `checkAssert`: RCPR_VTABLE_CHECK_ASSERT (CMakeLists.txt:19-20,
config.h.cmake:20-21); `ndebug`: NDEBUG, under which `assert` expands to nothing; `start` and `stop` are the
addresses of `__start_rcpr_vtable` and `__stop_rcpr_vtable` (include/rcpr/vtable.h:22-23), which the linker
sets to the first byte of the section and to the first byte after it. -/
structure Cfg where
  enforce : Bool
  checkAssert : Bool
  ndebug : Bool
  start : Word
  stop : Word

/-- How one of the modelled functions leaves. Not in the code: outcomes. -/
inductive Out
  /-- it returns a status -/
  | ret (st : Status)
  /-- it transfers control to the function at this address -/
  | call (fn : Word)
  /-- `assert` ends the process -/
  | abort
  /-- it reads an address that is not mapped -/
  | fault
  deriving DecidableEq

/-- `vtable_range_valid` (include/rcpr/vtable.h:64-77, 84-86): both comparisons are signed. -/
def rangeValid (c : Cfg) (p : Word) : Bool :=
  if c.enforce then c.start.sle p && p.sle c.stop else true

/-- `RCPR_VTABLE_CHECK_ERROR_GOTO_FAIL` (include/rcpr/vtable.h:33-41); `k` is the code after the check, reached
when `assert` is compiled out. -/
def checkError (c : Cfg) (k : Out) : Out :=
  if c.checkAssert then (if c.ndebug then k else .abort) else .ret ERROR_GENERAL_BAD_VTABLE

/-- Read a word, or fault. Not in the code: a load through a pointer; unmapped memory faults. -/
def load (m : Mem) (a : Word) (k : Word → Out) : Out :=
  match m a with
  | none => .fault
  | some w => k w

/-- `if (!vtable_range_valid(p)) { RCPR_VTABLE_CHECK_ERROR_GOTO_FAIL(done); }`, as in
src/resource/resource_release.c:57-61 -/
def checked (c : Cfg) (p : Word) (k : Out) : Out :=
  if !rangeValid c p then checkError c k else k

/-- `resource_release` (src/resource/resource_release.c:49-72). The vtable pointer is the first member of a
`resource` (include/rcpr/resource/protected.h:23-28) and `release` the only member of a `resource_vtable`. -/
def resourceRelease (c : Cfg) (m : Mem) (r : Word) : Out :=
  load m r fun vt => checked c vt (load m vt fun f => .call f)

/-- Positions of the members of `allocator_vtable` (include/rcpr/allocator.h:537-544). -/
def ALLOCATE : Word := 8
/-- `reclaim_fn` (include/rcpr/allocator.h:541) -/
def RECLAIM : Word := 16
/-- `reallocate_fn` (include/rcpr/allocator.h:542) -/
def REALLOCATE : Word := 24
/-- `control_fn` (include/rcpr/allocator.h:543) -/
def CONTROL : Word := 32

/-- `allocator_allocate` (src/allocator/allocator_allocate.c:41-68); the second component is what has been
stored through `ptr` when the function leaves: `some 0` is NULL. -/
def allocatorAllocate (c : Cfg) (m : Mem) (a : Word) : Out × Option Word :=
  match m a with
  | none => (.fault, none)
  | some vt =>
    (checked c vt (load m (vt + ALLOCATE) fun f => .call f),
     if !rangeValid c vt then some 0 else none)

/-- `allocator_reallocate` (src/allocator/allocator_reallocate.c:47-72) -/
def allocatorReallocate (c : Cfg) (m : Mem) (a : Word) : Out :=
  load m a fun vt => checked c vt (load m (vt + REALLOCATE) fun f => .call f)

/-- `allocator_reclaim` (src/allocator/allocator_reclaim.c:39-65) -/
def allocatorReclaim (c : Cfg) (m : Mem) (a : Word) : Out :=
  load m a fun vt => checked c vt (load m (vt + RECLAIM) fun f => .call f)

/-- `allocator_control` (src/allocator/allocator_control.c:39-72) -/
def allocatorControl (c : Cfg) (m : Mem) (a : Word) : Out :=
  load m a fun vt => checked c vt (load m (vt + CONTROL) fun f =>
    if f = 0 then .ret ERROR_GENERAL_CONTROL_KEY_INVALID else .call f)

/-- `resource_vtable_read` (src/resource/resource_vtable_read.c:28-55) and the code of its caller: `k` gets the
pointer on success, any other status is returned by the caller
(for instance src/psock/psock_accept.c:74-81). -/
def resourceVtableRead (c : Cfg) (m : Mem) (r : Word) (k : Word → Out) : Out :=
  load m r fun vt => checked c vt (k vt)

/-- Positions of the members of `psock_vtable` (include/rcpr/psock.h:306-316). -/
def READ : Word := 8
/-- `write_fn` (include/rcpr/psock.h:310) -/
def WRITE : Word := 16
/-- `accept_fn` (include/rcpr/psock.h:311) -/
def ACCEPT : Word := 24
/-- `sendmsg_fn` (include/rcpr/psock.h:312) -/
def SENDMSG : Word := 32
/-- `recvmsg_fn` (include/rcpr/psock.h:313) -/
def RECVMSG : Word := 40
/-- `setsockopt_fn` (include/rcpr/psock.h:314) -/
def SETSOCKOPT : Word := 48
/-- `release_fn` (include/rcpr/psock.h:315) -/
def RELEASE : Word := 56

/-- The call of `read_fn` in `psock_read_raw` (src/psock/psock_read_raw.c:73-84) and, in the same shape, in
the other readers. -/
def psockRead (c : Cfg) (m : Mem) (s : Word) : Out :=
  resourceVtableRead c m s fun vt => load m (vt + READ) fun f => .call f

/-- The call of `write_fn` in `psock_write_raw_int8` (src/psock/psock_write_raw_int8.c:59-69) and, in the same
shape, in the other writers. -/
def psockWrite (c : Cfg) (m : Mem) (s : Word) : Out :=
  resourceVtableRead c m s fun vt => load m (vt + WRITE) fun f => .call f

/-- A method that may be NULL. As in psock_br_psock_sendmsg.c:40-61. -/
def optional (m : Mem) (a : Word) : Out :=
  load m a fun f => if f = 0 then .ret ERROR_PSOCK_METHOD_UNDEFINED else .call f

/-- `psock_accept` (src/psock/psock_accept.c:59-91) -/
def psockAccept (c : Cfg) (m : Mem) (s : Word) : Out :=
  resourceVtableRead c m s fun vt => optional m (vt + ACCEPT)

/-- `psock_setsockopt` (src/psock/psock_setsockopt.c:47-77) -/
def psockSetsockopt (c : Cfg) (m : Mem) (s : Word) : Out :=
  resourceVtableRead c m s fun vt => optional m (vt + SETSOCKOPT)

/-- The call of `sendmsg_fn` in `psock_br_psock_sendmsg` (src/psock/psock_br_psock_sendmsg.c:40-61); the object
is the wrapped psock. -/
def psockSendmsg (c : Cfg) (m : Mem) (s : Word) : Out :=
  resourceVtableRead c m s fun vt => optional m (vt + SENDMSG)

/-- The call of `recvmsg_fn` in `psock_br_psock_recvmsg` (src/psock/psock_br_psock_recvmsg.c:41-62); the object
is the wrapped psock. -/
def psockRecvmsg (c : Cfg) (m : Mem) (s : Word) : Out :=
  resourceVtableRead c m s fun vt => optional m (vt + RECVMSG)

/-- The methods of a psock made from user methods read `ps->user_vtable`, a member of the heap object at offset
`o`, and call through it (src/psock/psock_create_from_user_methods.c:206-213, 228-235). `o` is a parameter:
the distance of `user_vtable` from the start of the structure (src/psock/psock_internal.h:121-125). -/
def userRead (o : Word) (m : Mem) (s : Word) : Out :=
  load m (s + o) fun uvt => load m (uvt + READ) fun f => .call f

/-- src/psock/psock_create_from_user_methods.c:228-235 -/
def userWrite (o : Word) (m : Mem) (s : Word) : Out :=
  load m (s + o) fun uvt => load m (uvt + WRITE) fun f => .call f

/-- src/psock/psock_create_from_user_methods.c:252-267 -/
def userAccept (o : Word) (m : Mem) (s : Word) : Out :=
  load m (s + o) fun uvt => optional m (uvt + ACCEPT)

/-- src/psock/psock_create_from_user_methods.c:281-294 -/
def userSendmsg (o : Word) (m : Mem) (s : Word) : Out :=
  load m (s + o) fun uvt => optional m (uvt + SENDMSG)

/-- src/psock/psock_create_from_user_methods.c:309-322 -/
def userRecvmsg (o : Word) (m : Mem) (s : Word) : Out :=
  load m (s + o) fun uvt => optional m (uvt + RECVMSG)

/-- The start of `psock_from_user_methods_release` (src/psock/psock_create_from_user_methods.c:158-177) up to
the call of the user's release method; `none`: the method is NULL and the release goes on without a call
through the user's table. -/
def userRelease (o : Word) (m : Mem) (s : Word) : Option Out :=
  match m (s + o) with
  | none => some .fault
  | some uvt =>
    match m (uvt + RELEASE) with
    | none => some .fault
    | some f => if f = 0 then none else some (.call f)

end Rcpr.Vtable
