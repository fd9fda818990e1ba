import Verif.Status

/-!
Model of `psock_create_wrap_async` (src/psock/psock_create_wrap_async.c:109-224) and `socket_utility_set_nonblock`
(src/socket_utilities/socket_utility_set_nonblock.c): which object is made, and the mode of the descriptor. What happens to
the scheduler, its discipline and its idle fiber is in `Verif.LifeSched`; here it is an answer.
-/
namespace Rcpr.Wrap

open Rcpr

/-- `O_NONBLOCK` of Linux, as used in socket_utility_set_nonblock.c:38. -/
def O_NONBLOCK : BitVec 32 := 0x800#32

/-- The flags that `F_SETFL` sets on Linux: `O_APPEND`, `O_NONBLOCK`, `O_ASYNC`, `O_DIRECT`, `O_NOATIME`; it ignores the
others. Not in the code: the kernel, see fcntl(2). -/
def SETTABLE : BitVec 32 := 0x46c00#32

/-- Descriptors and open files. Descriptors that were duplicated, inherited or passed on share an open file, to which
the flags belong. Not in the code: the kernel, see open(2). -/
structure Kern where
  file : Nat → Option Nat
  flags : Nat → BitVec 32

/-- `fcntl(desc, F_GETFL)` (socket_utility_set_nonblock.c:31); `none` for a negative result. -/
def getfl (k : Kern) (fd : Nat) : Option (BitVec 32) :=
  match k.file fd with
  | none => none
  | some g => if (k.flags g).msb then none else some (k.flags g)

/-- `fcntl(desc, F_SETFL, flags)` (socket_utility_set_nonblock.c:41), `ok` is whether the kernel does it. -/
def setfl (k : Kern) (fd : Nat) (v : BitVec 32) (ok : Bool) : Kern × Bool :=
  match k.file fd with
  | none => (k, false)
  | some g =>
    if ok then ({ k with flags := fun h => if h = g then (k.flags g &&& ~~~SETTABLE) ||| (v &&& SETTABLE) else k.flags h }, true)
    else (k, false)

/-- `socket_utility_set_nonblock` (socket_utility_set_nonblock.c:23-49) -/
def setNonblock (k : Kern) (fd : Nat) (ok : Bool) : Kern × Status :=
  match getfl k fd with
  | none => (k, ERROR_SOCKET_UTILITIES_SET_NONBLOCK_FAILURE)
  | some v =>
    let r := setfl k fd (v ||| O_NONBLOCK) ok
    if r.2 then (r.1, SUCCESS) else (r.1, ERROR_SOCKET_UTILITIES_SET_NONBLOCK_FAILURE)

/-- What follows the header of a psock, by its type: `psock_from_descriptor`, `psock_wrap_async` (with the two fibers
that are blocked, 0 for `NULL`), or another one (src/psock/psock_internal.h:26-33 and the structures after it). -/
inductive Body
  | descriptor (fd : Nat)
  | async (wrapped fib disc readFib writeFib : Nat)
  | other (type : Nat)
  deriving DecidableEq

/-- A psock (src/psock/psock_internal.h). The type is that of the body. -/
structure Psock where
  alloc : Nat
  socktype : Nat
  body : Body
  deriving DecidableEq

/-- The psocks in memory, and the kernel. Not in the code: the memory. -/
structure World where
  heap : Nat → Option Psock
  kern : Kern

/-- What the call is told: by the search for the discipline or its creation (psock_create_wrap_async.c:138-156), by the
allocator (the block, at 160), by the kernel, and by the allocator when the block is given back (216).
Not in the code: the environment. -/
structure Ans where
  disc : Nat
  prep : Status
  blk : Nat
  alloc : Status
  setfl : Bool
  reclaim : Status

/-- `psock_create_wrap_async` (psock_create_wrap_async.c:109-224): the child `c`, the fiber `fib`, the allocator `a`. The
result is undefined if there is no psock at `c`, else the new state, the status, and what `*sock` is set to, if it is set. -/
def create (w : World) (a fib c : Nat) (x : Ans) : Option (World × Status × Option Nat) :=
  match w.heap c with
  | none => none
  | some p =>
    match p.body with
    | .descriptor fd =>
      if x.prep ≠ SUCCESS then some (w, x.prep, none)
      else if x.alloc ≠ SUCCESS then some (w, x.alloc, none)
      else
        let q : Psock := ⟨a, p.socktype, .async c fib x.disc 0 0⟩
        let heap := fun b => if b = x.blk then some q else w.heap b
        let r := setNonblock w.kern fd x.setfl
        if r.2 ≠ SUCCESS then
          if x.reclaim ≠ SUCCESS then some (⟨heap, r.1⟩, x.reclaim, none)
          else some (⟨fun b => if b = x.blk then none else heap b, r.1⟩, r.2, none)
        else some (⟨heap, r.1⟩, SUCCESS, some x.blk)
    | _ => some (w, ERROR_PSOCK_UNSUPPORTED_TYPE, none)

/-- One call. Not in the code: a client. -/
structure Call where
  a : Nat
  fib : Nat
  child : Nat
  x : Ans

/-- Histories of calls from `w₀` on, with their statuses; a new block is not in use. Not in the code: clients. -/
inductive Hist (w₀ : World) : World → List (Call × Status) → Prop
  | init : Hist w₀ w₀ []
  | step {w w' tr st o} (c : Call) : Hist w₀ w tr → (c.x.alloc = SUCCESS → w.heap c.x.blk = none) →
      create w c.a c.fib c.child c.x = some (w', st, o) → Hist w₀ w' (tr ++ [(c, st)])

end Rcpr.Wrap
