import Verif.Status

/-!
Model of the malloc allocator (`src/allocator/malloc_allocator_create.c`) behind the four functions of the
allocator API, over a flat memory and the C library's `malloc`, `realloc` and `free`.

Simplifications: addresses are natural numbers and 0 is NULL; the check of the vtable is left out (it is the
subject of `Verif/Vtable.lean`), but every call reads the vtable pointer in the allocator structure, so calling
a method of an allocator that has been released is undefined. Undefined behaviour is `none`.
-/
namespace Rcpr.Malloc

open Rcpr

/-- A block handed out by the C library: address and size.
Not in the code: the C library, as called in src/allocator/malloc_allocator_create.c. -/
abbrev Block := Nat × Nat

/-- The bytes that belong to a block; a block of size 0 has an address of its own.
Not in the code: the C library, as called in src/allocator/malloc_allocator_create.c. -/
def Block.has (b : Block) (x : Nat) : Bool := decide (b.1 ≤ x ∧ x < b.1 + max 1 b.2)

/-- The process: its bytes and the blocks that are allocated.
Not in the code: the C library, as called in src/allocator/malloc_allocator_create.c. -/
structure Heap where
  mem : Nat → UInt8
  live : List Block

/-- Does this address belong to one of the blocks?.
Not in the code: the C library, as called in src/allocator/malloc_allocator_create.c. -/
def owned (bs : List Block) (x : Nat) : Bool := bs.any (·.has x)

/-- What the C library answers to a request for memory: where the block is (`none`: there is no memory), and
what it leaves in the bytes that belong to nobody.
Not in the code: the C library, as called in src/allocator/malloc_allocator_create.c. -/
structure Ans where
  addr : Option Nat
  junk : Nat → UInt8

/-- The C library's `malloc`. Not in the code: the C library, as called in src/allocator/malloc_allocator_create.c. -/
def cMalloc (h : Heap) (n : Nat) (w : Ans) : Heap × Nat :=
  match w.addr with
  | none => (h, 0)
  | some a => (⟨fun x => if owned h.live x then h.mem x else w.junk x, (a, n) :: h.live⟩, a)

/-- The C library's `free`: nothing for NULL, undefined for an address that is not that of a block.
Not in the code: the C library, as called in src/allocator/malloc_allocator_create.c. -/
def cFree (h : Heap) (p : Nat) : Option Heap :=
  if p = 0 then some h
  else
    match h.live.find? (·.1 == p) with
    | none => none
    | some b => some { h with live := h.live.erase b }

/-- The C library's `realloc`. `zeroFrees` is the behaviour of the library for size 0: if set (glibc, and
permitted by C99 and C11), the block is freed and NULL is returned; if not, 0 is a size like any other.
Not in the code: the C library, as called in src/allocator/malloc_allocator_create.c. -/
def cRealloc (zeroFrees : Bool) (h : Heap) (p n : Nat) (w : Ans) : Option (Heap × Nat) :=
  if p = 0 then some (cMalloc h n w)
  else
    match h.live.find? (·.1 == p) with
    | none => none
    | some b =>
      if n = 0 ∧ zeroFrees = true then some ({ h with live := h.live.erase b }, 0)
      else
        match w.addr with
        | none => some (h, 0)
        | some a =>
          some (⟨fun x =>
            if a ≤ x ∧ x < a + min b.2 n then h.mem (p + (x - a))
            else if owned (h.live.erase b) x then h.mem x else w.junk x,
            (a, n) :: h.live.erase b⟩, a)

/-- `sizeof(allocator)` without the model checking tag (src/allocator/allocator_internal.h:21-27). -/
def SIZEOF_ALLOCATOR : Nat := 16

/-- `malloc_allocator_create` (src/allocator/malloc_allocator_create.c:59-102): the allocator's address. -/
def create (h : Heap) (w : Ans) : Heap × Nat × Status :=
  let (h, a) := cMalloc h SIZEOF_ALLOCATOR w
  if a = 0 then (h, a, ERROR_GENERAL_OUT_OF_MEMORY) else (h, a, SUCCESS)

/-- `malloc_allocator_release` (src/allocator/malloc_allocator_create.c:112-126), clearing the structure left
out. -/
def release (h : Heap) (a : Nat) : Option (Heap × Status) := do
  let h ← cFree h a
  return (h, SUCCESS)

/-- `malloc_allocator_allocate` (src/allocator/malloc_allocator_create.c:151-169): the value of `*ptr` and the
status. -/
def mallocAllocate (h : Heap) (n : Nat) (w : Ans) : Heap × Nat × Status :=
  let (h, p) := cMalloc h n w
  if p = 0 then (h, p, ERROR_GENERAL_OUT_OF_MEMORY) else (h, p, SUCCESS)

/-- `malloc_allocator_reclaim` (src/allocator/malloc_allocator_create.c:192-206) -/
def mallocReclaim (h : Heap) (p : Nat) : Option (Heap × Status) := do
  let h ← cFree h p
  return (h, SUCCESS)

/-- `malloc_allocator_reallocate` (src/allocator/malloc_allocator_create.c:237-256): the value of `*ptr` and the
status. -/
def mallocReallocate (zeroFrees : Bool) (h : Heap) (p n : Nat) (w : Ans) : Option (Heap × Nat × Status) := do
  let (h, q) ← cRealloc zeroFrees h p n w
  if q = 0 then return (h, p, ERROR_GENERAL_OUT_OF_MEMORY) else return (h, q, SUCCESS)

/-- `malloc_allocator_control` (src/allocator/malloc_allocator_create.c:279-288) -/
def mallocControl : Status := ERROR_GENERAL_CONTROL_KEY_INVALID

/-! ### A client -/

/-- A client with an allocator and numbered pointer variables.
Not in the code: a client of include/rcpr/allocator.h. -/
structure St where
  heap : Heap
  alloc : Nat
  vars : Nat → Nat

/-- What the client does. (include/rcpr/allocator.h) -/
inductive Cmd
  | alloc (i n : Nat)
  | realloc (i n : Nat)
  | reclaim (i : Nat)
  | control (key : Nat)
  | write (i off : Nat) (b : UInt8)
  | read (i off : Nat)
  deriving DecidableEq

/-- What the client sees. `alloc`: the status and whether the variable is NULL; `realloc`: the status and
whether the variable has kept its value. Not in the code: a record for the specification. -/
inductive Obs
  | alloc (st : Status) (null : Bool)
  | realloc (st : Status) (same : Bool)
  | status (st : Status)
  | wrote
  | byte (b : UInt8)
  deriving DecidableEq

/-- Assign a variable. Not in the code: a client's variable. -/
def set (v : Nat → Nat) (i p : Nat) : Nat → Nat := fun j => if j = i then p else v j

/-- The API functions read the vtable pointer of the allocator before they call the method:
src/allocator/allocator_allocate.c:50-61, allocator_reallocate.c:56-65, allocator_control.c:48-65,
allocator_reclaim.c:48-58. -/
def alive (s : St) : Bool := s.heap.live.contains (s.alloc, SIZEOF_ALLOCATOR)

/-- An access to memory is defined inside of a block only. Not in the code: a rule of C. -/
def inside (h : Heap) (x : Nat) : Bool := h.live.any fun b => decide (b.1 ≤ x ∧ x < b.1 + b.2)

/-- One step of the client. (include/rcpr/allocator.h) -/
def exec (zeroFrees : Bool) (s : St) (c : Cmd) (w : Ans) : Option (St × Obs) :=
  match c with
  | .alloc i n =>
    if alive s then
      let (h, p, st) := mallocAllocate s.heap n w
      some ({ s with heap := h, vars := set s.vars i p }, .alloc st (p == 0))
    else none
  | .realloc i n =>
    if alive s then do
      let (h, p, st) ← mallocReallocate zeroFrees s.heap (s.vars i) n w
      return ({ s with heap := h, vars := set s.vars i p }, .realloc st (p == s.vars i))
    else none
  | .reclaim i =>
    if alive s then do
      let (h, st) ← mallocReclaim s.heap (s.vars i)
      return ({ s with heap := h }, .status st)
    else none
  | .control _ => if alive s then some (s, .status mallocControl) else none
  | .write i off b =>
    if inside s.heap (s.vars i + off) then
      some ({ s with heap.mem := fun x => if x = s.vars i + off then b else s.heap.mem x }, .wrote)
    else none
  | .read i off =>
    if inside s.heap (s.vars i + off) then some (s, .byte (s.heap.mem (s.vars i + off))) else none

/-- A client that chooses each command from what it has seen (`f`, `none`: it stops), with the library's
answers (`env`), for at most this many steps; the history is kept newest first.
Not in the code: a client of include/rcpr/allocator.h. -/
def drive (zeroFrees : Bool) (f : List (Cmd × Obs) → Option Cmd) (env : List (Cmd × Obs) → Ans) :
    Nat → St → List (Cmd × Obs) → Option (St × List (Cmd × Obs))
  | 0, s, hist => some (s, hist)
  | n + 1, s, hist =>
    match f hist with
    | none => some (s, hist)
    | some c =>
      match exec zeroFrees s c (env hist) with
      | none => none
      | some (s', o) => drive zeroFrees f env n s' ((c, o) :: hist)

end Rcpr.Malloc
