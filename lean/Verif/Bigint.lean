import Verif.Status

/-!
Model of `src/bigint`. One heap maps addresses to blocks; a block is a `bigint` structure or an
array of 64-bit words (`native_int`). Address 0 is `NULL`. Using an address that does not hold a
block of the right kind, and reading or writing past the end of an array, is undefined behaviour:
outcome `none`.

Simplifications: the resource header is not represented; an array allocated with `n` bytes is a list
of `n / 8` words; what `allocator_allocate` and `allocator_reclaim` answer is a parameter of the
call. A reclaimed block is gone; a block whose reclaim fails is treated as gone as well, because the
caller cannot use it any more.
-/
namespace Rcpr.Bigint

open Rcpr

/-- Not in the code: an address; 0 is `NULL`. -/
abbrev Addr := Nat
/-- `native_int` (src/bigint/bigint_internal.h:27) and `size_t`. -/
abbrev Word := BitVec 64

/-- `struct bigint` (src/bigint/bigint_internal.h:30-40) -/
structure Big where
  a : Addr
  sign : Bool
  length : Word
  array : Addr
  deriving DecidableEq

/-- Not in the code: what an allocated block holds: a `struct bigint` (src/bigint/bigint_internal.h:30-40) or its array. -/
inductive Block
  | big (b : Big)
  | arr (ws : List Word)
  deriving DecidableEq

/-- Not in the code: the blocks that are allocated. -/
abbrev Heap := Addr → Option Block

/-- Not in the code: allocating, changing or reclaiming a block. -/
def upd (m : Heap) (p : Addr) (v : Option Block) : Heap := fun x => if x = p then v else m x

/-- the allocator's answer: an address, or the status of the failure
(include/rcpr/allocator.h, `allocator_allocate`). -/
abbrev Ans := Except Status Addr

/-- number of words computed by `bigint_create_zero` (src/bigint/bigint_create_zero.c:73-85) -/
def intSize (size : Word) : Word :=
  let byteSize := size / 8
  let byteSize := if size % 8 > 0 then byteSize + 1 else byteSize
  let intSize := byteSize / 8
  if byteSize % 8 > 0 then intSize + 1 else intSize

/-- `memset(p, 0, n)` on an array of words; `n` bytes must fit.
The C library's `memset`, as called in src/bigint/bigint_create_zero.c. -/
def zeroArr (m : Heap) (p : Addr) (n : Word) : Option Heap :=
  match m p with
  | some (.arr ws) =>
    if n.toNat / 8 ≤ ws.length then
      some (upd m p (some (.arr (List.replicate (n.toNat / 8) 0 ++ ws.drop (n.toNat / 8)))))
    else none
  | _ => none

/-- `memcpy(p, q, n)` on arrays of words; `n` bytes must fit in both.
The C library's `memcpy`, as called in src/bigint/bigint_clone.c. -/
def copyArr (m : Heap) (p q : Addr) (n : Word) : Option Heap :=
  match m p, m q with
  | some (.arr ws), some (.arr vs) =>
    if n.toNat / 8 ≤ ws.length ∧ n.toNat / 8 ≤ vs.length then
      some (upd m p (some (.arr (vs.take (n.toNat / 8) ++ ws.drop (n.toNat / 8)))))
    else none
  | _, _ => none

/-- a successful `allocator_allocate` of `n` bytes for words; `junk` is what the memory held.
As called in src/bigint/bigint_create_zero.c. -/
def newArr (m : Heap) (p : Addr) (n : Word) (junk : Nat → Word) : Heap :=
  upd m p (some (.arr ((List.range (n.toNat / 8)).map junk)))

/-- `bigint_create_zero` (src/bigint/bigint_create_zero.c:65-147): status and `*i` if it was set.
`a1`, `a2` answer the two allocations, `rec` the reclaim on the failure path. -/
def createZero (m : Heap) (a : Addr) (size : Word) (a1 a2 : Ans) (rec : Status)
    (junk : Nat → Word) : Option (Heap × Status × Option Addr) :=
  let n := intSize size
  match a1 with
  | .error st => some (m, st, none)
  | .ok tmp =>
    let m := upd m tmp (some (.big ⟨0, false, 0, 0⟩))
    match a2 with
    | .error st => some (upd m tmp none, if st = SUCCESS then rec else st, none)
    | .ok p =>
      let m := newArr m p (n * 8) junk
      match zeroArr m p (n * 8) with
      | none => none
      | some m => some (upd m tmp (some (.big ⟨a, false, n, p⟩)), SUCCESS, some tmp)

/-- `bigint_clone` (src/bigint/bigint_clone.c:53-121). -/
def clone (m : Heap) (a : Addr) (j : Addr) (a1 a2 : Ans) (rec : Status) (junk : Nat → Word) :
    Option (Heap × Status × Option Addr) :=
  match a1 with
  | .error st => some (m, st, none)
  | .ok tmp =>
    match m j with
    | some (.big b) =>
      let m := upd m tmp (some (.big { b with a := a }))
      match a2 with
      | .error st => some (upd m tmp none, if st = SUCCESS then rec else st, none)
      | .ok p =>
        let m := newArr m p (8 * b.length) junk
        match copyArr m p b.array (8 * b.length) with
        | none => none
        | some m => some (upd m tmp (some (.big { b with a := a, array := p })), SUCCESS, some tmp)
    | _ => none

/-- `bigint_release` (src/bigint/bigint_release.c:28-50). `rec1`, `rec2` answer the reclaim of the
array and of the structure. -/
def release (m : Heap) (i : Addr) (rec1 rec2 : Status) : Option (Heap × Status) :=
  match m i with
  | some (.big b) =>
    match zeroArr m b.array (b.length * 8) with
    | none => none
    | some m => some (upd (upd m b.array none) i none, if rec2 = SUCCESS then rec1 else rec2)
  | _ => none

/-- the calls of a client (include/rcpr/bigint.h) -/
inductive Op
  | createZero (a : Addr) (size : Word) (a1 a2 : Ans) (rec : Status) (junk : Nat → Word)
  | clone (a j : Addr) (a1 a2 : Ans) (rec : Status) (junk : Nat → Word)
  | release (i : Addr) (rec1 rec2 : Status)

/-- One call of the interface (include/rcpr/bigint.h). -/
def step (m : Heap) : Op → Option (Heap × Status × Option Addr)
  | .createZero a size a1 a2 rec junk => createZero m a size a1 a2 rec junk
  | .clone a j a1 a2 rec junk => clone m a j a1 a2 rec junk
  | .release i rec1 rec2 => (release m i rec1 rec2).map fun (m, st) => (m, st, none)

/-- run a history, collecting what each call returned. Not in the code: a client of include/rcpr/bigint.h. -/
def run (m : Heap) : List Op → Option (Heap × List (Status × Option Addr))
  | [] => some (m, [])
  | op :: ops =>
    match step m op with
    | none => none
    | some (m, st, r) =>
      match run m ops with
      | none => none
      | some (m, rs) => some (m, (st, r) :: rs)

end Rcpr.Bigint
