import Verif.Status

/-! Model of the bump allocator, `src/allocator/bump_allocator_create.c`. `size_t` and addresses are
64-bit words; arithmetic wraps. -/
namespace Rcpr.Bump

open Rcpr

/-- `size_t` or an address (bump_allocator_create.c:37-43). -/
abbrev Word := BitVec 64

/-- `struct bump_allocator` (37-43) without its header; `hdr` stands for
`sizeof(bump_allocator)`, which the compiler determines. -/
structure St where
  hdr : Word
  region : Word
  offset : Word
  max : Word
  deriving DecidableEq

/-- `bump_allocator_create` (74-126). `none` = `*alloc = NULL`. -/
def create (hdr region size : Word) : Status × Option St :=
  if size < hdr then (ERROR_GENERAL_OUT_OF_MEMORY, none)
  else (SUCCESS, some ⟨hdr, region, hdr, size⟩)

/-- `bump_allocator_allocate` (171-199). The pointer is `none` when `*ptr` is left alone. -/
def allocate (b : St) (size : Word) : St × Status × Option Word :=
  let mem := b.offset
  let raw := b.region + mem
  let mem := if raw % 16 ≠ 0 then mem + (16 - raw % 16) else mem
  let bump := mem + size
  if bump ≥ b.max then (b, ERROR_GENERAL_OUT_OF_MEMORY, none)
  else ({ b with offset := bump }, SUCCESS, some (b.region + mem))

/-- `bump_allocator_reclaim` (222-230). -/
def reclaim (b : St) (_ptr : Word) : St × Status := (b, SUCCESS)

/-- `bump_allocator_reallocate` (261-270): status; `*ptr` is left alone. -/
def reallocate (b : St) (_ptr _size : Word) : St × Status :=
  (b, ERROR_GENERAL_REALLOCATION_NOT_SUPPORTED)

/-- `RCPR_ALLOCATOR_CONTROL_BUMP_ALLOCATOR_RESET` (include/rcpr/allocator.h:44) -/
def resetKey : Int := 0x0020

/-- `bump_allocator_control` (293-309). -/
def control (b : St) (key : Int) : St × Status :=
  if key = resetKey then ({ b with offset := b.hdr }, SUCCESS)
  else (b, ERROR_GENERAL_CONTROL_KEY_INVALID)

/-- the calls of a client. Through the methods of bump_allocator_create.c. -/
inductive Op
  | allocate (size : Word)
  | reclaim (ptr : Word)
  | reallocate (ptr size : Word)
  | control (key : Int)

/-- the blocks a client holds since the last reset: address and size.
Not in the code: a record of what bump_allocator_create.c handed out. -/
abbrev Blocks := List (Word × Word)

/-- One call, keeping the list of blocks handed out (newest first).
Not in the code: a client of bump_allocator_create.c. -/
def step : St × Blocks → Op → St × Blocks
  | (b, l), .allocate size =>
    match allocate b size with
    | (b, _, some p) => (b, (p, size) :: l)
    | (b, _, none) => (b, l)
  | (b, l), .reclaim p => ((reclaim b p).1, l)
  | (b, l), .reallocate p n => ((reallocate b p n).1, l)
  | (b, l), .control key =>
    match control b key with
    | (b, st) => (b, if st = SUCCESS then [] else l)

/-- Not in the code: a client of bump_allocator_create.c that makes these calls. -/
def run (x : St × Blocks) (ops : List Op) : St × Blocks := ops.foldl step x

end Rcpr.Bump
