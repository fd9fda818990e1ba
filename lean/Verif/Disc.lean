import Verif.Status

/-!
Model of disciplines: creation, registration with a disciplined scheduler, and the two-step dispatch
of a yield (`src/fiber/common/fiber_scheduler_discipline_create.c`, `fiber_scheduler_discipline_add.c`,
`fiber_discipline_yield.c` and the dispatch in `fiber_scheduler_create_with_disciplines.c`).

One scheduler. Function pointers and context pointers are numbers. Arrays are lists of cells, a cell
that was never written is `none`; reading it, or reading outside the array, is undefined behaviour
(`none` of the function). The tree of disciplines is the list of the addresses in it: it only ever
grows (the red-black tree itself is modelled in its own module).
-/
namespace Rcpr.Disc

open Rcpr

/-- `struct fiber_scheduler_discipline` (src/fiber/common/fiber_internal.h:86-99) without header and
allocator. `owner` is `sched != NULL`. The size is the length of `cbs`. -/
structure Disc where
  id : Nat
  owner : Bool
  context : Nat
  cbs : List Nat
  codes : List (Option (BitVec 32))
  deriving DecidableEq

/-- The scheduler context (fiber_internal.h:64-84), the part used here, and the memory that holds the
disciplines. The vectors may have more cells than `size` says. `none` is the NULL vector. -/
structure Ctx where
  mem : Nat → Option Disc
  tree : List Nat
  size : Nat
  cv : Option (List (Option Nat))
  xv : Option (List (Option Nat))

/-- `realloc`: the old cells, then fresh ones. As called in fiber_scheduler_discipline_add.c for the two vectors. -/
def resize (v : List (Option Nat)) (n : Nat) : List (Option Nat) :=
  v.take n ++ List.replicate (n - v.length) none

/-- The state after `fiber_scheduler_create_with_disciplines` has stored the internal callbacks
(fiber_scheduler_create_with_disciplines.c:197-235); `ctx` is the address of the context. -/
def start (internal : List Nat) (ctx : Nat) : Ctx :=
  { mem := fun _ => none, tree := [], size := internal.length
    cv := some (internal.map some), xv := some (internal.map fun _ => some ctx) }

/-- `fiber_scheduler_discipline_create` (fiber_scheduler_discipline_create.c:71-175) when all three
allocations succeed: a new discipline at a free address. The code vector is not initialised. -/
def create (c : Ctx) (a id context : Nat) (cbs : List Nat) : Ctx :=
  { c with mem := fun b => if b = a then some ⟨id, false, context, cbs, cbs.map fun _ => none⟩ else c.mem b }

/-- The three allocations of `fiber_scheduler_discipline_create` and the reclaims on the failure path
(fiber_scheduler_discipline_create.c:89-175): status and the blocks still allocated at the end,
numbered 0 (the structure), 1 (callbacks), 2 (codes). -/
def createAlloc (a0 a1 a2 r0 r1 : Status) : Status × List Nat :=
  if a0 ≠ SUCCESS then (ERROR_GENERAL_OUT_OF_MEMORY, [])
  else if a1 ≠ SUCCESS then
    if r0 ≠ SUCCESS then (r0, [0]) else (ERROR_GENERAL_OUT_OF_MEMORY, [])
  else if a2 ≠ SUCCESS then
    if r1 ≠ SUCCESS then (r1, [0, 1])
    else if r0 ≠ SUCCESS then (r0, [0]) else (ERROR_GENERAL_OUT_OF_MEMORY, [])
  else (SUCCESS, [0, 1, 2])

/-- `rbtree_find` by id, as used at fiber_scheduler_discipline_add.c:83-88 and
fiber_scheduler_discipline_find.c:70-79. Simplification: all members of the tree are looked at, so a
dangling member is undefined behaviour whatever the id. -/
def find (mem : Nat → Option Disc) (id : Nat) : List Nat → Option (Option Nat)
  | [] => some none
  | a :: as => do
    let d ← mem a
    if d.id = id then return some a
    find mem id as

/-- `fiber_scheduler_discipline_find` (fiber_scheduler_discipline_find.c:47-84) on a disciplined
scheduler. -/
def discFind (c : Ctx) (id : Nat) : Option (Status × Option Nat) := do
  match ← find c.mem id c.tree with
  | none => return (ERROR_FIBER_SCHEDULER_DISCIPLINE_NOT_FOUND, none)
  | some a => return (SUCCESS, some a)

/-- The answers of the allocator during one registration: the tree node, the callback vector, the
context vector. In fiber_scheduler_discipline_add.c:51-163. -/
structure Answers where
  node : Status
  cv : Status
  xv : Status
  deriving DecidableEq

/-- An array store. Not in the code: an assignment to an array, as in fiber_scheduler_discipline_add.c:151-156. -/
def store {α : Type} (v : List (Option α)) (i : Nat) (x : α) : Option (List (Option α)) :=
  if i < v.length then some (v.set i (some x)) else none

/-- The loop of fiber_scheduler_discipline_add.c:151-156, from index `i` on. -/
def fill (off context : Nat) : List Nat → Nat → List (Option Nat) → List (Option Nat) →
    List (Option (BitVec 32)) → Option (List (Option Nat) × List (Option Nat) × List (Option (BitVec 32)))
  | [], _, cv, xv, codes => some (cv, xv, codes)
  | f :: fs, i, cv, xv, codes => do
    let cv ← store cv (i + off) f
    let xv ← store xv (i + off) context
    let codes ← store codes i (BitVec.ofNat 32 (i + off))
    fill off context fs (i + 1) cv xv codes

/-- (Re)allocation of a vector, fiber_scheduler_discipline_add.c:102-117 and 126-139. -/
def grow (v : Option (List (Option Nat))) (off n : Nat) : List (Option Nat) :=
  match v with
  | none => List.replicate n none
  | some v => resize v (off + n)

/-- `fiber_scheduler_discipline_add` (fiber_scheduler_discipline_add.c:51-163). -/
def add (disciplined : Bool) (c : Ctx) (a : Nat) (ans : Answers) : Option (Ctx × Status) := do
  if !disciplined then return (c, ERROR_FIBER_SCHEDULER_NOT_DISCIPLINED)
  let d ← c.mem a
  if d.owner then return (c, ERROR_FIBER_SCHEDULER_DISCIPLINE_ALREADY_OWNED)
  let found ← find c.mem d.id c.tree
  if found.isSome then return (c, ERROR_FIBER_SCHEDULER_DUPLICATE_DISCIPLINE_ID)
  if ans.node ≠ SUCCESS then return (c, ans.node)
  let c := { c with tree := c.tree ++ [a] }
  let off := c.size
  if ans.cv ≠ SUCCESS then return (c, ans.cv)
  let c := { c with cv := some (grow c.cv off d.cbs.length) }
  if ans.xv ≠ SUCCESS then return (c, ans.xv)
  let c := { c with xv := some (grow c.xv off d.cbs.length) }
  let c := { c with size := c.size + d.cbs.length }
  let cv ← c.cv
  let xv ← c.xv
  let (cv, xv, codes) ← fill off d.context d.cbs 0 cv xv d.codes
  let d' := { d with codes := codes, owner := true }
  return ({ c with cv := some cv, xv := some xv, mem := fun b => if b = a then some d' else c.mem b }, SUCCESS)

/-- What a yield leads to: an error, or a call of a callback with a context and the code.
In fiber_scheduler_create_with_disciplines.c:664-673. -/
inductive Out
  | err (st : Status)
  | call (fn context : Nat) (code : BitVec 32)
  deriving DecidableEq

/-- An array load. Not in the code: a read of an array, as in fiber_scheduler_create_with_disciplines.c:664-673. -/
def load {α : Type} (v : List (Option α)) (i : Nat) : Option α := do
  let x ← v[i]?
  x

/-- The dispatch (fiber_scheduler_create_with_disciplines.c:664-673). -/
def dispatch (c : Ctx) (code : BitVec 32) : Option Out := do
  if (code.signExtend 64).toNat ≥ c.size then return .err ERROR_FIBER_SCHEDULER_BAD_YIELD_EVENT
  let cv ← c.cv
  let xv ← c.xv
  let f ← load cv code.toNat
  let x ← load xv code.toNat
  return .call f x code

/-- `fiber_discipline_yield` (fiber_discipline_yield.c:49-78) down to the dispatch;
`fiber_scheduler_yield` hands the code on unchanged (fiber_scheduler_yield.c:68-73) and dereferences
the owner. `ev` is the `int` event. -/
def yieldTo (c : Ctx) (a : Nat) (ev : BitVec 32) : Option Out := do
  let d ← c.mem a
  let off := (ev.signExtend 64).toNat
  if off > d.cbs.length then return .err ERROR_FIBER_SCHEDULER_BAD_YIELD_EVENT
  let code ← load d.codes off
  if !d.owner then none
  dispatch c code

/-- Release of a discipline (fiber_scheduler_discipline_create.c:186-221); a second release of the same
address is undefined behaviour. -/
def release (c : Ctx) (a : Nat) : Option Ctx := do
  let _ ← c.mem a
  return { c with mem := fun b => if b = a then none else c.mem b }

/-- Release of the tree of disciplines with the scheduler
(fiber_scheduler_create_with_disciplines.c:499-503): every member once. -/
def releaseTree (c : Ctx) : List Nat → Option Ctx
  | [] => some c
  | a :: as => do
    let c ← release c a
    releaseTree c as

/-! ### Histories -/

/-- `fiber_scheduler_discipline_create` and `fiber_scheduler_discipline_add` (include/rcpr/fiber.h). -/
inductive Op
  | create (a id context : Nat) (cbs : List Nat)
  | add (a : Nat) (ans : Answers)

/-- Runs a history; the second result lists the disciplines for which `add` returned success, in
order. The allocator never hands out an address in use.
Not in the code: a client of the two functions (fiber_scheduler_discipline_create.c, fiber_scheduler_discipline_add.c). -/
def run (c : Ctx) (done : List Nat) : List Op → Option (Ctx × List Nat)
  | [] => some (c, done)
  | .create a id context cbs :: ops =>
    if (c.mem a).isSome then none else run (create c a id context cbs) done ops
  | .add a ans :: ops => do
    let (c, st) ← add true c a ans
    run c (if st = SUCCESS then done ++ [a] else done) ops

end Rcpr.Disc
