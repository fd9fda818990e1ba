import Verif.Malloc

/-!
What the allocator API promises (include/rcpr/allocator.h), without addresses: each variable of the client
holds no region or a region with contents of its own.
-/
namespace Rcpr.Malloc

open Rcpr

/-- The regions the client owns: for each variable, the bytes of its region; `none` for a byte never
written. -/
abbrev Regions := Nat → Option (List (Option UInt8))

def put (R : Regions) (i : Nat) (c : Option (List (Option UInt8))) : Regions := fun j => if j = i then c else R j

/-- Contents after resizing: kept up to the smaller size. -/
def resize (c : List (Option UInt8)) (n : Nat) : List (Option UInt8) :=
  c.take n ++ List.replicate (n - c.length) none

/-- What the documentation lets a client do. -/
inductive Permitted (R : Regions) : Cmd → Prop
  | alloc {i n} (h : R i = none) : Permitted R (.alloc i n)
  | realloc {i n c} (h : R i = some c) : Permitted R (.realloc i n)
  | reclaim {i c} (h : R i = some c) : Permitted R (.reclaim i)
  | control {k} : Permitted R (.control k)
  | write {i off b c} (h : R i = some c) (ho : off < c.length) : Permitted R (.write i off b)
  | read {i off c} (h : R i = some c) (ho : off < c.length) : Permitted R (.read i off)

/-- What the documentation promises of one command. -/
inductive Step (R : Regions) : Cmd → Obs → Regions → Prop
  | allocOk {i n} (h : R i = none) :
    Step R (.alloc i n) (.alloc SUCCESS false) (put R i (some (List.replicate n none)))
  | allocFail {i n} (h : R i = none) :
    Step R (.alloc i n) (.alloc ERROR_GENERAL_OUT_OF_MEMORY true) R
  | reallocOk {i n c same} (h : R i = some c) :
    Step R (.realloc i n) (.realloc SUCCESS same) (put R i (some (resize c n)))
  | reallocFail {i n c} (h : R i = some c) :
    Step R (.realloc i n) (.realloc ERROR_GENERAL_OUT_OF_MEMORY true) R
  | reclaim {i c} (h : R i = some c) : Step R (.reclaim i) (.status SUCCESS) (put R i none)
  | control {k} : Step R (.control k) (.status ERROR_GENERAL_CONTROL_KEY_INVALID) R
  | write {i off b c} (h : R i = some c) (ho : off < c.length) :
    Step R (.write i off b) .wrote (put R i (some (c.set off (some b))))
  | readWritten {i off b c} (h : R i = some c) (ho : c[off]? = some (some b)) :
    Step R (.read i off) (.byte b) R
  | readUnwritten {i off b c} (h : R i = some c) (ho : c[off]? = some none) :
    Step R (.read i off) (.byte b) R

/-- A history, newest first, that keeps the promises. -/
inductive Spec (R₀ : Regions) : List (Cmd × Obs) → Regions → Prop
  | nil : Spec R₀ [] R₀
  | cons {hist R c o R'} (h : Spec R₀ hist R) (hs : Step R c o R') : Spec R₀ ((c, o) :: hist) R'

/-- Nothing allocated yet. -/
def empty : Regions := fun _ => none

/-- A client that does what it is permitted to do whenever the allocator has kept its promises so far. -/
def Careful (f : List (Cmd × Obs) → Option Cmd) : Prop :=
  ∀ hist R c, Spec empty hist R → f hist = some c → Permitted R c

/-- The answers that the C standard allows: a block that does not overlap any other (for `realloc`: any other
than the one being resized). -/
def Legal (bs : List Block) (n : Nat) (w : Ans) : Prop :=
  ∀ a, w.addr = some a → a ≠ 0 ∧ ∀ x, Block.has (a, n) x = true → owned bs x = false

/-- Legal answers to a command. -/
def LegalFor (s : St) (c : Cmd) (w : Ans) : Prop :=
  match c with
  | .alloc _ n => Legal s.heap.live n w
  | .realloc i n => Legal (s.heap.live.filter (·.1 != s.vars i)) n w
  | _ => True

/-- The library gives legal answers along the run. -/
def LegalRun (zf : Bool) (f : List (Cmd × Obs) → Option Cmd) (env : List (Cmd × Obs) → Ans) :
    Nat → St → List (Cmd × Obs) → Prop
  | 0, _, _ => True
  | n + 1, s, hist =>
    ∀ c, f hist = some c → LegalFor s c (env hist) ∧
      ∀ s' o, exec zf s c (env hist) = some (s', o) → LegalRun zf f env n s' ((c, o) :: hist)

/-- The client never resizes to 0 bytes. -/
def NoZero (f : List (Cmd × Obs) → Option Cmd) : Prop := ∀ hist i n, f hist = some (.realloc i n) → n ≠ 0

/-- Blocks do not overlap. -/
def Disjoint (b b' : Block) : Prop := ∀ x, b.has x = true → b'.has x = false

/-- What the client can rely on between commands. -/
structure Rel (R : Regions) (s : St) : Prop where
  /-- blocks do not overlap -/
  apart : s.heap.live.Pairwise Disjoint
  /-- the allocator is one of them -/
  alloc : (s.alloc, SIZEOF_ALLOCATOR) ∈ s.heap.live
  alloc0 : s.alloc ≠ 0
  /-- a region is a block of its own, with its contents -/
  held : ∀ i c, R i = some c → s.vars i ≠ 0 ∧ s.vars i ≠ s.alloc ∧ (s.vars i, c.length) ∈ s.heap.live ∧
    ∀ j b, c[j]? = some (some b) → s.heap.mem (s.vars i + j) = b
  /-- different variables, different blocks -/
  inj : ∀ i j c d, R i = some c → R j = some d → s.vars i = s.vars j → i = j
  /-- nothing else is allocated -/
  all : ∀ b ∈ s.heap.live, b.1 = s.alloc ∨ ∃ i c, R i = some c ∧ b.1 = s.vars i

end Rcpr.Malloc
