import Verif.Status

/-!
Model of `src/string`. A buffer is the list of bytes of one C object; pointers into it are
indices. Every access is checked against the length of the buffer; an access outside is undefined
behaviour (`none`). The C type `char` may be signed or unsigned: `sg` is a parameter.
-/
namespace Rcpr.Str

open Rcpr

/-- `char` in src/string/*.c. -/
abbrev Byte := BitVec 8
/-- An array of `char` in src/string/*.c; an index outside is undefined. -/
abbrev Buf := List Byte

/-- load. `*(b + i)` in src/string/*.c -/
def rd (b : Buf) (i : Nat) : Option Byte := b[i]?

/-- store. `*(b + i) = v` in src/string/*.c -/
def wr (b : Buf) (i : Nat) (v : Byte) : Option Buf := if i < b.length then some (b.set i v) else none

/-- integer promotion of a `char`. As in the call `rcpr_is_whitespace(*tmp)` in src/string/left_trim.c:35. -/
def promote (sg : Bool) (c : Byte) : Int := if sg then c.toInt else c.toNat

/-- the loop `while (p(*str)) ++str`. As in src/string/left_trim.c, words.c, multisplit.c. -/
def scanWhile (b : Buf) (p : Byte → Bool) (i : Nat) : Option Nat :=
  if h : i < b.length then
    if p b[i] then scanWhile b p (i + 1) else some i
  else none
termination_by b.length - i

/-- `strlen` of the C library, from index `i`. As called in src/string/strdup.c and others. -/
def strlen (b : Buf) (i : Nat) : Option Nat := do
  let e ← scanWhile b (fun c => c ≠ 0#8) i
  return e - i

/-- `memmove(dst, src, n)` inside one buffer. As called in src/string/left_trim.c:53. -/
def memmove (b : Buf) (dst src n : Nat) : Option Buf :=
  if src + n ≤ b.length ∧ dst + n ≤ b.length then
    some (b.take dst ++ (b.drop src).take n ++ b.drop (dst + n))
  else none

/-- `memcpy(dst + off, src, n)` between two buffers. As called in src/string/strdup.c, vstrcat.c. -/
def memcpy (dst : Buf) (off : Nat) (src : Buf) (n : Nat) : Option Buf :=
  if n ≤ src.length ∧ off + n ≤ dst.length then
    some (dst.take off ++ src.take n ++ dst.drop (off + n))
  else none

/-- `is_whitespace` (src/string/is_whitespace.c:19-34). -/
def isWhitespace (ch : Int) : Bool :=
  ch == 9 || ch == 10 || ch == 11 || ch == 12 || ch == 13 || ch == 32

/-- `chomp` (src/string/chomp.c:22-43). -/
def chomp (b : Buf) : Option Buf := do
  let c ← rd b 0
  if c = 0#8 then return b
  let e ← scanWhile b (fun c => c ≠ 0#8) 0
  wr b (e - 1) 0#8

/-- `ends_with` (src/string/ends_with.c:22-49). -/
def endsWith (sg : Bool) (b : Buf) (ch : Int) : Option Bool := do
  let c ← rd b 0
  if c = 0#8 then return false
  let e ← scanWhile b (fun c => c ≠ 0#8) 0
  let c ← rd b (e - 1)
  return promote sg c == ch

/-- `left_trim` (src/string/left_trim.c:28-56). -/
def leftTrim (sg : Bool) (b : Buf) : Option Buf := do
  let tmp ← scanWhile b (fun c => isWhitespace (promote sg c)) 0
  let eos ← scanWhile b (fun c => c ≠ 0#8) tmp
  memmove b 0 tmp (eos - tmp + 1)

/-- The backwards loop of `right_trim` (src/string/right_trim.c:48-51). -/
def scanBack (sg : Bool) (b : Buf) : Nat → Option Nat
  | 0 => some 0
  | i + 1 => do
    let c ← rd b (i + 1)
    if isWhitespace (promote sg c) then scanBack sg b i else some (i + 1)

/-- `right_trim` (src/string/right_trim.c:28-82). -/
def rightTrim (sg : Bool) (b : Buf) : Option Buf := do
  let e ← scanWhile b (fun c => c ≠ 0#8) 0
  let tmp := if e ≠ 0 then e - 1 else e
  let tmp ← scanBack sg b tmp
  if tmp = 0 then
    let c ← rd b tmp
    if c = 0#8 then return b
    if isWhitespace (promote sg c) then wr b tmp 0#8
    else wr b (tmp + 1) 0#8
  else wr b (tmp + 1) 0#8

/-- `trim` (src/string/trim.c:29-38). -/
def trim (sg : Bool) (b : Buf) : Option Buf := do
  let b ← rightTrim sg b
  leftTrim sg b

/-- What one iterator call yields: status, `*seq` (`none` = NULL), buffer and `startpos`.
(src/string/words.c, multisplit.c) -/
structure Piece where
  st : Status
  seq : Option Nat
  buf : Buf
  start : Nat

/-- `multisplit` after the initialisation of the iterator (src/string/multisplit.c:76-113), with
`startpos = start`. The iterator is initialised with `startpos = str`, that is index 0
(68-74). `token_fn` is a pure function on promoted characters. -/
def multisplit (sg : Bool) (tok : Int → Bool) (b : Buf) (start : Nat) : Option Piece := do
  -- 78-79
  let s ← scanWhile b (fun c => c ≠ 0#8 && tok (promote sg c)) start
  let c ← rd b s
  if c = 0#8 then return ⟨ERROR_STRING_END_OF_INPUT, none, b, s⟩
  let seq := s
  -- 94-95
  let s ← scanWhile b (fun c => c ≠ 0#8 && !tok (promote sg c)) (s + 1)
  let c ← rd b s
  if c ≠ 0#8 then
    let b ← wr b s 0#8
    return ⟨SUCCESS, some seq, b, s + 1⟩
  else return ⟨SUCCESS, some seq, b, s⟩

/-- `words` (src/string/words.c:67-104). -/
def words (sg : Bool) (b : Buf) (start : Nat) : Option Piece := do
  let s ← scanWhile b (fun c => c ≠ 0#8 && isWhitespace (promote sg c)) start
  let c ← rd b s
  if c = 0#8 then return ⟨ERROR_STRING_END_OF_INPUT, none, b, s⟩
  let seq := s
  let s ← scanWhile b (fun c => c ≠ 0#8 && !isWhitespace (promote sg c)) (s + 1)
  let c ← rd b s
  if c ≠ 0#8 then
    let b ← wr b s 0#8
    return ⟨SUCCESS, some seq, b, s + 1⟩
  else return ⟨SUCCESS, some seq, b, s⟩

/-- A client loop: call the iterator until it stops reporting success, collecting the returned
pointers. Result: the pointers and what the last call gave.
Not in the code: a client of src/string/words.c, multisplit.c. -/
def collect (next : Buf → Nat → Option Piece) : Nat → Buf → Nat → Option (List Nat × Piece)
  | 0, _, _ => none
  | fuel + 1, b, start => do
    let p ← next b start
    match p.seq with
    | none => return ([], p)
    | some q =>
      if p.st ≠ SUCCESS then return ([], p)
      let (qs, last) ← collect next fuel p.buf p.start
      return (q :: qs, last)

/-- Result of `split`: status, `*lhs`, `*rhs`, buffer. (src/string/split.c) -/
structure SplitRes where
  st : Status
  lhs : Option Nat
  rhs : Option Nat
  buf : Buf

/-- `split` (src/string/split.c:33-69). -/
def split (sg : Bool) (b : Buf) (delim : Int) : Option SplitRes := do
  let s ← scanWhile b (fun c => c ≠ 0#8 && promote sg c != delim) 0
  let c ← rd b s
  if c = 0#8 then return ⟨ERROR_STRING_END_OF_INPUT, none, none, b⟩
  let b ← wr b s 0#8
  return ⟨SUCCESS, some 0, some (s + 1), b⟩

/-- `memcmp(a, b, n) == 0`. As called in src/string/starts_with.c:55. -/
def memeq (a b : Buf) (n : Nat) : Option Bool :=
  if n ≤ a.length ∧ n ≤ b.length then some (a.take n == b.take n) else none

/-- `starts_with` (src/string/starts_with.c:22-69); `none` is NULL. -/
def startsWith (str substr : Option Buf) : Option Bool :=
  match substr with
  | none => some true
  | some t =>
    match str with
    | none => some false
    | some s => do
      let n ← strlen s 0
      let k ← strlen t 0
      if n < k then return false
      let eq ← memeq s t k
      if eq then return true
      return false

/-- `strdup` (src/string/strdup.c:30-77) with a non-NULL `output`. `alloc` is the allocator (`none`
= NULL): given a size it either fails or returns the initial contents of the new block. The
result is the status and `*output`. -/
def strdup (alloc : Option (Nat → Status × Option Buf)) (input : Option Buf) :
    Option (Status × Option Buf) :=
  match alloc, input with
  | some alloc, some input => do
    let len ← strlen input 0
    match alloc (len + 1) with
    | (st, none) => return (st, none)
    | (_, some tmp) =>
      let tmp ← memcpy tmp 0 input len
      let tmp ← wr tmp len 0#8
      return (SUCCESS, some tmp)
  | _, _ => some (ERROR_STRING_INVALID_PARAMETER, none)

/-- `vstrcat`, first loop (src/string/vstrcat.c:46-50): `size += strlen(arg)` modulo 2^64. -/
def catSize : BitVec 64 → List Buf → Option (BitVec 64)
  | size, [] => some size
  | size, arg :: args => do
    let n ← strlen arg 0
    catSize (size + BitVec.ofNat 64 n) args

/-- `vstrcat`, second loop (src/string/vstrcat.c:62-68). -/
def catCopy : Buf → Nat → List Buf → Option (Buf × Nat)
  | tmp, offset, [] => some (tmp, offset)
  | tmp, offset, arg :: args => do
    let n ← strlen arg 0
    let tmp ← memcpy tmp offset arg n
    catCopy tmp (offset + n) args

/-- `vstrcat` (src/string/vstrcat.c:33-81): the arguments up to the terminating NULL. On failure
`*output` is not written; the result shows `none`. -/
def vstrcat (alloc : Nat → Status × Option Buf) (args : List Buf) : Option (Status × Option Buf) := do
  let size ← catSize 1#64 args
  match alloc size.toNat with
  | (st, none) => return (st, none)
  | (_, some tmp) =>
    let (tmp, offset) ← catCopy tmp 0 args
    let tmp ← wr tmp offset 0#8
    return (SUCCESS, some tmp)

end Rcpr.Str
