import Verif.PsockBr

/-!
Model of writing through a buffered reader (`psock_br_psock_write.c` in `src/psock`), and of programs that use both
directions of a socket through one reader.
-/
namespace Rcpr.Psock

open Rcpr

variable {σ τ : Type}

/-- `psock_br_psock_write` (src/psock/psock_br_psock_write.c:29-53): the write method of the wrapped psock. As in `PsockBr`,
the look-up of its table succeeds. -/
def brWrite (wr : Writer σ) : Writer (BR σ) := fun br d =>
  match wr br.sock d with
  | none => none
  | some (s, st, n) => some ({ br with sock := s }, st, n)

/-- What a program does with a buffered reader: `psock_read` (src/psock/psock_br_psock_read.c), `psock_br_read_line`
(src/psock/psock_br_read_line.c) into a buffer with these contents, `psock_write` (src/psock/psock_br_psock_write.c). -/
inductive DOp
  | read (n : Nat) (block : Bool)
  | line (buf : List Byte)
  | write (d : List Byte)

/-- What it is told by a read: the status, the bytes in the buffer, the size.
Not in the code: a record for the specification. -/
abbrev RAns := Status × List Byte × Nat

/-- One operation: the reader afterwards, what a read has told, what a write has told (status and size).
Not in the code: the functions of src/psock are called in turn. -/
def dstep (rd : Reader σ) (wr : Writer σ) (br : BR σ) : DOp → Option (BR σ × List RAns × List (Status × Nat))
  | .read n b =>
    match brRead rd br n b with
    | none => none
    | some (br, st, d) => some (br, [(st, d, d.length)], [])
  | .line buf =>
    match brReadLine rd br buf with
    | none => none
    | some r => some (r.br, [(r.st, r.out, r.size)], [])
  | .write d =>
    match brWrite wr br d with
    | none => none
    | some (br, st, n) => some (br, [], [(st, n)])

/-- A program: all that was told by reads, and all that was told by writes. Not in the code: see `dstep`. -/
def drun (rd : Reader σ) (wr : Writer σ) : BR σ → List DOp → Option (BR σ × List RAns × List (Status × Nat))
  | br, [] => some (br, [], [])
  | br, o :: os =>
    match dstep rd wr br o with
    | none => none
    | some (br, r, w) =>
      match drun rd wr br os with
      | none => none
      | some (br, r', w') => some (br, r ++ r', w ++ w')

/-- A socket has two directions: a state for reading, and one for writing.
Not in the code: kernel; reading leaves the other direction alone. -/
def onIn (rd : Reader σ) : Reader (σ × τ) := fun s n b =>
  match rd s.1 n b with
  | none => none
  | some (s', st, d) => some ((s', s.2), st, d)

/-- Writing leaves the other direction alone. Not in the code: kernel. -/
def onOut (wr : Writer τ) : Writer (σ × τ) := fun s d =>
  match wr s.2 d with
  | none => none
  | some (t', st, n) => some ((s.1, t'), st, n)

end Rcpr.Psock
