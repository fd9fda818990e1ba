import Verif.PsockBr

/-!
Model of `psock_read_raw` (`src/psock/psock_read_raw.c`), the non-blocking read, with what the read
methods do to `*size` when they fail: `psock_read_raw` looks at `*size` after `ERROR_PSOCK_READ_WOULD_BLOCK`
as well as after success.

Simplifications: as in `Verif/Psock.lean`.
-/
namespace Rcpr.Psock

open Rcpr

variable {σ : Type}

/-- A read method (`psock_read_fn`, include/rcpr/psock.h:90-91) with all it leaves in its arguments: new
state, status, the bytes stored at the front of the buffer, and the value of `*size`. -/
abbrev SReader (σ : Type) := σ → Nat → Bool → Option (σ × Status × List Byte × Nat)

/-- A read method together with the value it leaves in `*size`, as a function of the status, the bytes
stored and the size asked for. Not in the code: the way the methods below are written. -/
def withSize (sz : Status → List Byte → Nat → Nat) (rd : Reader σ) : SReader σ := fun s n b =>
  match rd s n b with
  | none => none
  | some (s, st, d) => some (s, st, d, sz st d n)

/-- `*size` is set on success only. As in src/psock/psock_from_descriptor_read.c:61-62. -/
def sizeOnSuccess (st : Status) (d : List Byte) (n : Nat) : Nat := if st = SUCCESS then d.length else n

/-- `*size` is the number of bytes stored, also on failure. As in src/psock/psock_wrap_async_read.c:68,110. -/
def sizeAlways (_ : Status) (d : List Byte) (_ : Nat) : Nat := d.length

/-- `psock_from_descriptor_read` (src/psock/psock_from_descriptor_read.c:47-67): `*size` is set on success
only. -/
def fdReadS : SReader (List REv) := withSize sizeOnSuccess fdRead

/-- `psock_from_buffer_read` (src/psock/psock_from_buffer_read.c:48-69): `*size` is set after the test for
the end of the buffer. -/
def pbReadS : SReader PB := withSize sizeOnSuccess pbRead

/-- `psock_wrap_async_read` (src/psock/psock_wrap_async_read.c:66-115): `*size` is zero at first and grows
with every byte stored. -/
def waReadS (rd : Reader σ) (blk : σ → Option (σ × Status)) (fuel : Nat) : SReader σ :=
  withSize sizeAlways (waRead rd blk fuel)

/-- `psock_br_psock_read` (src/psock/psock_br_psock_read.c:45-99): `*size` is `read_bytes` on success and
on failure (lines 59 and 95). -/
def brReadS (rd : Reader σ) : SReader (BR σ) := withSize sizeAlways (brRead rd)

/-- What `psock_read_raw` leaves: the state of the socket, its status, the caller's buffer, `*data_size`. -/
structure Raw (σ : Type) where
  sock : σ
  st : Status
  buf : List Byte
  size : Nat
deriving DecidableEq

/-- `psock_read_raw` (src/psock/psock_read_raw.c:59-100) into the buffer `buf`, with `*data_size` its
length. Bytes stored past the end of the buffer are undefined behaviour. -/
def readRaw (rd : SReader σ) (s : σ) (buf : List Byte) : Option (Raw σ) :=
  match rd s buf.length false with
  | none => none
  | some (s, st, d, size) =>
    if d.length > buf.length then none
    else if st = ERROR_PSOCK_READ_WOULD_BLOCK then
      some ⟨s, ERROR_PSOCK_READ_WOULD_BLOCK, d ++ buf.drop d.length, size⟩
    else if st ≠ SUCCESS then some ⟨s, st, d ++ buf.drop d.length, buf.length⟩
    else some ⟨s, SUCCESS, d ++ buf.drop d.length, size⟩

end Rcpr.Psock
