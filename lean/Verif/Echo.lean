import Verif.PsockRaw
import Verif.Props.PsockStream

/-!
Model of the fiber of the echo server example: `echo_entry` in `examples/echo_server/src/main.c`.

Simplifications: the release of the context at the end (lines 1168-1175) is in `Verif/EchoLife.lean`.
The loop runs until an error; `echoRun` does a given number of passes.
-/
namespace Rcpr.Echo

open Rcpr Rcpr.Psock

variable {σ : Type}

/-- `sizeof(data)` (examples/echo_server/src/main.c:1137) -/
def dataSize : Nat := 1024

/-- one pass of the loop of `echo_entry` (examples/echo_server/src/main.c:1140-1166): the connection, the
array `data`, and the status with which the loop is left, if it is left. `blk` is `psock_read_block`.
Handing on more than the array holds is undefined. -/
def echoPass (rd : SReader σ) (wr : Writer σ) (blk : σ → Option (σ × Status)) (s : σ) (data : List Byte) :
    Option (σ × List Byte × Option Status) :=
  match readRaw rd s data with
  | none => none
  | some r =>
    if r.st = ERROR_PSOCK_READ_WOULD_BLOCK then
      match blk r.sock with
      | none => none
      | some (s, st) => if st ≠ SUCCESS then some (s, r.buf, some st) else some (s, r.buf, none)
    else if r.st ≠ SUCCESS then some (r.sock, r.buf, some r.st)
    else if r.size > r.buf.length then none
    else
      match writeRawData wr r.sock (r.buf.take r.size) with
      | none => none
      | some (s, st) => if st ≠ SUCCESS then some (s, r.buf, some st) else some (s, r.buf, none)

/-- the loop of `echo_entry` (examples/echo_server/src/main.c:1140-1166) for at most `k` passes -/
def echoRun (rd : SReader σ) (wr : Writer σ) (blk : σ → Option (σ × Status)) :
    Nat → σ → List Byte → Option (σ × List Byte × Option Status)
  | 0, s, data => some (s, data, none)
  | k + 1, s, data =>
    match echoPass rd wr blk s data with
    | none => none
    | some (s, data, some st) => some (s, data, some st)
    | some (s, data, none) => echoRun rd wr blk k s data

/-- a connection of scripted behaviour: what its `read` and `write` calls answer, and what was sent
(src/psock/psock_from_descriptor_read.c, psock_from_descriptor_write.c) -/
abbrev Conn := List REv × (List WEv × List Byte)

/-- the read method of the async psock of a connection (src/psock/psock_wrap_async_read.c:38-116), run until
it returns -/
def connRead : SReader Conn := fun c n b =>
  match withSize sizeAlways asyncRead c.1 n b with
  | none => none
  | some (r, st, d, k) => some ((r, c.2), st, d, k)

/-- the write method of the async psock of a connection (src/psock/psock_wrap_async_write.c:39-106), run
until it returns -/
def connWrite : Writer Conn := fun c d =>
  match asyncWrite c.2 d with
  | none => none
  | some (w, st, n) => some ((c.1, w), st, n)

end Rcpr.Echo
