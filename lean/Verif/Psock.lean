import Verif.Status
import Verif.Bytes

/-!
Model of the raw and boxed reads and writes of `src/psock` over an arbitrary socket.

A socket is given by its `read_fn` and `write_fn`. They may be undefined behaviour (`none`).
`read_fn(data, size, block)` yields the new socket state, the status and the bytes it stored into
`data`; on success `*size` is the number of these bytes (the callers look at `*size` on success
only). `write_fn(data, size)` yields the new state, the status and the new `*size`.

Simplifications: `resource_vtable_read` (a range check on the vtable pointer) succeeds; integers of
either sign are bit patterns; a buffer from the allocator is not addressed but returned as a list,
and `held` says whether it is still allocated when the call returns.
-/
namespace Rcpr.Psock

open Rcpr

/-- A read method (`psock_read_fn`, include/rcpr/psock.h): state, size wanted, whether to block; result: new state, status, the bytes read. `none` is undefined behaviour. -/
abbrev Reader (σ : Type) := σ → Nat → Bool → Option (σ × Status × List Byte)
/-- A write method (`psock_write_fn`, include/rcpr/psock.h:123): state, bytes; result: new state, status, how many were written. `none` is undefined behaviour. -/
abbrev Writer (σ : Type) := σ → List Byte → Option (σ × Status × Nat)

/-- the integer widths of the interface (src/psock/psock_read_raw_int8.c and its like) -/
inductive Width | w8 | w16 | w32 | w64
  deriving DecidableEq

/-- `sizeof`. As in src/psock/psock_read_raw_int8.c and its like. -/
def Width.bytes : Width → Nat
  | .w8 => 1 | .w16 => 2 | .w32 => 4 | .w64 => 8

/-- conversion before writing; 8-bit values are sent as they are
(src/psock/psock_write_raw_int8.c, ..._int16.c, ..._int32.c, ..._int64.c and the unsigned ones) -/
def hton (e : Endian) : (w : Width) → BitVec (8 * w.bytes) → BitVec (8 * w.bytes)
  | .w8, v => v
  | .w16, v => hton16 e v
  | .w32, v => hton32 e v
  | .w64, v => hton64 e v

/-- conversion after reading
(src/psock/psock_read_raw_int8.c, ..._int16.c, ..._int32.c, ..._int64.c and the unsigned ones) -/
def ntoh (e : Endian) : (w : Width) → BitVec (8 * w.bytes) → BitVec (8 * w.bytes)
  | .w8, v => v
  | .w16, v => ntoh16 e v
  | .w32, v => ntoh32 e v
  | .w64, v => ntoh64 e v

variable {σ : Type}

/-- `psock_write_raw_{int,uint}{8,16,32,64}` (src/psock/psock_write_raw_int64.c:48-85 and the seven
files that differ from it in the type and conversion only; the 8-bit ones at 47-83). -/
def writeRawInt (e : Endian) (wr : Writer σ) (s : σ) (w : Width) (val : BitVec (8 * w.bytes)) :
    Option (σ × Status) := do
  let (s, st, size) ← wr s (memBytes e w.bytes (hton e w val))
  if st ≠ SUCCESS then return (s, st)
  if w.bytes ≠ size then return (s, ERROR_PSOCK_WRITE_INVALID_SIZE)
  return (s, SUCCESS)

/-- `psock_write_raw_bool` (src/psock/psock_write_raw_bool.c:45-88) -/
def writeRawBool (wr : Writer σ) (s : σ) (val : Bool) : Option (σ × Status) := do
  let data : Byte := if val then 1 else 0
  let (s, st, size) ← wr s [data]
  if st ≠ SUCCESS then return (s, st)
  if 1 ≠ size then return (s, ERROR_PSOCK_WRITE_INVALID_SIZE)
  return (s, SUCCESS)

/-- the loop of `psock_write_raw_data` (src/psock/psock_write_raw_data.c:70-89); every pass that
does not leave it sends at least one byte, so `data.length + 1` passes are enough. A transport that
claims to have sent more than it was given makes `data_size` wrap: undefined. -/
def writeLoop (wr : Writer σ) : Nat → σ → List Byte → Option (σ × Status × List Byte)
  | 0, _, _ => none
  | fuel + 1, s, data =>
    if data.length = 0 then some (s, SUCCESS, data)
    else match wr s data with
      | none => none
      | some (s, st, size) =>
        if st ≠ SUCCESS then some (s, st, data)
        else if size = 0 then some (s, SUCCESS, data)
        else if size > data.length then none
        else writeLoop wr fuel s (data.drop size)

/-- `psock_write_raw_data` (src/psock/psock_write_raw_data.c:48-99) -/
def writeRawData (wr : Writer σ) (s : σ) (data : List Byte) : Option (σ × Status) := do
  let (s, st, left) ← writeLoop wr (data.length + 1) s data
  if st ≠ SUCCESS then return (s, st)
  if left.length > 0 then return (s, ERROR_PSOCK_WRITE_INVALID_SIZE)
  return (s, SUCCESS)

/-- `psock_read_raw_{int,uint}{8,16,32,64}` (src/psock/psock_read_raw_int64.c:56-97 and the seven
files that differ from it in the type and conversion only; the 8-bit ones at 55-96). `*val` is set
only on success. -/
def readRawInt (e : Endian) (rd : Reader σ) (s : σ) (w : Width) :
    Option (σ × Status × Option (BitVec (8 * w.bytes))) := do
  let (s, st, data) ← rd s w.bytes true
  if st ≠ SUCCESS then return (s, st, none)
  if w.bytes ≠ data.length then return (s, ERROR_PSOCK_READ_INVALID_SIZE, none)
  return (s, SUCCESS, some (ntoh e w (loadMem e (8 * w.bytes) data)))

/-- `psock_read_raw_bool` (src/psock/psock_read_raw_bool.c:53-97) -/
def readRawBool (rd : Reader σ) (s : σ) : Option (σ × Status × Option Bool) := do
  let (s, st, data) ← rd s 1 true
  if st ≠ SUCCESS then return (s, st, none)
  match data with
  | [b] => return (s, SUCCESS, some (if b ≠ 0 then true else false))
  | _ => return (s, ERROR_PSOCK_READ_INVALID_SIZE, none)

/-- the outcome of a read into an allocated buffer: `val` is the buffer handed to the caller,
`held` tells whether the buffer is still allocated
(src/psock/psock_read_raw_data.c, psock_read_boxed_data.c, psock_read_boxed_string.c) -/
structure BufRes (σ : Type) where
  sock : σ
  st : Status
  val : Option (List Byte)
  held : Bool

/-- the loop of `psock_read_raw_data` (src/psock/psock_read_raw_data.c:92-112): state, status, bytes
stored, bytes still missing. `n + 1` passes are enough. -/
def readLoop (rd : Reader σ) : Nat → σ → Nat → List Byte → Option (σ × Status × List Byte × Nat)
  | 0, _, _, _ => none
  | fuel + 1, s, n, acc =>
    if n = 0 then some (s, SUCCESS, acc, 0)
    else match rd s n true with
      | none => none
      | some (s, st, data) =>
        if st ≠ SUCCESS then some (s, st, acc ++ data, n)
        else if data.length = 0 then some (s, SUCCESS, acc, n)
        else if data.length > n then none
        else readLoop rd fuel s (n - data.length) (acc ++ data)

/-- `psock_read_raw_data` (src/psock/psock_read_raw_data.c:60-138). `alloc` and `rec` are the
allocator's answers to the allocation and the reclaim. -/
def readRawData (rd : Reader σ) (s : σ) (n : Nat) (alloc rec : Status) : Option (BufRes σ) := do
  if alloc ≠ SUCCESS then return ⟨s, alloc, none, false⟩
  let (s, st, data, left) ← readLoop rd (n + 1) s n []
  if st ≠ SUCCESS then
    return ⟨s, if st = SUCCESS ∧ rec ≠ SUCCESS then rec else st, none, false⟩
  if left ≠ 0 then return ⟨s, ERROR_PSOCK_READ_INVALID_SIZE, none, false⟩
  return ⟨s, SUCCESS, some data, true⟩

/-- `psock_write_raw_uint32` (src/psock/psock_write_raw_uint32.c) -/
def writeRawU32 (e : Endian) (wr : Writer σ) (s : σ) (val : BitVec 32) : Option (σ × Status) :=
  writeRawInt e wr s .w32 val

/-- `psock_read_raw_uint32` (src/psock/psock_read_raw_uint32.c) -/
def readRawU32 (e : Endian) (rd : Reader σ) (s : σ) : Option (σ × Status × Option (BitVec 32)) :=
  readRawInt e rd s .w32

/-- the boxed types with a fixed-width integer payload (include/rcpr/psock.h:324-331) -/
inductive IntTy | int64 | uint64 | int32 | uint32 | int16 | uint16 | int8 | uint8
  deriving DecidableEq

/-- The size of the payload of each type (src/psock/psock_write_boxed_int64.c and its like). -/
def IntTy.width : IntTy → Width
  | .int64 => .w64 | .uint64 => .w64 | .int32 => .w32 | .uint32 => .w32
  | .int16 => .w16 | .uint16 => .w16 | .int8 => .w8 | .uint8 => .w8

/-- The boxed types (include/rcpr/psock.h:322-335). -/
inductive Ty
  | int (t : IntTy) | bool | string | data
  deriving DecidableEq

/-- `enum psock_boxed_type` (include/rcpr/psock.h:322-335) -/
def Ty.code : Ty → BitVec 32
  | .int .int64 => 0x10 | .int .uint64 => 0x11 | .int .int32 => 0x12 | .int .uint32 => 0x13
  | .int .int16 => 0x14 | .int .uint16 => 0x15 | .int .int8 => 0x16 | .int .uint8 => 0x17
  | .bool => 0x18 | .string => 0x20 | .data => 0x22

/-- `UINT32_MAX`. As in src/psock/psock_write_boxed_string.c:57. -/
def uint32Max : Nat := 2 ^ 32 - 1

/-- `psock_write_boxed_T` for the eight integer types
(src/psock/psock_write_boxed_int64.c:45-60 and seven like it) -/
def writeBoxedInt (e : Endian) (wr : Writer σ) (s : σ) (t : IntTy)
    (val : BitVec (8 * t.width.bytes)) : Option (σ × Status) := do
  let (s, st) ← writeRawU32 e wr s (Ty.int t).code
  if st ≠ SUCCESS then return (s, st)
  writeRawInt e wr s t.width val

/-- `psock_write_boxed_bool` (src/psock/psock_write_boxed_bool.c:43-58) -/
def writeBoxedBool (e : Endian) (wr : Writer σ) (s : σ) (val : Bool) : Option (σ × Status) := do
  let (s, st) ← writeRawU32 e wr s Ty.bool.code
  if st ≠ SUCCESS then return (s, st)
  writeRawBool wr s val

/-- `psock_write_boxed_string` (src/psock/psock_write_boxed_string.c:45-102). The argument is the
contents of the C string, without its terminator. -/
def writeBoxedString (e : Endian) (wr : Writer σ) (s : σ) (val : List Byte) :
    Option (σ × Status) := do
  let len := val.length
  if len ≥ uint32Max then return (s, ERROR_PSOCK_WRITE_INVALID_SIZE)
  let (s, st) ← writeRawU32 e wr s Ty.string.code
  if st ≠ SUCCESS then return (s, st)
  let (s, st) ← writeRawU32 e wr s (BitVec.ofNat 32 len)
  if st ≠ SUCCESS then return (s, st)
  let (s, st, size) ← wr s val
  if st ≠ SUCCESS then return (s, st)
  if len ≠ size then return (s, ERROR_PSOCK_WRITE_INVALID_SIZE)
  return (s, SUCCESS)

/-- `psock_write_boxed_data` (src/psock/psock_write_boxed_data.c:47-98); the size is cut to 32 bits
on the wire. -/
def writeBoxedData (e : Endian) (wr : Writer σ) (s : σ) (val : List Byte) :
    Option (σ × Status) := do
  let (s, st) ← writeRawU32 e wr s Ty.data.code
  if st ≠ SUCCESS then return (s, st)
  let (s, st) ← writeRawU32 e wr s (BitVec.ofNat 32 val.length)
  if st ≠ SUCCESS then return (s, st)
  let (s, st, size) ← wr s val
  if st ≠ SUCCESS then return (s, st)
  if val.length ≠ size then return (s, ERROR_PSOCK_WRITE_INVALID_SIZE)
  return (s, SUCCESS)

/-- `psock_read_boxed_T` for the eight integer types
(src/psock/psock_read_boxed_int64.c:53-76 and seven like it) -/
def readBoxedInt (e : Endian) (rd : Reader σ) (s : σ) (t : IntTy) :
    Option (σ × Status × Option (BitVec (8 * t.width.bytes))) := do
  let (s, st, ty) ← readRawU32 e rd s
  if st ≠ SUCCESS then return (s, st, none)
  if some (Ty.int t).code ≠ ty then return (s, ERROR_PSOCK_READ_BOXED_INVALID_TYPE, none)
  readRawInt e rd s t.width

/-- `psock_read_boxed_bool` (src/psock/psock_read_boxed_bool.c:53-76) -/
def readBoxedBool (e : Endian) (rd : Reader σ) (s : σ) : Option (σ × Status × Option Bool) := do
  let (s, st, ty) ← readRawU32 e rd s
  if st ≠ SUCCESS then return (s, st, none)
  if some Ty.bool.code ≠ ty then return (s, ERROR_PSOCK_READ_BOXED_INVALID_TYPE, none)
  readRawBool rd s

/-- `psock_read_boxed_string` (src/psock/psock_read_boxed_string.c:65-158). `val` is the buffer,
terminator included; `*length` is one less than its length. `size + 1` cannot wrap in 32 bits because
of the check in line 101. -/
def readBoxedString (e : Endian) (rd : Reader σ) (s : σ) (alloc rec : Status) :
    Option (BufRes σ) := do
  let (s, st, ty) ← readRawU32 e rd s
  if st ≠ SUCCESS then return ⟨s, st, none, false⟩
  if some Ty.string.code ≠ ty then return ⟨s, ERROR_PSOCK_READ_BOXED_INVALID_TYPE, none, false⟩
  let (s, st, size) ← readRawU32 e rd s
  if st ≠ SUCCESS then return ⟨s, st, none, false⟩
  let size ← size
  if uint32Max = size.toNat then return ⟨s, ERROR_PSOCK_READ_BOXED_INVALID_SIZE, none, false⟩
  if alloc ≠ SUCCESS then return ⟨s, alloc, none, false⟩
  let (s, st, data) ← rd s size.toNat true
  if st ≠ SUCCESS then
    return ⟨s, if st = SUCCESS ∧ rec ≠ SUCCESS then rec else st, none, false⟩
  if data.length ≠ size.toNat then return ⟨s, ERROR_PSOCK_READ_INVALID_SIZE, none, false⟩
  return ⟨s, SUCCESS, some (data ++ [0]), true⟩

/-- `psock_read_boxed_data` (src/psock/psock_read_boxed_data.c:64-148). `*data_size` is the length
of `val`. -/
def readBoxedData (e : Endian) (rd : Reader σ) (s : σ) (alloc rec : Status) :
    Option (BufRes σ) := do
  let (s, st, ty) ← readRawU32 e rd s
  if st ≠ SUCCESS then return ⟨s, st, none, false⟩
  if some Ty.data.code ≠ ty then return ⟨s, ERROR_PSOCK_READ_BOXED_INVALID_TYPE, none, false⟩
  let (s, st, size) ← readRawU32 e rd s
  if st ≠ SUCCESS then return ⟨s, st, none, false⟩
  let size ← size
  if alloc ≠ SUCCESS then return ⟨s, alloc, none, false⟩
  let (s, st, data) ← rd s size.toNat true
  if st ≠ SUCCESS then
    return ⟨s, if st = SUCCESS ∧ rec ≠ SUCCESS then rec else st, none, false⟩
  if data.length ≠ size.toNat then return ⟨s, ERROR_PSOCK_READ_INVALID_SIZE, none, false⟩
  return ⟨s, SUCCESS, some data, true⟩

/-! One name for all boxed types, used to speak of sequences of values. -/

/-- a value of a boxed type; a string is given without its terminator (include/rcpr/psock.h:322-335) -/
inductive Val
  | int (t : IntTy) (v : BitVec (8 * t.width.bytes))
  | bool (b : Bool)
  | string (s : List Byte)
  | data (d : List Byte)
  deriving DecidableEq

/-- The type under which a value is written (include/rcpr/psock.h:322-335). -/
def Val.ty : Val → Ty
  | .int t _ => .int t | .bool _ => .bool | .string _ => .string | .data _ => .data

/-- the write call for a value (src/psock/psock_write_boxed_*.c) -/
def writeBoxed (e : Endian) (wr : Writer σ) (s : σ) : Val → Option (σ × Status)
  | .int t v => writeBoxedInt e wr s t v
  | .bool b => writeBoxedBool e wr s b
  | .string v => writeBoxedString e wr s v
  | .data v => writeBoxedData e wr s v

/-- the outcome of a read call for a given type: a string is what a C program sees up to the first
NUL, so `strlen` is used here (src/psock/psock_read_boxed_*.c) -/
def readBoxed (e : Endian) (rd : Reader σ) (s : σ) (alloc rec : Status) :
    Ty → Option (σ × Status × Option Val)
  | .int t => (readBoxedInt e rd s t).map fun (s, st, v) => (s, st, v.map (.int t))
  | .bool => (readBoxedBool e rd s).map fun (s, st, v) => (s, st, v.map .bool)
  | .string => (readBoxedString e rd s alloc rec).map fun r =>
      (r.sock, r.st, r.val.map fun b => .string (b.takeWhile (· ≠ 0)))
  | .data => (readBoxedData e rd s alloc rec).map fun r => (r.sock, r.st, r.val.map .data)

end Rcpr.Psock
