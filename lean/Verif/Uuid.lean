import Verif.Status

/-!
Model of `src/uuid`. A `char*` is the list of bytes that may be read from it onwards; advancing
the pointer drops bytes; reading from the empty list is undefined behaviour (outer `none`).
-/
namespace Rcpr.Uuid

open Rcpr

/-- `char`, `uint8_t` in src/uuid/*.c. -/
abbrev Byte := BitVec 8

/-- Result of the `try_read_*` functions: `none` = read outside the buffer,
`some none` = returned false, `some (some (v, rest))` = returned true. (src/uuid/rcpr_uuid_parse_string.c) -/
abbrev Try (α : Type) := Option (Option (α × List Byte))

/-- `try_read_hex_nibble` (src/uuid/rcpr_uuid_parse_string.c:118-147, identical in
rcpr_uuid_parse_raw_string.c:123-152). The switch labels are listed as ranges. -/
def tryReadHexNibble (str : List Byte) : Try Byte :=
  match str with
  | [] => none
  | c :: rest =>
    if 0x30#8 ≤ c ∧ c ≤ 0x39#8 then some (some (c - 0x30#8, rest))
    else if 0x41#8 ≤ c ∧ c ≤ 0x46#8 then some (some (c - 0x41#8 + 10#8, rest))
    else if 0x61#8 ≤ c ∧ c ≤ 0x66#8 then some (some (c - 0x61#8 + 10#8, rest))
    else some none

/-- `try_read_hex_byte` (rcpr_uuid_parse_string.c:160-181, rcpr_uuid_parse_raw_string.c:165-186). -/
def tryReadHexByte (str : List Byte) : Try Byte :=
  match tryReadHexNibble str with
  | none => none
  | some none => some none
  | some (some (hi, in1)) =>
    match tryReadHexNibble in1 with
    | none => none
    | some none => some none
    | some (some (lo, in2)) => some (some ((hi <<< 4) ||| lo, in2))

/-- `try_read_dash` (rcpr_uuid_parse_string.c:192-209, rcpr_uuid_parse_raw_string.c:197-214). -/
def tryReadDash (str : List Byte) : Try Byte :=
  match str with
  | [] => none
  | c :: rest => if c = 0x2d#8 then some (some (0x2d#8, rest)) else some none

/-- One line of the parser body: read a byte into `uuid->data[i]`, or read a dash.
(rcpr_uuid_parse_string.c:60-95, rcpr_uuid_parse_raw_string.c:68-103) -/
inductive Item
  | byte (i : Nat)
  | dash

/-- The body of the parsers in source order (rcpr_uuid_parse_string.c:60-95,
rcpr_uuid_parse_raw_string.c:68-103). -/
def items : List Item :=
  [.byte 0, .byte 1, .byte 2, .byte 3, .dash, .byte 4, .byte 5, .dash, .byte 6, .byte 7, .dash,
   .byte 8, .byte 9, .dash, .byte 10, .byte 11, .byte 12, .byte 13, .byte 14, .byte 15]

/-- Executes the body; each `if (!try...) goto fail`. `some none` is the `fail` label. A failed
parse may have overwritten part of the uuid; the model does not track those bytes.
(rcpr_uuid_parse_string.c:60-95, rcpr_uuid_parse_raw_string.c:68-103) -/
def exec : List Item → List Byte → List Byte → Try (List Byte)
  | [], data, str => some (some (data, str))
  | .byte i :: is, data, str =>
    match tryReadHexByte str with
    | none => none
    | some none => some none
    | some (some (b, str)) => exec is (data.set i b) str
  | .dash :: is, data, str =>
    match tryReadDash str with
    | none => none
    | some none => some none
    | some (some (_, str)) => exec is data str

/-- Outcome of a parse: status, and on success the uuid's bytes. (include/rcpr/uuid.h) -/
inductive Outcome
  | fail (st : Status)
  | ok (data : List Byte)
  deriving DecidableEq

/-- `rcpr_uuid_parse_string` (src/uuid/rcpr_uuid_parse_string.c:46-105). `none` for the string
argument is the NULL pointer. -/
def parseString (data : List Byte) (str : Option (List Byte)) : Option Outcome :=
  match str with
  | none => some (.fail ERROR_UUID_PARSING_FAILED)
  | some str =>
    match exec items data str with
    | none => none
    | some none => some (.fail ERROR_UUID_PARSING_FAILED)
    | some (some (data, str)) =>
      -- 98: if (0 != *str) goto fail
      match str with
      | [] => none
      | c :: _ => if c ≠ 0#8 then some (.fail ERROR_UUID_PARSING_FAILED) else some (.ok data)

/-- `rcpr_uuid_parse_raw_string` (src/uuid/rcpr_uuid_parse_raw_string.c:51-110). -/
def parseRawString (data : List Byte) (str : Option (List Byte)) (length : BitVec 64) : Option Outcome :=
  match str with
  | none => some (.fail ERROR_UUID_PARSING_FAILED)
  | some str =>
    if 36#64 ≠ length then some (.fail ERROR_UUID_PARSING_FAILED)
    else
      match exec items data str with
      | none => none
      | some none => some (.fail ERROR_UUID_PARSING_FAILED)
      | some (some (data, _)) => some (.ok data)

/-- `low_nibble` (src/uuid/rcpr_uuid_to_string.c:26-29). -/
def lowNibble (b : Byte) : Byte := b &&& 0x0F#8
/-- `high_nibble` (src/uuid/rcpr_uuid_to_string.c:38-41). -/
def highNibble (b : Byte) : Byte := (b &&& 0xF0#8) >>> 4

/-- `nibble_to_hex` (src/uuid/rcpr_uuid_to_string.c:50-71). -/
def nibbleToHex (n : Byte) : Byte :=
  if n ≤ 9#8 then n + 0x30#8 else n - 10#8 + 0x61#8

/-- The two stores for one uuid byte. (src/uuid/rcpr_uuid_to_string.c) -/
def hexPair (b : Byte) : List Byte := [nibbleToHex (highNibble b), nibbleToHex (lowNibble b)]

/-- `rcpr_uuid_to_string` (src/uuid/rcpr_uuid_to_string.c:101-end): the stores `tmp[0]..tmp[36]` in
index order. `alloc` tells whether the allocation succeeds. A uuid that does not have 16
bytes cannot be read (`none`). Result: status and `*str`. -/
def toString (alloc : Bool) (data : List Byte) : Option (Status × Option (List Byte)) :=
  if !alloc then some (ERROR_GENERAL_OUT_OF_MEMORY, none)
  else
    match data with
    | [d0, d1, d2, d3, d4, d5, d6, d7, d8, d9, d10, d11, d12, d13, d14, d15] =>
      some (SUCCESS, some (
        hexPair d0 ++ hexPair d1 ++ hexPair d2 ++ hexPair d3 ++ [0x2d#8] ++
        hexPair d4 ++ hexPair d5 ++ [0x2d#8] ++
        hexPair d6 ++ hexPair d7 ++ [0x2d#8] ++
        hexPair d8 ++ hexPair d9 ++ [0x2d#8] ++
        hexPair d10 ++ hexPair d11 ++ hexPair d12 ++ hexPair d13 ++ hexPair d14 ++ hexPair d15 ++
        [0#8]))
    | _ => none

end Rcpr.Uuid
