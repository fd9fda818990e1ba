/-!
Integers in memory and the byte-order conversions of `src/socket_utilities`.

`byteswapN` (include/rcpr/byteswap.h:27-60) are macros for the platform's swap macros. The model
uses the shift-and-mask expansion of the C library's `<byteswap.h>` generic definitions (`bswap_16`,
`bswap_32`, `bswap_64`), which are outside the repository. Signed and unsigned variants act on the
same bit patterns.
-/
namespace Rcpr

/-- `uint8_t`, as sent by the functions of src/psock/psock_write_raw_*.c. -/
abbrev Byte := BitVec 8

/-- byte order of the host (`__BIG_ENDIAN__` defined or not)
As tested in src/socket_utilities/socket_utility_hton16.c:26 and its like. -/
inductive Endian | little | big
  deriving DecidableEq

/-- `byteswap16` (include/rcpr/byteswap.h:29; the macro of the C library). -/
def bswap16 (x : BitVec 16) : BitVec 16 := ((x >>> 8) &&& 0xff#16) ||| ((x &&& 0xff#16) <<< 8)

/-- `byteswap32` (include/rcpr/byteswap.h:30; the macro of the C library). -/
def bswap32 (x : BitVec 32) : BitVec 32 :=
  ((x &&& 0xff000000#32) >>> 24) ||| ((x &&& 0x00ff0000#32) >>> 8) |||
  ((x &&& 0x0000ff00#32) <<< 8) ||| ((x &&& 0x000000ff#32) <<< 24)

/-- `byteswap64` (include/rcpr/byteswap.h:31; the macro of the C library). -/
def bswap64 (x : BitVec 64) : BitVec 64 :=
  ((x &&& 0xff00000000000000#64) >>> 56) ||| ((x &&& 0x00ff000000000000#64) >>> 40) |||
  ((x &&& 0x0000ff0000000000#64) >>> 24) ||| ((x &&& 0x000000ff00000000#64) >>> 8) |||
  ((x &&& 0x00000000ff000000#64) <<< 8) ||| ((x &&& 0x0000000000ff0000#64) <<< 24) |||
  ((x &&& 0x000000000000ff00#64) <<< 40) ||| ((x &&& 0x00000000000000ff#64) <<< 56)

/-- The CBMC stand-in for `byteswap64` (old_models/shadow/byteswap/byteswap64.c:4-17), used only when
model checking. -/
def shadowByteswap64 (x : BitVec 64) : BitVec 64 :=
  ((x &&& 0x00000000000000FF#64) <<< 56) ||| ((x &&& 0x000000000000FF00#64) <<< 40) |||
  ((x &&& 0x0000000000FF0000#64) <<< 16) ||| ((x &&& 0x00000000FF000000#64) <<< 8) |||
  ((x &&& 0x000000FF00000000#64) >>> 8) ||| ((x &&& 0x0000FF0000000000#64) >>> 16) |||
  ((x &&& 0x00FF000000000000#64) >>> 40) ||| ((x &&& 0xFF00000000000000#64) >>> 56)

/-- `socket_utility_hton16` (src/socket_utilities/socket_utility_hton16.c:22-31) -/
def hton16 (e : Endian) (v : BitVec 16) : BitVec 16 := match e with | .big => v | .little => bswap16 v
/-- `socket_utility_hton32` (src/socket_utilities/socket_utility_hton32.c:22-31) -/
def hton32 (e : Endian) (v : BitVec 32) : BitVec 32 := match e with | .big => v | .little => bswap32 v
/-- `socket_utility_hton64` (src/socket_utilities/socket_utility_hton64.c:22-31) -/
def hton64 (e : Endian) (v : BitVec 64) : BitVec 64 := match e with | .big => v | .little => bswap64 v
/-- `socket_utility_ntoh16` (src/socket_utilities/socket_utility_ntoh16.c:22-31) -/
def ntoh16 (e : Endian) (v : BitVec 16) : BitVec 16 := match e with | .big => v | .little => bswap16 v
/-- `socket_utility_ntoh32` (src/socket_utilities/socket_utility_ntoh32.c:22-31) -/
def ntoh32 (e : Endian) (v : BitVec 32) : BitVec 32 := match e with | .big => v | .little => bswap32 v
/-- `socket_utility_ntoh64` (src/socket_utilities/socket_utility_ntoh64.c:22-31) -/
def ntoh64 (e : Endian) (v : BitVec 64) : BitVec 64 := match e with | .big => v | .little => bswap64 v

/-- the `n` bytes of a value, least significant first.
Not in the code: how a processor stores the variable whose address src/psock/psock_write_raw_int16.c and its like pass to `write_fn`. -/
def bytesLE (n : Nat) {w : Nat} (v : BitVec w) : List Byte :=
  (List.range n).map (fun k => v.extractLsb' (8 * k) 8)

/-- the representation of an `n`-byte integer in the memory of a host. Not in the code: see `bytesLE`. -/
def memBytes (e : Endian) (n : Nat) {w : Nat} (v : BitVec w) : List Byte :=
  match e with
  | .little => bytesLE n v
  | .big => (bytesLE n v).reverse

/-- number denoted by bytes, least significant first. Not in the code: the inverse of `bytesLE`. -/
def natLE : List Byte → Nat
  | [] => 0
  | b :: bs => b.toNat + 256 * natLE bs

/-- the integer a host loads from memory bytes.
Not in the code: how a processor loads the variable that src/psock/psock_read_raw_int16.c and its like have read into. -/
def loadMem (e : Endian) (w : Nat) (bs : List Byte) : BitVec w :=
  match e with
  | .little => BitVec.ofNat w (natLE bs)
  | .big => BitVec.ofNat w (natLE bs.reverse)

/-! ### Lemmas -/

@[simp] theorem bytesLE_length (n : Nat) {w : Nat} (v : BitVec w) : (bytesLE n v).length = n := by
  simp [bytesLE]

@[simp] theorem memBytes_length (e : Endian) (n : Nat) {w : Nat} (v : BitVec w) :
    (memBytes e n v).length = n := by
  cases e <;> simp [memBytes]

theorem natLE_append (a b : List Byte) : natLE (a ++ b) = natLE a + 256 ^ a.length * natLE b := by
  induction a with
  | nil => simp [natLE]
  | cons x a ih =>
    simp only [List.cons_append, natLE, ih, List.length_cons, Nat.pow_succ]
    rw [Nat.mul_add, ← Nat.mul_assoc, Nat.mul_comm (256 ^ a.length) 256, Nat.add_assoc]

theorem natLE_bytesLE (n : Nat) {w : Nat} (v : BitVec w) :
    natLE (bytesLE n v) = v.toNat % 256 ^ n := by
  induction n with
  | zero => simp [bytesLE, natLE, Nat.mod_one]
  | succ n ih =>
    have : bytesLE (n + 1) v = bytesLE n v ++ [v.extractLsb' (8 * n) 8] := by
      simp [bytesLE, List.range_succ]
    rw [this, natLE_append, ih, bytesLE_length]
    simp only [natLE, BitVec.extractLsb'_toNat, Nat.mul_zero, Nat.add_zero, Nat.shiftRight_eq_div_pow]
    rw [Nat.pow_succ 256 n, Nat.mod_mul, Nat.pow_mul]

theorem load_mem (e : Endian) (n : Nat) (v : BitVec (8 * n)) :
    loadMem e (8 * n) (memBytes e n v) = v := by
  have h : BitVec.ofNat (8 * n) (natLE (bytesLE n v)) = v := by
    rw [natLE_bytesLE, show (256 : Nat) = 2 ^ 8 from rfl, ← Nat.pow_mul, Nat.mod_eq_of_lt v.isLt]
    simp
  cases e
  · exact h
  · simp only [loadMem, memBytes, List.reverse_reverse]; exact h

theorem bytesLE_inj {n : Nat} {a b : BitVec (8 * n)} (h : bytesLE n a = bytesLE n b) : a = b := by
  have h1 := load_mem .little n a
  have h2 := load_mem .little n b
  simp only [memBytes] at h1 h2
  rw [← h1, ← h2, h]

theorem byte_ext {a b : Byte} (h : a.getLsbD 0 = b.getLsbD 0 ∧ a.getLsbD 1 = b.getLsbD 1 ∧
    a.getLsbD 2 = b.getLsbD 2 ∧ a.getLsbD 3 = b.getLsbD 3 ∧ a.getLsbD 4 = b.getLsbD 4 ∧
    a.getLsbD 5 = b.getLsbD 5 ∧ a.getLsbD 6 = b.getLsbD 6 ∧ a.getLsbD 7 = b.getLsbD 7) : a = b := by
  obtain ⟨h0, h1, h2, h3, h4, h5, h6, h7⟩ := h
  apply BitVec.eq_of_getLsbD_eq
  intro i hi
  have : i = 0 ∨ i = 1 ∨ i = 2 ∨ i = 3 ∨ i = 4 ∨ i = 5 ∨ i = 6 ∨ i = 7 := by omega
  rcases this with rfl | rfl | rfl | rfl | rfl | rfl | rfl | rfl <;> assumption

local macro "byteproof" f:ident : tactic => `(tactic| (
  apply byte_ext
  refine ⟨?_, ?_, ?_, ?_, ?_, ?_, ?_, ?_⟩ <;> simp [$f:ident]))

theorem bytes_bswap16 (v : BitVec 16) : bytesLE 2 (bswap16 v) = (bytesLE 2 v).reverse := by
  have h0 : (bswap16 v).extractLsb' 0 8 = v.extractLsb' 8 8 := by byteproof bswap16
  have h1 : (bswap16 v).extractLsb' 8 8 = v.extractLsb' 0 8 := by byteproof bswap16
  simp only [bytesLE, List.range_succ, List.range_zero, List.nil_append, List.map_append,
    List.map_cons, List.map_nil, Nat.mul_zero, Nat.mul_one, h0, h1, List.reverse_append,
    List.reverse_cons, List.reverse_nil, List.singleton_append, List.cons_append]

theorem bytes_bswap32 (v : BitVec 32) : bytesLE 4 (bswap32 v) = (bytesLE 4 v).reverse := by
  have h0 : (bswap32 v).extractLsb' (8 * 0) 8 = v.extractLsb' (8 * 3) 8 := by byteproof bswap32
  have h1 : (bswap32 v).extractLsb' (8 * 1) 8 = v.extractLsb' (8 * 2) 8 := by byteproof bswap32
  have h2 : (bswap32 v).extractLsb' (8 * 2) 8 = v.extractLsb' (8 * 1) 8 := by byteproof bswap32
  have h3 : (bswap32 v).extractLsb' (8 * 3) 8 = v.extractLsb' (8 * 0) 8 := by byteproof bswap32
  simp only [bytesLE, List.range_succ, List.range_zero, List.nil_append, List.map_append,
    List.map_cons, List.map_nil, h0, h1, h2, h3, List.reverse_append,
    List.reverse_cons, List.reverse_nil, List.singleton_append, List.cons_append]

theorem bytes_bswap64 (v : BitVec 64) : bytesLE 8 (bswap64 v) = (bytesLE 8 v).reverse := by
  have h0 : (bswap64 v).extractLsb' (8 * 0) 8 = v.extractLsb' (8 * 7) 8 := by byteproof bswap64
  have h1 : (bswap64 v).extractLsb' (8 * 1) 8 = v.extractLsb' (8 * 6) 8 := by byteproof bswap64
  have h2 : (bswap64 v).extractLsb' (8 * 2) 8 = v.extractLsb' (8 * 5) 8 := by byteproof bswap64
  have h3 : (bswap64 v).extractLsb' (8 * 3) 8 = v.extractLsb' (8 * 4) 8 := by byteproof bswap64
  have h4 : (bswap64 v).extractLsb' (8 * 4) 8 = v.extractLsb' (8 * 3) 8 := by byteproof bswap64
  have h5 : (bswap64 v).extractLsb' (8 * 5) 8 = v.extractLsb' (8 * 2) 8 := by byteproof bswap64
  have h6 : (bswap64 v).extractLsb' (8 * 6) 8 = v.extractLsb' (8 * 1) 8 := by byteproof bswap64
  have h7 : (bswap64 v).extractLsb' (8 * 7) 8 = v.extractLsb' (8 * 0) 8 := by byteproof bswap64
  simp only [bytesLE, List.range_succ, List.range_zero, List.nil_append, List.map_append,
    List.map_cons, List.map_nil, h0, h1, h2, h3, h4, h5, h6, h7, List.reverse_append,
    List.reverse_cons, List.reverse_nil, List.singleton_append, List.cons_append]

theorem bswap16_bswap16 (v : BitVec 16) : bswap16 (bswap16 v) = v :=
  bytesLE_inj (n := 2) (by rw [bytes_bswap16, bytes_bswap16, List.reverse_reverse])
theorem bswap32_bswap32 (v : BitVec 32) : bswap32 (bswap32 v) = v :=
  bytesLE_inj (n := 4) (by rw [bytes_bswap32, bytes_bswap32, List.reverse_reverse])
theorem bswap64_bswap64 (v : BitVec 64) : bswap64 (bswap64 v) = v :=
  bytesLE_inj (n := 8) (by rw [bytes_bswap64, bytes_bswap64, List.reverse_reverse])

end Rcpr
