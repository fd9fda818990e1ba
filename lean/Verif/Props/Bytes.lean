import Verif.Bytes

/-! Property C41: byte order conversions. -/
namespace Rcpr

/-- the number written by bytes, most significant first -/
def natBE (bs : List Byte) : Nat := bs.foldl (fun acc b => 256 * acc + b.toNat) 0

theorem natBE_reverse (bs : List Byte) : natBE bs.reverse = natLE bs := by
  induction bs with
  | nil => rfl
  | cons b bs ih =>
    simp only [natBE, List.reverse_cons, List.foldl_append, List.foldl_cons, List.foldl_nil] at *
    rw [ih, natLE]; omega

/-- C41: converting to network order and back gives the value, on both byte orders; the other way
round too. -/
theorem ntoh_hton (e : Endian) (a : BitVec 16) (b : BitVec 32) (c : BitVec 64) :
    ntoh16 e (hton16 e a) = a ∧ ntoh32 e (hton32 e b) = b ∧ ntoh64 e (hton64 e c) = c ∧
    hton16 e (ntoh16 e a) = a ∧ hton32 e (ntoh32 e b) = b ∧ hton64 e (ntoh64 e c) = c := by
  cases e <;> simp [ntoh16, hton16, ntoh32, hton32, ntoh64, hton64, bswap16_bswap16,
    bswap32_bswap32, bswap64_bswap64]

/-- C41: in the memory of either kind of host, a converted value is laid out in big-endian order:
the most significant byte first, and the bytes denote the value. -/
theorem hton_big_endian (e : Endian) (a : BitVec 16) (b : BitVec 32) (c : BitVec 64) :
    ((memBytes e 2 (hton16 e a)).length = 2 ∧ natBE (memBytes e 2 (hton16 e a)) = a.toNat) ∧
    ((memBytes e 4 (hton32 e b)).length = 4 ∧ natBE (memBytes e 4 (hton32 e b)) = b.toNat) ∧
    ((memBytes e 8 (hton64 e c)).length = 8 ∧ natBE (memBytes e 8 (hton64 e c)) = c.toNat) := by
  have ha : a.toNat < 256 ^ 2 := a.isLt
  have hb : b.toNat < 256 ^ 4 := b.isLt
  have hc : c.toNat < 256 ^ 8 := c.isLt
  cases e <;>
  simp only [memBytes, hton16, hton32, hton64, bytes_bswap16, bytes_bswap32, bytes_bswap64,
    natBE_reverse, natLE_bytesLE, List.length_reverse, bytesLE_length, Nat.mod_eq_of_lt ha,
    Nat.mod_eq_of_lt hb, Nat.mod_eq_of_lt hc, and_self]

/-- The model-checking stand-in for `byteswap64` in `old_models` does not swap bytes: it is not
even injective. It is not part of the library. -/
theorem shadow_byteswap64_wrong :
    shadowByteswap64 0x0000000000010000#64 = shadowByteswap64 0x0000000001000000#64 ∧
    bswap64 0x0000000000010000#64 ≠ bswap64 0x0000000001000000#64 := by decide

example : memBytes .little 4 (hton32 .little 0x01020304#32) = [1, 2, 3, 4] := by decide
example : memBytes .big 4 (hton32 .big 0x01020304#32) = [1, 2, 3, 4] := by decide

end Rcpr
