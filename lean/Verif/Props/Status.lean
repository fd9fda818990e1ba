import Verif.Status

/-! Properties of the status codes (C43). -/
namespace Rcpr

/-- The reader's view of a status: error flag, component, reason
(independent of how the macro assembles it). -/
def decodeStatus (s : Status) : Bool × Nat × Nat :=
  (s.toNat / 2 ^ 31 = 1, s.toNat / 2 ^ 15 % 2 ^ 16, s.toNat % 2 ^ 15)

theorem statusCode_toNat (c r : Nat) (hc : c < 2 ^ 16) (hr : r < 2 ^ 15) :
    (statusCode 1#32 (BitVec.ofNat 32 c) (BitVec.ofNat 32 r)).toNat
      = 2 ^ 31 + c * 2 ^ 15 + r := by
  have h1 : (BitVec.ofNat 32 c &&& 0x0000FFFF#32).toNat = c := by
    rw [BitVec.toNat_and]
    simp only [BitVec.toNat_ofNat]
    rw [show (65535 % 2 ^ 32) = 2 ^ 16 - 1 by decide, Nat.and_two_pow_sub_one_eq_mod]
    omega
  have h2 : (BitVec.ofNat 32 r &&& 0x00007FFF#32).toNat = r := by
    rw [BitVec.toNat_and]
    simp only [BitVec.toNat_ofNat]
    rw [show (32767 % 2 ^ 32) = 2 ^ 15 - 1 by decide, Nat.and_two_pow_sub_one_eq_mod]
    omega
  unfold statusCode
  rw [BitVec.toNat_or, BitVec.toNat_or, h2, BitVec.toNat_shiftLeft, h1]
  have h3 : (c <<< 15) % 2 ^ 32 = 2 ^ 15 * c := by
    rw [Nat.shiftLeft_eq]; omega
  rw [h3]
  have h4 : ((if 1#32 = 1#32 then (-1 : BitVec 32) else 0#32) &&& ~~~0x7FFFFFFF#32).toNat
      = 2 ^ 31 * 1 := by decide
  rw [h4, ← Nat.two_pow_add_eq_or_of_lt (by omega : 2 ^ 15 * c < 2 ^ 31),
    show 2 ^ 31 * 1 + 2 ^ 15 * c = 2 ^ 15 * (2 ^ 16 + c) by omega,
    ← Nat.two_pow_add_eq_or_of_lt hr]
  omega

/-- C43, general part: the encoding of (component, reason) into an error status
loses nothing, for every 16-bit component and 15-bit reason: the three fields can be read back. -/
theorem status_code_decodes (c r : Nat) (hc : c < 2 ^ 16) (hr : r < 2 ^ 15) :
    decodeStatus (statusCode 1#32 (BitVec.ofNat 32 c) (BitVec.ofNat 32 r)) = (true, c, r) := by
  unfold decodeStatus
  rw [statusCode_toNat c r hc hr]
  refine Prod.ext ?_ (Prod.ext ?_ ?_)
  · simp only [decide_eq_true_eq]; omega
  · simp only; omega
  · simp only; omega

/-- C43: codes built from different (component, reason) pairs differ, and no error code is success. -/
theorem status_code_injective (c r c' r' : Nat) (hc : c < 2 ^ 16) (hr : r < 2 ^ 15)
    (hc' : c' < 2 ^ 16) (hr' : r' < 2 ^ 15)
    (h : statusCode 1#32 (BitVec.ofNat 32 c) (BitVec.ofNat 32 r)
       = statusCode 1#32 (BitVec.ofNat 32 c') (BitVec.ofNat 32 r')) : c = c' ∧ r = r' := by
  have h1 := status_code_decodes c r hc hr
  rw [h, status_code_decodes c' r' hc' hr'] at h1
  simp only [Prod.mk.injEq, true_and] at h1
  exact ⟨h1.1.symm, h1.2.symm⟩

theorem status_code_ne_success (c r : Nat) (hc : c < 2 ^ 16) (hr : r < 2 ^ 15) :
    statusCode 1#32 (BitVec.ofNat 32 c) (BitVec.ofNat 32 r) ≠ SUCCESS := by
  intro h
  have := statusCode_toNat c r hc hr
  rw [h] at this
  simp [SUCCESS] at this
  omega

/-- C43, the complete finite table: no two of the library's named error codes share a value. -/
theorem all_errors_distinct : (allErrors.map (fun e => e.2.1)).Nodup := by decide +kernel

/-- C43: every named error code is not success and carries its declared component and reason. -/
theorem all_errors_wellformed :
    ∀ e ∈ allErrors, e.2.1 ≠ SUCCESS ∧
      decodeStatus e.2.1 = (true, e.2.2.1.toNat, e.2.2.2.toNat) := by decide +kernel

example : allErrors.length = 75 := by decide
example : decodeStatus ERROR_PSOCK_READ_EOF = (true, 4, 0x11) := by decide
example : ERROR_RBTREE_NOT_FOUND ≠ ERROR_GENERAL_OUT_OF_MEMORY := by decide

end Rcpr
