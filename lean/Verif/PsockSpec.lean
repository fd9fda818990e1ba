import Verif.Psock
import Verif.Props.Bytes

/-! Specification of byte-stream sockets and of the wire format. -/
namespace Rcpr.Psock

open Rcpr

/-- `n` bytes, most significant first -/
def be : Nat → Nat → List Byte
  | 0, _ => []
  | n + 1, x => be n (x / 256) ++ [BitVec.ofNat 8 x]

/-- wire format of a boxed value: 32-bit type code; then the big-endian integer, or one byte 0/1, or
the 32-bit length and the contents -/
def encode : Val → List Byte
  | .int t v => be 4 (Ty.int t).code.toNat ++ be t.width.bytes v.toNat
  | .bool b => be 4 Ty.bool.code.toNat ++ [if b then 1 else 0]
  | .string s => be 4 Ty.string.code.toNat ++ (be 4 s.length ++ s)
  | .data d => be 4 Ty.data.code.toNat ++ (be 4 d.length ++ d)

/-- what the interface accepts: C strings, data whose length fits in 32 bits -/
def Val.Valid : Val → Prop
  | .string s => (0 : Byte) ∉ s ∧ s.length < 2 ^ 32 - 1
  | .data d => d.length < 2 ^ 32
  | _ => True

/-- an empty string or empty data -/
def Val.Empty : Val → Prop
  | .string s => s = []
  | .data d => d = []
  | _ => False

variable {σ : Type}

/-- A reader over a byte stream: in the states `Ok`, `rest` is what is still to come; every read
delivers a prefix of it that fits the request. It may deliver less than asked for, and it may fail
at any time. -/
structure StreamReader (rd : Reader σ) (Ok : σ → Prop) (rest : σ → List Byte) : Prop where
  total : ∀ s n b, Ok s → (rd s n b).isSome
  step : ∀ s n b s' st d, Ok s → rd s n b = some (s', st, d) →
    Ok s' ∧ d.length ≤ n ∧ rest s = d ++ rest s'

/-- A blocking read delivers all it was asked for when that much is still to come. -/
def Full (rd : Reader σ) (Ok : σ → Prop) (rest : σ → List Byte) : Prop :=
  ∀ s n, Ok s → 0 < n → n ≤ (rest s).length → ∃ s' d, rd s n true = some (s', SUCCESS, d) ∧
    d.length = n

/-- reading zero bytes succeeds in this state -/
def ZeroReadOk (rd : Reader σ) (s : σ) : Prop := ∃ s', rd s 0 true = some (s', SUCCESS, [])

/-- A writer onto a byte stream: `out` is what has been sent; a successful write sends as many bytes
as it reports, from the front. -/
structure StreamWriter (wr : Writer σ) (Ok : σ → Prop) (out : σ → List Byte) : Prop where
  total : ∀ s d, Ok s → (wr s d).isSome
  step : ∀ s d s' n, Ok s → wr s d = some (s', SUCCESS, n) →
    Ok s' ∧ n ≤ d.length ∧ out s' = out s ++ d.take n

/-- every write succeeds completely -/
def FullW (wr : Writer σ) (Ok : σ → Prop) : Prop :=
  ∀ s d, Ok s → ∃ s', wr s d = some (s', SUCCESS, d.length)

/-! ### Lemmas about the wire format -/

theorem be_length (n x : Nat) : (be n x).length = n := by
  induction n generalizing x with
  | zero => rfl
  | succ n ih => simp [be, ih]

theorem be_eq (n x : Nat) :
    ((List.range n).map (fun k => BitVec.ofNat 8 (x / 256 ^ k))).reverse = be n x := by
  induction n generalizing x with
  | zero => rfl
  | succ n ih =>
    rw [List.range_succ_eq_map, be, ← ih (x / 256)]
    simp only [List.map_cons, List.map_map, List.reverse_cons, Nat.pow_zero, Nat.div_one]
    congr 2
    apply List.map_congr_left
    intro k _
    simp only [Function.comp, Nat.succ_eq_add_one, Nat.pow_succ]
    rw [Nat.div_div_eq_div_mul, Nat.mul_comm]

theorem bytesLE_be (n : Nat) {w : Nat} (v : BitVec w) : (bytesLE n v).reverse = be n v.toNat := by
  rw [← be_eq]; congr 1
  apply List.map_congr_left
  intro k _
  apply BitVec.eq_of_toNat_eq
  simp only [BitVec.extractLsb'_toNat, BitVec.toNat_ofNat, Nat.shiftRight_eq_div_pow]
  rw [show (256 : Nat) = 2 ^ 8 from rfl, ← Nat.pow_mul]

/-- what is sent for an integer is its big-endian representation, on both kinds of hosts -/
theorem wire_be (e : Endian) (w : Width) (v : BitVec (8 * w.bytes)) :
    memBytes e w.bytes (hton e w v) = be w.bytes v.toNat := by
  cases w <;> cases e
  · show bytesLE 1 v = be 1 v.toNat
    rw [← bytesLE_be]; rfl
  · show (bytesLE 1 v).reverse = be 1 v.toNat
    rw [← bytesLE_be]
  · show bytesLE 2 (bswap16 v) = be 2 v.toNat
    exact (bytes_bswap16 v).trans (bytesLE_be 2 (w := 16) v)
  · show (bytesLE 2 v).reverse = be 2 v.toNat
    rw [← bytesLE_be]
  · show bytesLE 4 (bswap32 v) = be 4 v.toNat
    exact (bytes_bswap32 v).trans (bytesLE_be 4 (w := 32) v)
  · show (bytesLE 4 v).reverse = be 4 v.toNat
    rw [← bytesLE_be]
  · show bytesLE 8 (bswap64 v) = be 8 v.toNat
    exact (bytes_bswap64 v).trans (bytesLE_be 8 (w := 64) v)
  · show (bytesLE 8 v).reverse = be 8 v.toNat
    rw [← bytesLE_be]

theorem ntoh_hton' (e : Endian) (w : Width) (v : BitVec (8 * w.bytes)) : ntoh e w (hton e w v) = v := by
  cases w
  · rfl
  · exact (ntoh_hton e v 0 0).1
  · exact (ntoh_hton e 0 v 0).2.1
  · exact (ntoh_hton e 0 0 v).2.2.1

theorem decode_be (e : Endian) (w : Width) (v : BitVec (8 * w.bytes)) :
    ntoh e w (loadMem e (8 * w.bytes) (be w.bytes v.toNat)) = v := by
  rw [← wire_be e, load_mem, ntoh_hton']

/-- every byte string of the right length is the representation of some integer -/
theorem be_surj (n : Nat) (d : List Byte) (h : d.length = n) : ∃ v : BitVec (8 * n), d = be n v.toNat := by
  subst h
  refine ⟨BitVec.ofNat _ (natBE d), ?_⟩
  have key : ∀ (m : Nat) (d : List Byte), d.length = m → natBE d < 256 ^ m ∧ be m (natBE d) = d := by
    intro m
    induction m with
    | zero => intro d hd; simp [List.length_eq_zero_iff.1 hd, natBE, be]
    | succ m ih =>
      intro d hd
      obtain ⟨l, b, rfl⟩ : ∃ l b, d = l ++ [b] := by
        rcases List.eq_nil_or_concat d with rfl | ⟨l, b, rfl⟩
        · simp at hd
        · exact ⟨l, b, by simp⟩
      have hl : l.length = m := by simpa using hd
      obtain ⟨h1, h2⟩ := ih l hl
      have hb : b.toNat < 256 := b.isLt
      have e : natBE (l ++ [b]) = 256 * natBE l + b.toNat := by simp [natBE]
      rw [e]
      refine ⟨by rw [Nat.pow_succ]; omega, ?_⟩
      rw [be, show (256 * natBE l + b.toNat) / 256 = natBE l by omega, h2]
      congr 2
      apply BitVec.eq_of_toNat_eq
      rw [BitVec.toNat_ofNat]; omega
  obtain ⟨h1, h2⟩ := key d.length d rfl
  rw [BitVec.toNat_ofNat, Nat.pow_mul, show (2 : Nat) ^ 8 = 256 from rfl, Nat.mod_eq_of_lt h1, h2]

theorem append_inj' {a b c d : List Byte} (h : a ++ b = c ++ d) (hl : a.length = c.length) :
    a = c ∧ b = d := List.append_inj h hl

end Rcpr.Psock
