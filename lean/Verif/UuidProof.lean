import Verif.Uuid

/-! Text grammar of uuids and supporting lemmas. -/
namespace Rcpr.Uuid

/-! ### Specification -/

/-- ASCII codes of `0123456789abcdef` -/
def lowerDigits : List Byte :=
  [0x30, 0x31, 0x32, 0x33, 0x34, 0x35, 0x36, 0x37, 0x38, 0x39, 0x61, 0x62, 0x63, 0x64, 0x65, 0x66]
/-- ASCII codes of `0123456789ABCDEF` -/
def upperDigits : List Byte :=
  [0x30, 0x31, 0x32, 0x33, 0x34, 0x35, 0x36, 0x37, 0x38, 0x39, 0x41, 0x42, 0x43, 0x44, 0x45, 0x46]

/-- numeric value of a hexadecimal digit -/
def digitValue (c : Byte) : Option Nat :=
  match lowerDigits.idxOf? c with
  | some v => some v
  | none => upperDigits.idxOf? c

/-- `Hex ds bs`: the digit string `ds` spells the bytes `bs`, two digits per byte, high digit
first. -/
inductive Hex : List Byte → List Byte → Prop
  | nil : Hex [] []
  | cons {a b ds bs x y} (ha : digitValue a = some x) (hb : digitValue b = some y) (h : Hex ds bs) :
      Hex (a :: b :: ds) (BitVec.ofNat 8 (16 * x + y) :: bs)

/-- The textual form of a uuid: groups of 4, 2, 2, 2 and 6 bytes in hexadecimal joined by dashes. -/
def UuidText (text data : List Byte) : Prop :=
  ∃ g1 g2 g3 g4 g5 b1 b2 b3 b4 b5,
    Hex g1 b1 ∧ Hex g2 b2 ∧ Hex g3 b3 ∧ Hex g4 b4 ∧ Hex g5 b5 ∧
    b1.length = 4 ∧ b2.length = 2 ∧ b3.length = 2 ∧ b4.length = 2 ∧ b5.length = 6 ∧
    text = g1 ++ [0x2d#8] ++ g2 ++ [0x2d#8] ++ g3 ++ [0x2d#8] ++ g4 ++ [0x2d#8] ++ g5 ∧
    data = b1 ++ b2 ++ b3 ++ b4 ++ b5

/-! ### Lemmas -/

/-- the nibble reader as a function of one character -/
def nib (c : Byte) : Option Byte :=
  if 0x30#8 ≤ c ∧ c ≤ 0x39#8 then some (c - 0x30#8)
  else if 0x41#8 ≤ c ∧ c ≤ 0x46#8 then some (c - 0x41#8 + 10#8)
  else if 0x61#8 ≤ c ∧ c ≤ 0x66#8 then some (c - 0x61#8 + 10#8)
  else none

theorem nib_table : ∀ i : Fin 256,
    nib (BitVec.ofFin i) = (digitValue (BitVec.ofFin i)).map (BitVec.ofNat 8) := by decide +kernel

theorem nib_eq (c : Byte) : nib c = (digitValue c).map (BitVec.ofNat 8) := nib_table c.toFin

theorem digit_bound_table : ∀ i : Fin 256, ∀ v ∈ digitValue (BitVec.ofFin i), v < 16 := by decide +kernel

theorem digit_lt {c : Byte} {v : Nat} (h : digitValue c = some v) : v < 16 :=
  digit_bound_table c.toFin v h

theorem nibbles_table : ∀ x y : Fin 16,
    ((BitVec.ofNat 8 x) <<< 4 ||| (BitVec.ofNat 8 y)) = BitVec.ofNat 8 (16 * x + y) := by decide +kernel

theorem nibbles {x y : Nat} (hx : x < 16) (hy : y < 16) :
    ((BitVec.ofNat 8 x) <<< 4 ||| (BitVec.ofNat 8 y)) = BitVec.ofNat 8 (16 * x + y) :=
  nibbles_table ⟨x, hx⟩ ⟨y, hy⟩

theorem digit_zero : digitValue 0#8 = none := by decide

theorem tryNibble_cons (c : Byte) (rest : List Byte) :
    tryReadHexNibble (c :: rest) = some ((nib c).map (fun v => (v, rest))) := by
  simp only [tryReadHexNibble, nib]
  split
  · rfl
  · split
    · rfl
    · split <;> rfl

/-- `try_read_hex_byte` in terms of the specification's digits -/
theorem tryHexByte_ok {s r : List Byte} {b : Byte} :
    tryReadHexByte s = some (some (b, r)) ↔
      ∃ c d x y, s = c :: d :: r ∧ digitValue c = some x ∧ digitValue d = some y ∧
        b = BitVec.ofNat 8 (16 * x + y) := by
  constructor
  · intro h
    match s with
    | [] => simp [tryReadHexByte, tryReadHexNibble] at h
    | c :: s =>
      cases hc : digitValue c with
      | none => simp [tryReadHexByte, tryNibble_cons, nib_eq, hc] at h
      | some x =>
        match s with
        | [] =>
          have h0 : tryReadHexNibble [] = none := rfl
          simp [tryReadHexByte, tryNibble_cons, nib_eq, hc, h0] at h
        | d :: s =>
          cases hd : digitValue d with
          | none => simp [tryReadHexByte, tryNibble_cons, nib_eq, hc, hd] at h
          | some y =>
            simp [tryReadHexByte, tryNibble_cons, nib_eq, hc, hd] at h
            obtain ⟨h1, h2⟩ := h
            refine ⟨c, d, x, y, by rw [h2], hc, hd, ?_⟩
            rw [← nibbles (digit_lt hc) (digit_lt hd), ← h1]
  · rintro ⟨c, d, x, y, rfl, hc, hd, rfl⟩
    rw [← nibbles (digit_lt hc) (digit_lt hd)]
    simp [tryReadHexByte, tryNibble_cons, nib_eq, hc, hd]

theorem tryDash_ok {s r : List Byte} {b : Byte} :
    tryReadDash s = some (some (b, r)) ↔ s = 0x2d#8 :: r ∧ b = 0x2d#8 := by
  cases s with
  | nil => simp [tryReadDash]
  | cons c s =>
    simp only [tryReadDash]
    split
    · rename_i h; subst h; simp; constructor <;> rintro ⟨rfl, rfl⟩ <;> simp
    · rename_i h; simp [h]

theorem exec_byte_ok {i : Nat} {is : List Item} {data s d r : List Byte} :
    exec (.byte i :: is) data s = some (some (d, r)) ↔
      ∃ a b x y s', s = a :: b :: s' ∧ digitValue a = some x ∧ digitValue b = some y ∧
        exec is (data.set i (BitVec.ofNat 8 (16 * x + y))) s' = some (some (d, r)) := by
  simp only [exec]
  constructor
  · intro h
    split at h
    · simp at h
    · simp at h
    · rename_i b s' hb
      obtain ⟨c, e, x, y, h1, h2, h3, h4⟩ := tryHexByte_ok.1 hb
      exact ⟨c, e, x, y, s', h1, h2, h3, h4 ▸ h⟩
  · rintro ⟨c, e, x, y, s', h1, h2, h3, h4⟩
    rw [tryHexByte_ok.2 ⟨c, e, x, y, h1, h2, h3, rfl⟩]
    exact h4

theorem exec_dash_ok {is : List Item} {data s d r : List Byte} :
    exec (.dash :: is) data s = some (some (d, r)) ↔
      ∃ s', s = 0x2d#8 :: s' ∧ exec is data s' = some (some (d, r)) := by
  simp only [exec]
  constructor
  · intro h
    split at h
    · simp at h
    · simp at h
    · rename_i b s' hb
      exact ⟨s', (tryDash_ok.1 hb).1, h⟩
  · rintro ⟨s', h1, h2⟩
    rw [tryDash_ok.2 ⟨h1, rfl⟩]; exact h2

theorem exec_nil_ok {data s d r : List Byte} :
    exec [] data s = some (some (d, r)) ↔ d = data ∧ r = s := by
  simp [exec, eq_comm]

/-- number of characters an item list reads -/
def width : List Item → Nat
  | [] => 0
  | .byte _ :: is => 2 + width is
  | .dash :: is => 1 + width is

/-- With enough characters available nothing is read outside the buffer. -/
theorem exec_defined_long : ∀ (is : List Item) (data s : List Byte), width is ≤ s.length →
    exec is data s ≠ none
  | [], data, s, _ => by simp [exec]
  | .byte i :: is, data, s, h => by
    match s with
    | [] => simp [width] at h
    | [a] => simp [width] at h; omega
    | a :: b :: s =>
      simp only [exec, tryReadHexByte, tryNibble_cons]
      cases nib a with
      | none => simp
      | some x =>
        simp only [Option.map_some, tryNibble_cons]
        cases nib b with
        | none => simp
        | some y => simpa using exec_defined_long is _ s (by simp [width] at h; omega)
  | .dash :: is, data, s, h => by
    match s with
    | [] => simp [width] at h
    | a :: s =>
      simp only [exec, tryReadDash]
      by_cases ha : a = 0x2d#8
      · simpa [ha] using exec_defined_long is data s (by simp [width] at h; omega)
      · simp [ha]

/-- On a NUL-terminated string nothing after the terminator is read: the outcome does not depend on
what follows, and the remaining pointer never passes the terminator. -/
theorem exec_terminated (rest : List Byte) : ∀ (is : List Item) (data t : List Byte), 0#8 ∉ t →
    exec is data (t ++ 0#8 :: rest) = some none ∨
    ∃ d t', exec is data (t ++ 0#8 :: rest) = some (some (d, t' ++ 0#8 :: rest)) ∧ 0#8 ∉ t' ∧
      t'.length ≤ t.length
  | [], data, t, h => .inr ⟨data, t, rfl, h, Nat.le_refl _⟩
  | .byte i :: is, data, t, h => by
    have hz : nib 0#8 = none := by decide
    match t with
    | [] => left; simp [exec, tryReadHexByte, tryNibble_cons, hz]
    | [a] =>
      left
      cases ha : nib a <;> simp [exec, tryReadHexByte, tryNibble_cons, hz, ha]
    | a :: b :: t =>
      simp only [exec, tryReadHexByte, List.cons_append, tryNibble_cons]
      cases nib a with
      | none => simp
      | some x =>
        simp only [Option.map_some, tryNibble_cons]
        cases nib b with
        | none => simp
        | some y =>
          simp only [Option.map_some]
          have := exec_terminated rest is (data.set i (x <<< 4 ||| y)) t (by simp at h; exact h.2.2)
          rcases this with h1 | ⟨d, t', h1, h2, h3⟩
          · exact .inl h1
          · exact .inr ⟨d, t', h1, h2, by simp; omega⟩
  | .dash :: is, data, t, h => by
    match t with
    | [] => left; simp [exec, tryReadDash]
    | a :: t =>
      simp only [exec, tryReadDash, List.cons_append]
      by_cases ha : a = 0x2d#8
      · simp only [ha, if_true]
        have := exec_terminated rest is data t (by simp at h; exact h.2)
        rcases this with h1 | ⟨d, t', h1, h2, h3⟩
        · exact .inl h1
        · exact .inr ⟨d, t', h1, h2, by simp; omega⟩
      · simp [ha]

/-- consecutive byte items from index `k` on -/
def byteItems : Nat → Nat → List Item
  | _, 0 => []
  | k, n + 1 => .byte k :: byteItems (k + 1) n

/-- A group of `n` byte items reads `2n` digits and stores the bytes they spell. -/
theorem exec_bytes {is : List Item} {d r : List Byte} : ∀ (n k : Nat) (don tl s : List Byte),
    don.length = k → n ≤ tl.length →
    (exec (byteItems k n ++ is) (don ++ tl) s = some (some (d, r)) ↔
      ∃ ds bs s', s = ds ++ s' ∧ Hex ds bs ∧ bs.length = n ∧
        exec is (don ++ bs ++ tl.drop n) s' = some (some (d, r)))
  | 0, k, don, tl, s, _, _ => by
    simp only [byteItems, List.nil_append, List.drop_zero]
    constructor
    · intro h; exact ⟨[], [], s, rfl, .nil, rfl, by simpa using h⟩
    · rintro ⟨ds, bs, s', rfl, h1, h2, h3⟩
      cases h1 with
      | nil => simpa using h3
      | cons => simp at h2
  | n + 1, k, don, [], s, _, h => by simp at h
  | n + 1, k, don, t :: tl, s, hk, h => by
    simp only [byteItems, List.cons_append, exec_byte_ok]
    have hset : ∀ v, (don ++ t :: tl).set k v = (don ++ [v]) ++ tl := by
      intro v; subst hk; simp
    have ih := fun v s' => exec_bytes (is := is) (d := d) (r := r) n (k + 1) (don ++ [v]) tl s'
      (by simp [hk]) (by simpa using h)
    constructor
    · rintro ⟨a, b, x, y, s', rfl, ha, hb, h1⟩
      rw [hset, ih] at h1
      obtain ⟨ds, bs, s'', rfl, h2, h3, h4⟩ := h1
      exact ⟨a :: b :: ds, _ :: bs, s'', rfl, .cons ha hb h2, by simp [h3], by simpa using h4⟩
    · rintro ⟨ds, bs, s', rfl, h1, h2, h3⟩
      cases h1 with
      | nil => simp at h2
      | @cons a b ds bs x y ha hb h1 =>
        refine ⟨a, b, x, y, ds ++ s', rfl, ha, hb, ?_⟩
        rw [hset, ih]
        exact ⟨ds, bs, s', rfl, h1, by simpa using h2, by simpa using h3⟩

theorem items_eq : items = byteItems 0 4 ++ (.dash :: (byteItems 4 2 ++ (.dash :: (byteItems 6 2 ++
    (.dash :: (byteItems 8 2 ++ (.dash :: (byteItems 10 6 ++ [])))))))) := rfl

/-- The parser body succeeds exactly on a uuid text followed by the remaining characters. -/
theorem exec_items {data s d r : List Byte} (hd : data.length = 16) :
    exec items data s = some (some (d, r)) ↔ ∃ t, s = t ++ r ∧ UuidText t d := by
  rw [items_eq]
  have e0 : data = [] ++ data := rfl
  constructor
  · intro h
    rw [e0, exec_bytes 4 0 [] data s rfl (by omega)] at h
    obtain ⟨g1, b1, _, rfl, h1, l1, h⟩ := h
    replace h := exec_dash_ok.1 h
    obtain ⟨_, rfl, h⟩ := h
    rw [exec_bytes 2 4 _ _ _ (by simp [l1]) (by simp [hd])] at h
    obtain ⟨g2, b2, _, rfl, h2, l2, h⟩ := h
    replace h := exec_dash_ok.1 h
    obtain ⟨_, rfl, h⟩ := h
    rw [exec_bytes 2 6 _ _ _ (by simp [l1, l2]) (by simp [hd])] at h
    obtain ⟨g3, b3, _, rfl, h3, l3, h⟩ := h
    replace h := exec_dash_ok.1 h
    obtain ⟨_, rfl, h⟩ := h
    rw [exec_bytes 2 8 _ _ _ (by simp [l1, l2, l3]) (by simp [hd])] at h
    obtain ⟨g4, b4, _, rfl, h4, l4, h⟩ := h
    replace h := exec_dash_ok.1 h
    obtain ⟨_, rfl, h⟩ := h
    rw [exec_bytes 6 10 _ _ _ (by simp [l1, l2, l3, l4]) (by simp [hd])] at h
    obtain ⟨g5, b5, _, rfl, h5, l5, h⟩ := h
    obtain ⟨rfl, rfl⟩ := exec_nil_ok.1 h
    refine ⟨g1 ++ [0x2d#8] ++ g2 ++ [0x2d#8] ++ g3 ++ [0x2d#8] ++ g4 ++ [0x2d#8] ++ g5, by simp,
      g1, g2, g3, g4, g5, b1, b2, b3, b4, b5, h1, h2, h3, h4, h5, l1, l2, l3, l4, l5, rfl, ?_⟩
    simp [hd]
  · rintro ⟨t, rfl, g1, g2, g3, g4, g5, b1, b2, b3, b4, b5, h1, h2, h3, h4, h5, l1, l2, l3, l4, l5,
      rfl, rfl⟩
    rw [e0, exec_bytes 4 0 [] data _ rfl (by omega)]
    refine ⟨g1, b1, _, by simp only [List.append_assoc]; rfl, h1, l1, ?_⟩
    refine exec_dash_ok.2 ⟨_, rfl, ?_⟩
    rw [exec_bytes 2 4 _ _ _ (by simp [l1]) (by simp [hd])]
    refine ⟨g2, b2, _, rfl, h2, l2, ?_⟩
    refine exec_dash_ok.2 ⟨_, rfl, ?_⟩
    rw [exec_bytes 2 6 _ _ _ (by simp [l1, l2]) (by simp [hd])]
    refine ⟨g3, b3, _, rfl, h3, l3, ?_⟩
    refine exec_dash_ok.2 ⟨_, rfl, ?_⟩
    rw [exec_bytes 2 8 _ _ _ (by simp [l1, l2, l3]) (by simp [hd])]
    refine ⟨g4, b4, _, rfl, h4, l4, ?_⟩
    refine exec_dash_ok.2 ⟨_, rfl, ?_⟩
    rw [exec_bytes 6 10 _ _ _ (by simp [l1, l2, l3, l4]) (by simp [hd])]
    refine ⟨g5, b5, r, rfl, h5, l5, ?_⟩
    exact exec_nil_ok.2 ⟨by simp [hd], rfl⟩

theorem Hex.length {ds bs} (h : Hex ds bs) : ds.length = 2 * bs.length := by
  induction h with
  | nil => rfl
  | cons _ _ _ ih => simp [ih]; omega

theorem Hex.nonzero {ds bs} (h : Hex ds bs) : 0#8 ∉ ds := by
  induction h with
  | nil => simp
  | cons ha hb h ih =>
    simp only [List.mem_cons, not_or]
    refine ⟨?_, ?_, ih⟩
    · rintro rfl; rw [digit_zero] at ha; simp at ha
    · rintro rfl; rw [digit_zero] at hb; simp at hb

theorem UuidText.length {t d} (h : UuidText t d) : t.length = 36 ∧ d.length = 16 := by
  obtain ⟨g1, g2, g3, g4, g5, e1, e2, e3, e4, e5, h1, h2, h3, h4, h5, l1, l2, l3, l4, l5, rfl, rfl⟩ := h
  simp [h1.length, h2.length, h3.length, h4.length, h5.length, l1, l2, l3, l4, l5]

theorem UuidText.nonzero {t d} (h : UuidText t d) : 0#8 ∉ t := by
  obtain ⟨g1, g2, g3, g4, g5, e1, e2, e3, e4, e5, h1, h2, h3, h4, h5, l1, l2, l3, l4, l5, rfl, rfl⟩ := h
  simp [h1.nonzero, h2.nonzero, h3.nonzero, h4.nonzero, h5.nonzero]

theorem hexPair_table : ∀ i : Fin 256,
    (digitValue (nibbleToHex (highNibble (BitVec.ofFin i)))).map (fun x => 16 * x) = some (16 * (i.val / 16)) ∧
    digitValue (nibbleToHex (lowNibble (BitVec.ofFin i))) = some (i.val % 16) := by decide +kernel

theorem hexPair_hex (b : Byte) (ds bs : List Byte) (h : Hex ds bs) : Hex (hexPair b ++ ds) (b :: bs) := by
  have ht := hexPair_table b.toFin
  obtain ⟨h1, h2⟩ := ht
  have hb : BitVec.ofFin b.toFin = b := rfl
  rw [hb] at h1 h2
  cases hx : digitValue (nibbleToHex (highNibble b)) with
  | none => simp [hx] at h1
  | some x =>
    simp [hx] at h1
    have := Hex.cons hx h2 h
    have hval : BitVec.ofNat 8 (16 * x + b.toFin.val % 16) = b := by
      apply BitVec.eq_of_toNat_eq
      have hlt := b.isLt
      have hv : b.toFin.val = b.toNat := rfl
      rw [hv]
      simp
      omega
    rw [hval] at this
    exact this

end Rcpr.Uuid
