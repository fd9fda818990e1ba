import Verif.PsockSpec

/-! Proofs about the raw and boxed reads and writes. -/
namespace Rcpr.Psock

open Rcpr

variable {σ : Type}

/-! ### Writing -/

theorem writeRawInt_sound {wr : Writer σ} {Ok : σ → Prop} {out : σ → List Byte}
    (W : StreamWriter wr Ok out) {e : Endian} {s s' : σ} {w : Width} {v : BitVec (8 * w.bytes)}
    (hs : Ok s) (h : writeRawInt e wr s w v = some (s', SUCCESS)) :
    Ok s' ∧ out s' = out s ++ be w.bytes v.toNat := by
  unfold writeRawInt at h
  rw [wire_be] at h
  rcases hw : wr s (be w.bytes v.toNat) with _ | ⟨s1, st, n⟩
  · simp [hw] at h
  · simp only [hw, bind, Option.bind] at h
    split at h
    · rename_i hne; simp [pure] at h; exact absurd h.2 hne
    · rename_i hst
      simp only [ne_eq, Decidable.not_not] at hst
      subst hst
      split at h
      · simp [pure] at h; exact absurd h.2 (by decide)
      · rename_i hn
        simp only [ne_eq, Decidable.not_not] at hn
        simp only [pure, Option.some.injEq, Prod.mk.injEq, and_true] at h
        subst h
        obtain ⟨h1, _, h3⟩ := W.step _ _ _ _ hs hw
        rw [← hn, List.take_of_length_le (by rw [be_length]; exact Nat.le_refl _)] at h3
        exact ⟨h1, h3⟩

theorem writeRawInt_full {wr : Writer σ} {Ok : σ → Prop} (F : FullW wr Ok) {e : Endian} {s : σ}
    {w : Width} {v : BitVec (8 * w.bytes)} (hs : Ok s) :
    ∃ s', writeRawInt e wr s w v = some (s', SUCCESS) := by
  obtain ⟨s', h⟩ := F s (be w.bytes v.toNat) hs
  exact ⟨s', by simp [writeRawInt, wire_be, h, be_length]⟩

theorem writeRawU32_sound {wr : Writer σ} {Ok : σ → Prop} {out : σ → List Byte}
    (W : StreamWriter wr Ok out) {e : Endian} {s s' : σ} {v : BitVec 32}
    (hs : Ok s) (h : writeRawU32 e wr s v = some (s', SUCCESS)) :
    Ok s' ∧ out s' = out s ++ be 4 v.toNat := writeRawInt_sound (w := .w32) W hs h

theorem writeRawU32_full {wr : Writer σ} {Ok : σ → Prop} (F : FullW wr Ok) {e : Endian} {s : σ}
    {v : BitVec 32} (hs : Ok s) : ∃ s', writeRawU32 e wr s v = some (s', SUCCESS) :=
  writeRawInt_full (w := .w32) F hs

/-- a step that must have succeeded -/
theorem bind_success {x : Option (σ × Status)} {g : σ × Status → Option (σ × Status)}
    {s' : σ} (h : (x >>= g) = some (s', SUCCESS))
    (hg : ∀ s1 st, st ≠ SUCCESS → g (s1, st) = some (s1, st)) :
    ∃ s1, x = some (s1, SUCCESS) ∧ g (s1, SUCCESS) = some (s', SUCCESS) := by
  rcases x with _ | ⟨s1, st⟩
  · simp at h
  · simp only [bind, Option.bind] at h
    by_cases hst : st = SUCCESS
    · subst hst; exact ⟨s1, rfl, h⟩
    · rw [hg s1 st hst] at h
      simp only [Option.some.injEq, Prod.mk.injEq] at h
      exact absurd h.2 hst

theorem write_tail {wr : Writer σ} {Ok : σ → Prop} {out : σ → List Byte}
    (W : StreamWriter wr Ok out) {s s' : σ} {d : List Byte}
    {g : σ × Status × Nat → Option (σ × Status)} (hs : Ok s)
    (h : (wr s d >>= g) = some (s', SUCCESS))
    (hg1 : ∀ s1 st n, st ≠ SUCCESS → g (s1, st, n) = some (s1, st))
    (hg2 : ∀ s1 n, d.length ≠ n → g (s1, SUCCESS, n) = some (s1, ERROR_PSOCK_WRITE_INVALID_SIZE))
    (hg3 : ∀ s1, g (s1, SUCCESS, d.length) = some (s1, SUCCESS)) : Ok s' ∧ out s' = out s ++ d := by
  rcases hw : wr s d with _ | ⟨s1, st, n⟩
  · simp [hw] at h
  · simp only [hw, bind, Option.bind] at h
    by_cases hst : st = SUCCESS
    · subst hst
      by_cases hn : d.length = n
      · subst hn
        rw [hg3] at h
        simp only [Option.some.injEq, Prod.mk.injEq, and_true] at h
        subst h
        obtain ⟨h1, _, h3⟩ := W.step _ _ _ _ hs hw
        rw [List.take_length] at h3
        exact ⟨h1, h3⟩
      · rw [hg2 _ _ hn] at h
        simp only [Option.some.injEq, Prod.mk.injEq] at h
        exact absurd h.2 (by decide)
    · rw [hg1 _ _ _ hst] at h
      simp only [Option.some.injEq, Prod.mk.injEq] at h
      exact absurd h.2 hst

theorem writeBoxed_sound {wr : Writer σ} {Ok : σ → Prop} {out : σ → List Byte}
    (W : StreamWriter wr Ok out) {e : Endian} {s s' : σ} {v : Val} (hv : v.Valid)
    (hs : Ok s) (h : writeBoxed e wr s v = some (s', SUCCESS)) :
    Ok s' ∧ out s' = out s ++ encode v := by
  cases v with
  | int t x =>
    unfold writeBoxed writeBoxedInt at h
    obtain ⟨s1, h1, h2⟩ := bind_success h (by intro s1 st h; simp [h])
    simp only [ne_eq, not_true, if_false] at h2
    obtain ⟨a1, a2⟩ := writeRawU32_sound W hs h1
    obtain ⟨b1, b2⟩ := writeRawInt_sound W a1 h2
    exact ⟨b1, by rw [b2, a2, List.append_assoc]; rfl⟩
  | bool b =>
    unfold writeBoxed writeBoxedBool at h
    obtain ⟨s1, h1, h2⟩ := bind_success h (by intro s1 st h; simp [h])
    simp only [ne_eq, not_true, if_false] at h2
    unfold writeRawBool at h2
    obtain ⟨a1, a2⟩ := writeRawU32_sound W hs h1
    obtain ⟨b1, b2⟩ := write_tail W a1 h2 (by intro s1 st n h; simp [h])
      (by intro s1 n h; simp only [List.length_singleton] at h; simp [h]) (by intro s1; simp)
    exact ⟨b1, by rw [b2, a2, List.append_assoc]; rfl⟩
  | string x =>
    unfold writeBoxed writeBoxedString at h
    have hx : x.length < 2 ^ 32 - 1 := hv.2
    dsimp only at h
    rw [if_neg (by simp only [uint32Max]; omega)] at h
    obtain ⟨s1, h1, h2⟩ := bind_success h (by intro s1 st h; simp [h])
    simp only [ne_eq, not_true, if_false] at h2
    obtain ⟨a1, a2⟩ := writeRawU32_sound W hs h1
    obtain ⟨s2, h3, h4⟩ := bind_success h2 (by intro s1 st h; simp [h])
    simp only [ne_eq, not_true, if_false] at h4
    obtain ⟨b1, b2⟩ := writeRawU32_sound W a1 h3
    obtain ⟨c1, c2⟩ := write_tail W b1 h4 (by intro s1 st n h; simp [h])
      (by intro s1 n h; simp [h]) (by intro s1; simp)
    refine ⟨c1, ?_⟩
    rw [c2, b2, a2, BitVec.toNat_ofNat, Nat.mod_eq_of_lt (by omega)]
    simp [encode, List.append_assoc]
  | data x =>
    unfold writeBoxed writeBoxedData at h
    obtain ⟨s1, h1, h2⟩ := bind_success h (by intro s1 st h; simp [h])
    simp only [ne_eq, not_true, if_false] at h2
    obtain ⟨a1, a2⟩ := writeRawU32_sound W hs h1
    obtain ⟨s2, h3, h4⟩ := bind_success h2 (by intro s1 st h; simp [h])
    simp only [ne_eq, not_true, if_false] at h4
    obtain ⟨b1, b2⟩ := writeRawU32_sound W a1 h3
    obtain ⟨c1, c2⟩ := write_tail W b1 h4 (by intro s1 st n h; simp [h])
      (by intro s1 n h; simp [h]) (by intro s1; simp)
    refine ⟨c1, ?_⟩
    have hx : x.length < 2 ^ 32 := hv
    rw [c2, b2, a2, BitVec.toNat_ofNat, Nat.mod_eq_of_lt (by omega)]
    simp [encode, List.append_assoc]

theorem writeBoxed_full {wr : Writer σ} {Ok : σ → Prop} {out : σ → List Byte}
    (W : StreamWriter wr Ok out) (F : FullW wr Ok) {e : Endian} {s : σ} {v : Val} (hv : v.Valid)
    (hs : Ok s) : ∃ s', writeBoxed e wr s v = some (s', SUCCESS) := by
  cases v with
  | int t x =>
    obtain ⟨s1, h1⟩ := writeRawU32_full F (e := e) (v := (Ty.int t).code) hs
    obtain ⟨a1, _⟩ := writeRawU32_sound W hs h1
    obtain ⟨s2, h2⟩ := writeRawInt_full F (e := e) (w := t.width) (v := x) a1
    exact ⟨s2, by simp [writeBoxed, writeBoxedInt, h1, h2]⟩
  | bool b =>
    obtain ⟨s1, h1⟩ := writeRawU32_full F (e := e) (v := Ty.bool.code) hs
    obtain ⟨a1, _⟩ := writeRawU32_sound W hs h1
    obtain ⟨s2, h2⟩ := F s1 [if b then 1 else 0] a1
    exact ⟨s2, by simp only [writeBoxed, writeBoxedBool, writeRawBool, h1, h2, bind, Option.bind]; rfl⟩
  | string x =>
    obtain ⟨s1, h1⟩ := writeRawU32_full F (e := e) (v := Ty.string.code) hs
    obtain ⟨a1, _⟩ := writeRawU32_sound W hs h1
    obtain ⟨s2, h2⟩ := writeRawU32_full F (e := e) (v := BitVec.ofNat 32 x.length) a1
    obtain ⟨a2, _⟩ := writeRawU32_sound W a1 h2
    obtain ⟨s3, h3⟩ := F s2 x a2
    have : ¬ uint32Max ≤ x.length := by have := hv.2; simp only [uint32Max]; omega
    exact ⟨s3, by simp [writeBoxed, writeBoxedString, h1, h2, h3, this]⟩
  | data x =>
    obtain ⟨s1, h1⟩ := writeRawU32_full F (e := e) (v := Ty.data.code) hs
    obtain ⟨a1, _⟩ := writeRawU32_sound W hs h1
    obtain ⟨s2, h2⟩ := writeRawU32_full F (e := e) (v := BitVec.ofNat 32 x.length) a1
    obtain ⟨a2, _⟩ := writeRawU32_sound W a1 h2
    obtain ⟨s3, h3⟩ := F s2 x a2
    exact ⟨s3, by simp [writeBoxed, writeBoxedData, h1, h2, h3]⟩

/-- the write loop: on success what was sent is everything before what is left -/
theorem writeLoop_sound {wr : Writer σ} {Ok : σ → Prop} {out : σ → List Byte}
    (W : StreamWriter wr Ok out) : ∀ (fuel : Nat) (s : σ) (d : List Byte), Ok s → d.length < fuel →
    ∃ s' st left, writeLoop wr fuel s d = some (s', st, left) ∧
      (st = SUCCESS → Ok s' ∧ ∃ sent, d = sent ++ left ∧ out s' = out s ++ sent) := by
  intro fuel
  induction fuel with
  | zero => intro s d _ h; omega
  | succ fuel ih =>
    intro s d hs hf
    unfold writeLoop
    by_cases hd : d.length = 0
    · rw [if_pos hd]
      exact ⟨s, SUCCESS, d, rfl, fun _ => ⟨hs, [], rfl, by simp⟩⟩
    · rw [if_neg hd]
      obtain ⟨⟨s1, st, n⟩, hw⟩ := Option.isSome_iff_exists.1 (W.total s d hs)
      simp only [hw]
      by_cases hst : st = SUCCESS
      · subst hst
        obtain ⟨h1, h2, h3⟩ := W.step _ _ _ _ hs hw
        simp only [ne_eq, not_true, if_false]
        by_cases hn : n = 0
        · rw [if_pos hn]
          refine ⟨s1, SUCCESS, d, rfl, fun _ => ⟨h1, [], rfl, ?_⟩⟩
          rw [h3, hn]; simp
        · rw [if_neg hn, if_neg (by omega)]
          obtain ⟨s', st', left, e1, e2⟩ := ih s1 (d.drop n) h1 (by rw [List.length_drop]; omega)
          refine ⟨s', st', left, e1, fun hs' => ?_⟩
          obtain ⟨o1, sent, o2, o3⟩ := e2 hs'
          refine ⟨o1, d.take n ++ sent, ?_, ?_⟩
          · rw [List.append_assoc, ← o2, List.take_append_drop]
          · rw [o3, h3, List.append_assoc]
      · rw [if_pos hst]
        exact ⟨s1, st, d, rfl, fun h => absurd h hst⟩

/-! ### Reading -/

theorem readRawInt_sound {rd : Reader σ} {Ok : σ → Prop} {rest : σ → List Byte}
    (R : StreamReader rd Ok rest) {e : Endian} {s : σ} {w : Width} (hs : Ok s) :
    ∃ s' st v, readRawInt e rd s w = some (s', st, v) ∧ Ok s' ∧
      ((st = SUCCESS ∧ ∃ x, v = some x ∧ rest s = be w.bytes x.toNat ++ rest s') ∨
       (st ≠ SUCCESS ∧ v = none)) := by
  obtain ⟨⟨s1, st, d⟩, hr⟩ := Option.isSome_iff_exists.1 (R.total s w.bytes true hs)
  obtain ⟨h1, h2, h3⟩ := R.step _ _ _ _ _ _ hs hr
  simp only [readRawInt, hr, bind, Option.bind]
  by_cases hst : st = SUCCESS
  · subst hst
    simp only [ne_eq, not_true, if_false]
    by_cases hl : w.bytes = d.length
    · rw [if_neg (by simp [hl])]
      obtain ⟨x, rfl⟩ := be_surj w.bytes d hl.symm
      exact ⟨s1, SUCCESS, some x, by rw [decode_be]; rfl, h1, Or.inl ⟨rfl, x, rfl, h3⟩⟩
    · rw [if_pos hl]
      exact ⟨s1, _, none, rfl, h1, Or.inr ⟨by decide, rfl⟩⟩
  · rw [if_pos hst]
    exact ⟨s1, st, none, rfl, h1, Or.inr ⟨hst, rfl⟩⟩

theorem be_inj {w : Width} {x y : BitVec (8 * w.bytes)} {a b : List Byte}
    (h : be w.bytes x.toNat ++ a = be w.bytes y.toNat ++ b) : x = y ∧ a = b := by
  obtain ⟨h1, h2⟩ := append_inj' h (by rw [be_length, be_length])
  refine ⟨?_, h2⟩
  have := congrArg (fun d => ntoh .big w (loadMem .big (8 * w.bytes) d)) h1
  simpa only [decode_be] using this

theorem readRawInt_full {rd : Reader σ} {Ok : σ → Prop} {rest : σ → List Byte}
    (R : StreamReader rd Ok rest) (F : Full rd Ok rest) {e : Endian} {s : σ} {w : Width}
    {x : BitVec (8 * w.bytes)} {tail : List Byte} (hs : Ok s)
    (hr : rest s = be w.bytes x.toNat ++ tail) :
    ∃ s', readRawInt e rd s w = some (s', SUCCESS, some x) ∧ Ok s' ∧ rest s' = tail := by
  obtain ⟨s1, d, h1, h2⟩ := F s w.bytes hs (by cases w <;> decide)
    (by rw [hr, List.length_append, be_length]; omega)
  obtain ⟨h3, _, h5⟩ := R.step _ _ _ _ _ _ hs h1
  rw [hr] at h5
  obtain ⟨h6, h7⟩ := append_inj' h5 (by rw [be_length, h2])
  subst h6
  exact ⟨s1, by simp [readRawInt, h1, be_length, decode_be], h3, h7.symm⟩

theorem readRawU32_sound {rd : Reader σ} {Ok : σ → Prop} {rest : σ → List Byte}
    (R : StreamReader rd Ok rest) {e : Endian} {s : σ} (hs : Ok s) :
    ∃ s' st v, readRawU32 e rd s = some (s', st, v) ∧ Ok s' ∧
      ((st = SUCCESS ∧ ∃ x : BitVec 32, v = some x ∧ rest s = be 4 x.toNat ++ rest s') ∨
       (st ≠ SUCCESS ∧ v = none)) := readRawInt_sound (w := .w32) R hs

theorem readRawU32_full {rd : Reader σ} {Ok : σ → Prop} {rest : σ → List Byte}
    (R : StreamReader rd Ok rest) (F : Full rd Ok rest) {e : Endian} {s : σ}
    {x : BitVec 32} {tail : List Byte} (hs : Ok s) (hr : rest s = be 4 x.toNat ++ tail) :
    ∃ s', readRawU32 e rd s = some (s', SUCCESS, some x) ∧ Ok s' ∧ rest s' = tail :=
  readRawInt_full (w := .w32) R F hs hr

theorem be4_inj {x y : BitVec 32} {a b : List Byte} (h : be 4 x.toNat ++ a = be 4 y.toNat ++ b) :
    x = y ∧ a = b := be_inj (w := .w32) h

theorem code_inj {t u : Ty} (h : t.code = u.code) : t = u := by
  rcases t with ⟨⟨⟩⟩ | _ | _ | _ <;> rcases u with ⟨⟨⟩⟩ | _ | _ | _ <;>
    first
      | rfl
      | (exfalso; revert h; decide)

/-- wire format after the type code -/
def body : Val → List Byte
  | .int t v => be t.width.bytes v.toNat
  | .bool b => [if b then 1 else 0]
  | .string s => be 4 s.length ++ s
  | .data d => be 4 d.length ++ d

theorem encode_eq (v : Val) : encode v = be 4 v.ty.code.toNat ++ body v := by
  cases v <;> rfl

theorem readRawU32_at {rd : Reader σ} {Ok : σ → Prop} {rest : σ → List Byte}
    (R : StreamReader rd Ok rest) (e : Endian) {s : σ} {c : BitVec 32} {tail : List Byte} (hs : Ok s)
    (hr : rest s = be 4 c.toNat ++ tail) :
    ∃ s' st v, readRawU32 e rd s = some (s', st, v) ∧ Ok s' ∧
      ((st = SUCCESS ∧ v = some c ∧ rest s' = tail) ∨ (st ≠ SUCCESS ∧ v = none)) := by
  obtain ⟨s', st, v, h1, h2, h3⟩ := readRawU32_sound R (e := e) hs
  refine ⟨s', st, v, h1, h2, ?_⟩
  rcases h3 with ⟨h4, x, h5, h6⟩ | h3
  · rw [hr] at h6
    obtain ⟨rfl, rfl⟩ := be4_inj h6
    exact Or.inl ⟨h4, h5, rfl⟩
  · exact Or.inr h3

theorem takeWhile_cstr {s : List Byte} (h : (0 : Byte) ∉ s) :
    (s ++ [0]).takeWhile (· ≠ 0) = s := by
  induction s with
  | nil => simp
  | cons a s ih =>
    simp only [List.mem_cons, not_or] at h
    have : a ≠ 0 := fun e => h.1 e.symm
    simp only [List.cons_append, List.takeWhile_cons, ne_eq, this, not_false_eq_true, decide_true, if_true]
    congr 1
    exact ih h.2

/-- Reading from a stream that starts with an encoded value: whatever the transport does, success
means the right type, the value itself and exactly its bytes consumed. -/
theorem readBoxed_sound {rd : Reader σ} {Ok : σ → Prop} {rest : σ → List Byte}
    (R : StreamReader rd Ok rest) (e : Endian) {s : σ} {v : Val} {tail : List Byte} (hs : Ok s)
    (hv : v.Valid) (hr : rest s = encode v ++ tail) (alloc rec : Status) (t : Ty) :
    ∃ s' st r, readBoxed e rd s alloc rec t = some (s', st, r) ∧ Ok s' ∧
      (st = SUCCESS → t = v.ty ∧ r = some v ∧ rest s' = tail) ∧ (st ≠ SUCCESS → r = none) := by
  rw [encode_eq, List.append_assoc] at hr
  obtain ⟨s1, st1, c, h1, h2, h3⟩ := readRawU32_at R e hs hr
  have hS : ERROR_PSOCK_READ_BOXED_INVALID_TYPE ≠ SUCCESS := by decide
  have hZ : ERROR_PSOCK_READ_INVALID_SIZE ≠ SUCCESS := by decide
  have hB : ERROR_PSOCK_READ_BOXED_INVALID_SIZE ≠ SUCCESS := by decide
  rcases h3 with ⟨rfl, rfl, h3⟩ | ⟨hne, rfl⟩
  · by_cases ht : t = v.ty
    · subst ht
      cases v with
      | int t x =>
        obtain ⟨s2, st2, r2, a1, a2, a3⟩ := readRawInt_sound R (e := e) (w := t.width) h2
        refine ⟨s2, st2, r2.map (.int t), ?_, a2, ?_⟩
        · simp [readBoxed, readBoxedInt, h1, a1, Val.ty]
        · rcases a3 with ⟨rfl, y, rfl, a4⟩ | ⟨a3, rfl⟩
          · rw [h3] at a4
            obtain ⟨rfl, rfl⟩ := be_inj a4
            simp
          · simp [a3]
      | bool b =>
        obtain ⟨⟨s2, st2, d⟩, a1⟩ := Option.isSome_iff_exists.1 (R.total s1 1 true h2)
        obtain ⟨a2, a3, a4⟩ := R.step _ _ _ _ _ _ h2 a1
        rw [h3] at a4
        by_cases hst : st2 = SUCCESS
        · subst hst
          match d, a3 with
          | [], _ =>
            refine ⟨s2, ERROR_PSOCK_READ_INVALID_SIZE, none,
              by simp [readBoxed, readBoxedBool, readRawBool, h1, a1, Val.ty], a2, ?_⟩
            simp [hZ]
          | [x], _ =>
            simp only [body, List.singleton_append, List.cons.injEq] at a4
            obtain ⟨rfl, rfl⟩ := a4
            refine ⟨s2, SUCCESS, some (.bool b), ?_, a2, ?_⟩
            · cases b <;> simp [readBoxed, readBoxedBool, readRawBool, h1, a1, Val.ty]
            · simp
          | _ :: _ :: _, h => simp at h
        · refine ⟨s2, st2, none, by simp [readBoxed, readBoxedBool, readRawBool, h1, a1, Val.ty, hst], a2, ?_⟩
          simp [hst]
      | string x =>
        have hx : x.length < 2 ^ 32 - 1 := hv.2
        have e1 : (BitVec.ofNat 32 x.length).toNat = x.length := by
          rw [BitVec.toNat_ofNat, Nat.mod_eq_of_lt (by omega)]
        obtain ⟨s2, st2, n, a1, a2, a3⟩ := readRawU32_at R e (c := BitVec.ofNat 32 x.length)
          (tail := x ++ tail) h2 (by rw [h3, e1]; simp [body, List.append_assoc])
        rcases a3 with ⟨rfl, rfl, a3⟩ | ⟨hne, rfl⟩
        · have e2 : uint32Max ≠ x.length := by simp only [uint32Max]; omega
          by_cases hal : alloc = SUCCESS
          · obtain ⟨⟨s3, st3, d⟩, b1⟩ := Option.isSome_iff_exists.1 (R.total s2 x.length true a2)
            obtain ⟨b2, b3, b4⟩ := R.step _ _ _ _ _ _ a2 b1
            rw [a3] at b4
            by_cases hst : st3 = SUCCESS
            · subst hst
              by_cases hl : d.length = x.length
              · obtain ⟨rfl, rfl⟩ := append_inj' b4 hl.symm
                refine ⟨s3, SUCCESS, some (.string x), ?_, b2, by simp [Val.ty]⟩
                have := takeWhile_cstr hv.1
                simp [readBoxed, readBoxedString, h1, a1, b1, Val.ty, e1, e2, hal]
                simpa using this
              · refine ⟨s3, ERROR_PSOCK_READ_INVALID_SIZE, none, ?_, b2, by simp [hZ]⟩
                simp [readBoxed, readBoxedString, h1, a1, b1, Val.ty, e1, e2, hal, hl]
            · refine ⟨s3, st3, none, ?_, b2, by simp [hst]⟩
              simp [readBoxed, readBoxedString, h1, a1, b1, Val.ty, e1, e2, hal, hst]
          · refine ⟨s2, alloc, none, ?_, a2, by simp [hal]⟩
            simp [readBoxed, readBoxedString, h1, a1, Val.ty, e1, e2, hal]
        · refine ⟨s2, st2, none, ?_, a2, by simp [hne]⟩
          simp [readBoxed, readBoxedString, h1, a1, Val.ty, hne]
      | data x =>
        have hx : x.length < 2 ^ 32 := hv
        have e1 : (BitVec.ofNat 32 x.length).toNat = x.length := by
          rw [BitVec.toNat_ofNat, Nat.mod_eq_of_lt (by omega)]
        obtain ⟨s2, st2, n, a1, a2, a3⟩ := readRawU32_at R e (c := BitVec.ofNat 32 x.length)
          (tail := x ++ tail) h2 (by rw [h3, e1]; simp [body, List.append_assoc])
        rcases a3 with ⟨rfl, rfl, a3⟩ | ⟨hne, rfl⟩
        · by_cases hal : alloc = SUCCESS
          · obtain ⟨⟨s3, st3, d⟩, b1⟩ := Option.isSome_iff_exists.1 (R.total s2 x.length true a2)
            obtain ⟨b2, b3, b4⟩ := R.step _ _ _ _ _ _ a2 b1
            rw [a3] at b4
            by_cases hst : st3 = SUCCESS
            · subst hst
              by_cases hl : d.length = x.length
              · obtain ⟨rfl, rfl⟩ := append_inj' b4 hl.symm
                refine ⟨s3, SUCCESS, some (.data x), ?_, b2, by simp [Val.ty]⟩
                simp [readBoxed, readBoxedData, h1, a1, b1, Val.ty, e1, hal]
              · refine ⟨s3, ERROR_PSOCK_READ_INVALID_SIZE, none, ?_, b2, by simp [hZ]⟩
                simp [readBoxed, readBoxedData, h1, a1, b1, Val.ty, e1, hal, hl]
            · refine ⟨s3, st3, none, ?_, b2, by simp [hst]⟩
              simp [readBoxed, readBoxedData, h1, a1, b1, Val.ty, e1, hal, hst]
          · refine ⟨s2, alloc, none, ?_, a2, by simp [hal]⟩
            simp [readBoxed, readBoxedData, h1, a1, Val.ty, hal]
        · refine ⟨s2, st2, none, ?_, a2, by simp [hne]⟩
          simp [readBoxed, readBoxedData, h1, a1, Val.ty, hne]
    · have hc : t.code ≠ v.ty.code := fun h => ht (code_inj h)
      refine ⟨s1, ERROR_PSOCK_READ_BOXED_INVALID_TYPE, none, ?_, h2, by simp [hS]⟩
      cases t <;>
        simp [readBoxed, readBoxedInt, readBoxedBool, readBoxedString, readBoxedData, h1, hc]
  · refine ⟨s1, st1, none, ?_, h2, by simp [hne]⟩
    cases t <;>
      simp [readBoxed, readBoxedInt, readBoxedBool, readBoxedString, readBoxedData, h1, hne]

/-- With a transport that delivers what it is asked for, the read succeeds, except that an empty
string or data item needs a transport that can read zero bytes there. -/
theorem readBoxed_full {rd : Reader σ} {Ok : σ → Prop} {rest : σ → List Byte}
    (R : StreamReader rd Ok rest) (F : Full rd Ok rest) (e : Endian) {s : σ} {v : Val}
    {tail : List Byte} (hs : Ok s) (hv : v.Valid) (hr : rest s = encode v ++ tail) (rec : Status)
    (hz : v.Empty → ∀ s, Ok s → rest s = tail → ZeroReadOk rd s) :
    ∃ s', readBoxed e rd s SUCCESS rec v.ty = some (s', SUCCESS, some v) ∧ Ok s' ∧ rest s' = tail := by
  suffices h : ∃ s' r, readBoxed e rd s SUCCESS rec v.ty = some (s', SUCCESS, r) by
    obtain ⟨s', r, h⟩ := h
    obtain ⟨s2, st2, r2, h1, h2, h3, _⟩ := readBoxed_sound R e hs hv hr SUCCESS rec v.ty
    rw [h] at h1
    simp only [Option.some.injEq, Prod.mk.injEq] at h1
    obtain ⟨rfl, rfl, rfl⟩ := h1
    obtain ⟨_, rfl, h5⟩ := h3 rfl
    exact ⟨s', h, h2, h5⟩
  rw [encode_eq, List.append_assoc] at hr
  obtain ⟨s1, h1, h2, h3⟩ := readRawU32_full R F (e := e) hs hr
  have rdn : ∀ (s : σ) (x : List Byte), Ok s → rest s = x ++ tail →
      (x = [] → ∀ s, Ok s → rest s = tail → ZeroReadOk rd s) →
      ∃ s' d, rd s x.length true = some (s', SUCCESS, d) ∧ d.length = x.length := by
    intro s x hs hr hz
    by_cases hx : x = []
    · subst hx
      obtain ⟨s', h⟩ := hz rfl s hs (by simpa using hr)
      exact ⟨s', [], h, rfl⟩
    · exact F s x.length hs (List.length_pos_iff.2 hx) (by rw [hr, List.length_append]; omega)
  cases v with
  | int t x =>
    obtain ⟨s2, a1, _⟩ := readRawInt_full R F (e := e) h2 h3
    exact ⟨s2, _, by simp [readBoxed, readBoxedInt, h1, a1, Val.ty]; rfl⟩
  | bool b =>
    obtain ⟨s2, d, a1, a2⟩ := F s1 1 h2 (by decide) (by rw [h3]; simp [body])
    match d, a2 with
    | [x], _ => exact ⟨s2, _, by simp [readBoxed, readBoxedBool, readRawBool, h1, a1, Val.ty]; rfl⟩
  | string x =>
    have hx : x.length < 2 ^ 32 - 1 := hv.2
    have e1 : (BitVec.ofNat 32 x.length).toNat = x.length := by
      rw [BitVec.toNat_ofNat, Nat.mod_eq_of_lt (by omega)]
    obtain ⟨s2, a1, a2, a3⟩ := readRawU32_full R F (e := e) (x := BitVec.ofNat 32 x.length)
      (tail := x ++ tail) h2 (by rw [h3, e1]; simp [body, List.append_assoc])
    have e2 : uint32Max ≠ x.length := by simp only [uint32Max]; omega
    obtain ⟨s3, d, b1, b2⟩ := rdn s2 x a2 a3 hz
    exact ⟨s3, _, by simp [readBoxed, readBoxedString, h1, a1, Val.ty, e1, e2, b1, b2]; rfl⟩
  | data x =>
    have hx : x.length < 2 ^ 32 := hv
    have e1 : (BitVec.ofNat 32 x.length).toNat = x.length := by
      rw [BitVec.toNat_ofNat, Nat.mod_eq_of_lt (by omega)]
    obtain ⟨s2, a1, a2, a3⟩ := readRawU32_full R F (e := e) (x := BitVec.ofNat 32 x.length)
      (tail := x ++ tail) h2 (by rw [h3, e1]; simp [body, List.append_assoc])
    obtain ⟨s3, d, b1, b2⟩ := rdn s2 x a2 a3 hz
    exact ⟨s3, _, by simp [readBoxed, readBoxedData, h1, a1, Val.ty, e1, b1, b2]; rfl⟩

theorem readBoxed_wrong_full {rd : Reader σ} {Ok : σ → Prop} {rest : σ → List Byte}
    (R : StreamReader rd Ok rest) (F : Full rd Ok rest) (e : Endian) {s : σ} {v : Val}
    {tail : List Byte} (hs : Ok s) (hr : rest s = encode v ++ tail) (alloc rec : Status)
    {t : Ty} (ht : t ≠ v.ty) :
    ∃ s', readBoxed e rd s alloc rec t = some (s', ERROR_PSOCK_READ_BOXED_INVALID_TYPE, none) ∧
      Ok s' ∧ rest s' = body v ++ tail := by
  rw [encode_eq, List.append_assoc] at hr
  obtain ⟨s1, h1, h2, h3⟩ := readRawU32_full R F (e := e) hs hr
  have hc : t.code ≠ v.ty.code := fun h => ht (code_inj h)
  refine ⟨s1, ?_, h2, h3⟩
  cases t <;>
    simp [readBoxed, readBoxedInt, readBoxedBool, readBoxedString, readBoxedData, h1, hc]

/-- the read loop: what it stores is what the stream delivers -/
theorem readLoop_sound {rd : Reader σ} {Ok : σ → Prop} {rest : σ → List Byte}
    (R : StreamReader rd Ok rest) : ∀ (fuel : Nat) (s : σ) (n : Nat) (acc : List Byte), Ok s → n < fuel →
    ∃ s' st d left, readLoop rd fuel s n acc = some (s', st, acc ++ d, left) ∧ Ok s' ∧
      rest s = d ++ rest s' ∧ (st = SUCCESS → d.length + left = n) := by
  intro fuel
  induction fuel with
  | zero => intro s n acc _ h; omega
  | succ fuel ih =>
    intro s n acc hs hf
    unfold readLoop
    by_cases hn : n = 0
    · rw [if_pos hn]
      exact ⟨s, SUCCESS, [], 0, by simp, hs, by simp, by simp [hn]⟩
    · rw [if_neg hn]
      obtain ⟨⟨s1, st, d⟩, hr⟩ := Option.isSome_iff_exists.1 (R.total s n true hs)
      obtain ⟨h1, h2, h3⟩ := R.step _ _ _ _ _ _ hs hr
      simp only [hr]
      by_cases hst : st = SUCCESS
      · subst hst
        simp only [ne_eq, not_true, if_false]
        by_cases hd : d.length = 0
        · rw [if_pos hd]
          have : d = [] := List.length_eq_zero_iff.1 hd
          subst this
          exact ⟨s1, SUCCESS, [], n, by simp, h1, h3, by simp⟩
        · rw [if_neg hd, if_neg (by omega)]
          obtain ⟨s', st', d', left, e1, e2, e3, e4⟩ := ih s1 (n - d.length) (acc ++ d) h1 (by omega)
          refine ⟨s', st', d ++ d', left, by rw [e1, List.append_assoc], e2, ?_, ?_⟩
          · rw [h3, e3, List.append_assoc]
          · intro h; have := e4 h; rw [List.length_append]; omega
      · rw [if_pos hst]
        exact ⟨s1, st, d, n, rfl, h1, h3, fun h => absurd h hst⟩

end Rcpr.Psock
