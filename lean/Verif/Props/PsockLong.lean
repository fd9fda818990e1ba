import Verif.Props.PsockStream

/-! Property C98: a boxed write that reports success has sent a value that the matching read returns whole. -/
namespace Rcpr.Psock

variable {σ : Type}

/-- C98, strings of every length: a string too long for its size field is refused before a byte is written, and what is
reported as sent is on the stream whole. -/
theorem long_string_refused (wr : Writer σ) (Ok : σ → Prop) (out : σ → List Byte) (W : StreamWriter wr Ok out) (e : Endian)
    (s : σ) (val : List Byte) (h0 : (0 : Byte) ∉ val) (hs : Ok s) :
    (2 ^ 32 - 1 ≤ val.length → ∃ st, writeBoxed e wr s (.string val) = some (s, st) ∧ st ≠ SUCCESS) ∧
    ∀ s', writeBoxed e wr s (.string val) = some (s', SUCCESS) → Ok s' ∧ out s' = out s ++ encode (.string val) := by
  have key : 2 ^ 32 - 1 ≤ val.length → writeBoxed e wr s (.string val) = some (s, ERROR_PSOCK_WRITE_INVALID_SIZE) := by
    intro hl
    unfold writeBoxed writeBoxedString
    dsimp only
    rw [if_pos (by simp only [uint32Max]; omega)]
    rfl
  have hne : ERROR_PSOCK_WRITE_INVALID_SIZE ≠ SUCCESS := by decide
  refine ⟨fun hl => ⟨_, key hl, hne⟩, fun s' h => ?_⟩
  by_cases hl : 2 ^ 32 - 1 ≤ val.length
  · rw [key hl] at h
    exact absurd (Prod.mk.inj (Option.some.inj h)).2 hne
  · exact write_boxed_wire wr Ok out W e s s' _ ⟨h0, by omega⟩ hs h

/-- C98, data of every length: what is reported as sent is on the stream whole if its length fits in 32 bits. -/
theorem long_data_partial (wr : Writer σ) (Ok : σ → Prop) (out : σ → List Byte) (W : StreamWriter wr Ok out) (e : Endian)
    (s s' : σ) (d : List Byte) (hd : d.length < 2 ^ 32) (hs : Ok s) (h : writeBoxed e wr s (.data d) = some (s', SUCCESS)) :
    Ok s' ∧ out s' = out s ++ encode (.data d) :=
  write_boxed_wire wr Ok out W e s s' _ hd hs h

/-- C98 does not hold for longer data: over a transport that takes every write the call succeeds, but what it has sent is the
first bytes of the data, as many as the low 32 bits of the length say, as a whole value; the remaining bytes, at least 2^32 of them, follow
without a header. -/
theorem long_data_violated (wr : Writer σ) (Ok : σ → Prop) (out : σ → List Byte) (W : StreamWriter wr Ok out) (F : FullW wr Ok) (e : Endian)
    (s : σ) (d : List Byte) (hd : 2 ^ 32 ≤ d.length) (hs : Ok s) :
    ∃ s' a b, writeBoxed e wr s (.data d) = some (s', SUCCESS) ∧ d = a ++ b ∧ a.length < 2 ^ 32 ∧ 2 ^ 32 ≤ b.length ∧
      out s' = out s ++ encode (.data a) ++ b := by
  obtain ⟨s1, h1⟩ := writeRawU32_full F (e := e) (v := Ty.data.code) hs
  obtain ⟨a1, a2⟩ := writeRawU32_sound W hs h1
  obtain ⟨s2, h2⟩ := writeRawU32_full F (e := e) (v := BitVec.ofNat 32 d.length) a1
  obtain ⟨b1, b2⟩ := writeRawU32_sound W a1 h2
  obtain ⟨s3, h3⟩ := F s2 d b1
  have hw : writeBoxed e wr s (.data d) = some (s3, SUCCESS) := by simp [writeBoxed, writeBoxedData, h1, h2, h3]
  obtain ⟨_, _, c2⟩ := W.step s2 d s3 _ b1 h3
  have hm : d.length % 2 ^ 32 < 2 ^ 32 := Nat.mod_lt _ (by decide)
  have ht : (d.take (d.length % 2 ^ 32)).length = d.length % 2 ^ 32 := by rw [List.length_take]; omega
  refine ⟨s3, d.take (d.length % 2 ^ 32), d.drop (d.length % 2 ^ 32), hw, (List.take_append_drop _ _).symm, by omega, ?_, ?_⟩
  · rw [List.length_drop]; omega
  · rw [c2, b2, a2, BitVec.toNat_ofNat, List.take_length, encode, ht]
    simp only [List.append_assoc, List.take_append_drop]

/-- C98 does not hold for longer data, seen by the peer: it gets a shorter value, reported as a success, and its next read begins
inside the data. -/
theorem long_data_read_violated (rd : Reader σ) (Ok : σ → Prop) (rest : σ → List Byte) (R : StreamReader rd Ok rest) (e : Endian) (s : σ)
    (a b tail : List Byte) (ha : a.length < 2 ^ 32) (hb : 2 ^ 32 ≤ b.length) (hs : Ok s) (hr : rest s = encode (.data a) ++ b ++ tail)
    (alloc rec : Status) :
    ∃ s' st r, readBoxed e rd s alloc rec .data = some (s', st, r) ∧
      (st = SUCCESS → r ≠ some (.data (a ++ b)) ∧ r = some (.data a) ∧ rest s' = b ++ tail) := by
  obtain ⟨s', st, r, h1, h2, _⟩ := read_boxed_round_trip rd Ok rest R e s (.data a) (b ++ tail) hs ha (by rw [hr, List.append_assoc]) alloc rec
  refine ⟨s', st, r, h1, fun h => ⟨fun hx => ?_, h2 h⟩⟩
  rw [(h2 h).1] at hx
  have := congrArg List.length (Val.data.inj (Option.some.inj hx))
  rw [List.length_append] at this
  omega

/-! ### Cases that meet the hypotheses -/

/-- An async socket that takes every write is given 2^32 + 5 bytes: five are a value, the others are not. -/
example : ∃ s' a b, writeBoxed .little asyncWrite ([], []) (.data (List.replicate (2 ^ 32 + 5) 7)) = some (s', SUCCESS) ∧
    List.replicate (2 ^ 32 + 5) 7 = a ++ b ∧ a.length < 2 ^ 32 ∧ 2 ^ 32 ≤ b.length ∧ s'.2 = [] ++ encode (.data a) ++ b :=
  long_data_violated asyncWrite HealthyW (·.2) asyncWrite_stream asyncWrite_full .little ([], []) _ (by rw [List.length_replicate]; omega) (by
    intro e he; nomatch he)

/-- A string of 2^32 bytes is refused, and nothing is sent. -/
example : ∃ st, writeBoxed .little asyncWrite ([], []) (.string (List.replicate (2 ^ 32) 7)) = some (([], []), st) ∧ st ≠ SUCCESS :=
  (long_string_refused asyncWrite HealthyW (·.2) asyncWrite_stream .little ([], []) _ (by intro h; exact absurd (List.eq_of_mem_replicate h) (by decide))
    (by intro e he; nomatch he)).1 (by rw [List.length_replicate]; omega)

end Rcpr.Psock
