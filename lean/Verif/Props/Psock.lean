import Verif.PsockBuf

/-! Properties C19 to C23, C46 and C47: the wire format, raw data and the buffer psock. -/
namespace Rcpr.Psock

open Rcpr

variable {σ : Type}

/-! ### C19: boxed values -/

/-- C19, sending: over every byte-stream transport and on both kinds of hosts, a boxed write that
reports success has appended exactly the encoding of the value to the stream. -/
theorem write_boxed_wire (wr : Writer σ) (Ok : σ → Prop) (out : σ → List Byte)
    (W : StreamWriter wr Ok out) (e : Endian) (s s' : σ) (v : Val) (hv : v.Valid) (hs : Ok s)
    (h : writeBoxed e wr s v = some (s', SUCCESS)) : Ok s' ∧ out s' = out s ++ encode v :=
  writeBoxed_sound W hv hs h

/-- C19, sending: over a transport that takes every write, every boxed write succeeds. -/
theorem write_boxed_succeeds (wr : Writer σ) (Ok : σ → Prop) (out : σ → List Byte)
    (W : StreamWriter wr Ok out) (F : FullW wr Ok) (e : Endian) (s : σ) (v : Val) (hv : v.Valid)
    (hs : Ok s) : ∃ s', writeBoxed e wr s v = some (s', SUCCESS) ∧ Ok s' ∧ out s' = out s ++ encode v := by
  obtain ⟨s', h⟩ := writeBoxed_full W F (e := e) hv hs
  obtain ⟨h1, h2⟩ := writeBoxed_sound W hv hs h
  exact ⟨s', h, h1, h2⟩

/-- C19, receiving: over every byte-stream transport (which may deliver less than asked for or fail
at any time), when the stream holds an encoded value followed by anything, a boxed read of its type
either fails without a value, or yields exactly that value and leaves exactly what follows. -/
theorem read_boxed_round_trip (rd : Reader σ) (Ok : σ → Prop) (rest : σ → List Byte)
    (R : StreamReader rd Ok rest) (e : Endian) (s : σ) (v : Val) (tail : List Byte) (hs : Ok s)
    (hv : v.Valid) (hr : rest s = encode v ++ tail) (alloc rec : Status) :
    ∃ s' st r, readBoxed e rd s alloc rec v.ty = some (s', st, r) ∧
      (st = SUCCESS → r = some v ∧ rest s' = tail) ∧ (st ≠ SUCCESS → r = none) := by
  obtain ⟨s', st, r, h1, _, h3, h4⟩ := readBoxed_sound R e hs hv hr alloc rec v.ty
  exact ⟨s', st, r, h1, fun h => (h3 h).2, h4⟩

/-- C19, receiving: over a transport that delivers what it is asked for, the read succeeds. For an
empty string or empty data the transport must also accept a read of zero bytes. -/
theorem read_boxed_succeeds (rd : Reader σ) (Ok : σ → Prop) (rest : σ → List Byte)
    (R : StreamReader rd Ok rest) (F : Full rd Ok rest) (e : Endian) (s : σ) (v : Val)
    (tail : List Byte) (hs : Ok s) (hv : v.Valid) (hr : rest s = encode v ++ tail) (rec : Status)
    (hz : v.Empty → ∀ s, Ok s → rest s = tail → ZeroReadOk rd s) :
    ∃ s', readBoxed e rd s SUCCESS rec v.ty = some (s', SUCCESS, some v) ∧ Ok s' ∧ rest s' = tail :=
  readBoxed_full R F e hs hv hr rec hz

/-- C19: a raw boolean is read as true exactly when its byte is not zero. -/
theorem read_raw_bool_nonzero (rd : Reader σ) (Ok : σ → Prop) (rest : σ → List Byte)
    (R : StreamReader rd Ok rest) (F : Full rd Ok rest) (s : σ) (b : Byte) (tail : List Byte) (hs : Ok s)
    (hr : rest s = b :: tail) :
    ∃ s' v, readRawBool rd s = some (s', SUCCESS, some v) ∧ (v = true ↔ b ≠ 0) ∧ Ok s' ∧ rest s' = tail := by
  obtain ⟨s', d, h1, h2⟩ := F s 1 hs (by omega) (by rw [hr]; simp)
  obtain ⟨h3, _, h4⟩ := R.step s 1 true s' _ d hs h1
  match d, h2 with
  | [c], _ =>
    rw [hr] at h4
    simp only [List.cons_append, List.nil_append, List.cons.injEq] at h4
    obtain ⟨rfl, rfl⟩ := h4
    refine ⟨s', if b ≠ 0 then true else false, ?_, ?_, h3, rfl⟩
    · simp only [readRawBool, h1, bind, Option.bind]
      rfl
    · by_cases hb : b = 0 <;> simp [hb]

/-- C19: different values have different encodings, and no encoding is the beginning of another. -/
theorem encode_prefix_free (v w : Val) (a b : List Byte) (hv : v.Valid) (hw : w.Valid)
    (h : encode v ++ a = encode w ++ b) : v = w ∧ a = b := by
  have R := pbRead_stream
  have F := pbRead_full
  let s : PB := ⟨some (encode v ++ a ++ [0]), 0, none, none, 0, 0, 0⟩
  have hr : s.rest = encode v ++ (a ++ [0]) := by simp [s, PB.rest]
  have hr2 : s.rest = encode w ++ (b ++ [0]) := by simp [s, PB.rest, ← List.append_assoc, h]
  obtain ⟨s', h1, _, h3⟩ := readBoxed_full R F .little trivial hv hr SUCCESS
    (fun _ s _ h => pbRead_zero.2 (by simp [h]))
  obtain ⟨s2, st, r, h4, _, h6, _⟩ := readBoxed_sound R .little trivial hw hr2 SUCCESS SUCCESS v.ty
  rw [h1] at h4
  simp only [Option.some.injEq, Prod.mk.injEq] at h4
  obtain ⟨rfl, rfl, rfl⟩ := h4
  obtain ⟨_, h7, h8⟩ := h6 rfl
  rw [h3] at h8
  exact ⟨by simpa using h7, List.append_cancel_right h8⟩

example : (Val.string [104, 105]).Valid ∧ encode (.string [104, 105]) = [0, 0, 0, 32, 0, 0, 0, 2, 104, 105] := by
  refine ⟨⟨by decide, by decide⟩, by decide⟩
example : encode (.int .int16 0xfffe) = [0, 0, 0, 20, 255, 254] := by decide
example : writeBoxed .little (fun (s : List Byte) d => some (s ++ d, SUCCESS, d.length)) [] (.int .uint64 1) =
    some (encode (.int .uint64 1), SUCCESS) := by decide

/-! ### C21: wrong types -/

/-- C21: when the next item on the stream is an encoded value of another type, no boxed read ever
returns a value, whatever the transport does. -/
theorem read_boxed_wrong_type_never_succeeds (rd : Reader σ) (Ok : σ → Prop) (rest : σ → List Byte)
    (R : StreamReader rd Ok rest) (e : Endian) (s : σ) (v : Val) (tail : List Byte) (hs : Ok s)
    (hv : v.Valid) (hr : rest s = encode v ++ tail) (alloc rec : Status) (t : Ty) (ht : t ≠ v.ty) :
    ∃ s' st, readBoxed e rd s alloc rec t = some (s', st, none) ∧ st ≠ SUCCESS := by
  obtain ⟨s', st, r, h1, _, h3, h4⟩ := readBoxed_sound R e hs hv hr alloc rec t
  have : st ≠ SUCCESS := fun h => ht (h3 h).1
  exact ⟨s', st, by rw [h1, h4 this], this⟩

/-- C21: over a transport that delivers what it is asked for, the status is
`ERROR_PSOCK_READ_BOXED_INVALID_TYPE` and only the type code has been consumed. -/
theorem read_boxed_wrong_type (rd : Reader σ) (Ok : σ → Prop) (rest : σ → List Byte)
    (R : StreamReader rd Ok rest) (F : Full rd Ok rest) (e : Endian) (s : σ) (v : Val)
    (tail : List Byte) (hs : Ok s) (hr : rest s = encode v ++ tail) (alloc rec : Status)
    (t : Ty) (ht : t ≠ v.ty) :
    ∃ s', readBoxed e rd s alloc rec t = some (s', ERROR_PSOCK_READ_BOXED_INVALID_TYPE, none) ∧
      rest s' = (encode v ++ tail).drop 4 := by
  obtain ⟨s', h1, _, h3⟩ := readBoxed_wrong_full R F e hs hr alloc rec ht
  refine ⟨s', h1, ?_⟩
  rw [h3, encode_eq, List.append_assoc, List.drop_append_of_le_length (by rw [be_length]; decide),
    List.drop_of_length_le (by rw [be_length]; decide), List.nil_append]

example : (readBoxed .little pbRead ⟨some (encode (.int .int32 7)), 0, none, none, 0, 0, 0⟩ SUCCESS SUCCESS
    (.int .uint32)).map (fun r => r.2) = some (ERROR_PSOCK_READ_BOXED_INVALID_TYPE, none) := by decide

/-! ### C23: raw data -/

/-- C23, sending: whatever pieces the transport takes, a raw write that reports success has sent
exactly the data. -/
theorem write_raw_data_exact (wr : Writer σ) (Ok : σ → Prop) (out : σ → List Byte)
    (W : StreamWriter wr Ok out) (s : σ) (data : List Byte) (hs : Ok s) :
    ∃ s' st, writeRawData wr s data = some (s', st) ∧
      (st = SUCCESS → Ok s' ∧ out s' = out s ++ data) := by
  obtain ⟨s', st, left, h1, h2⟩ := writeLoop_sound W (data.length + 1) s data hs (by omega)
  by_cases hst : st = SUCCESS
  · subst hst
    obtain ⟨o1, sent, o2, o3⟩ := h2 rfl
    by_cases hl : left = []
    · subst hl
      refine ⟨s', SUCCESS, by simp [writeRawData, h1], fun _ => ⟨o1, ?_⟩⟩
      rw [o3, o2, List.append_nil]
    · have : 0 < left.length := List.length_pos_iff.2 hl
      exact ⟨s', ERROR_PSOCK_WRITE_INVALID_SIZE, by simp [writeRawData, h1, this],
        fun h => absurd h (by decide)⟩
  · exact ⟨s', st, by simp [writeRawData, h1, hst], fun h => absurd h hst⟩

/-- every write takes at least one byte -/
def ProgressW (wr : Writer σ) (Ok : σ → Prop) : Prop :=
  ∀ s d, Ok s → d ≠ [] → ∃ s' n, wr s d = some (s', SUCCESS, n) ∧ 0 < n

/-- C23, sending: over a transport that takes at least one byte each time, all data is sent, once
and in order. -/
theorem write_raw_data_delivers (wr : Writer σ) (Ok : σ → Prop) (out : σ → List Byte)
    (W : StreamWriter wr Ok out) (P : ProgressW wr Ok) (s : σ) (data : List Byte) (hs : Ok s) :
    ∃ s', writeRawData wr s data = some (s', SUCCESS) ∧ out s' = out s ++ data := by
  have key : ∀ (fuel : Nat) (s : σ) (d : List Byte), Ok s → d.length < fuel →
      ∃ s', writeLoop wr fuel s d = some (s', SUCCESS, []) := by
    intro fuel
    induction fuel with
    | zero => intro s d _ h; omega
    | succ fuel ih =>
      intro s d hs hf
      unfold writeLoop
      by_cases hd : d = []
      · exact ⟨s, by simp [hd]⟩
      · have hl : 0 < d.length := List.length_pos_iff.2 hd
        obtain ⟨s1, n, h1, h2⟩ := P s d hs hd
        obtain ⟨h3, h4, _⟩ := W.step _ _ _ _ hs h1
        obtain ⟨s', h5⟩ := ih s1 (d.drop n) h3 (by rw [List.length_drop]; omega)
        refine ⟨s', ?_⟩
        rw [if_neg (by omega), h1]
        simp only [ne_eq, not_true, if_false]
        rw [if_neg (by omega), if_neg (by omega), h5]
  obtain ⟨s', h⟩ := key (data.length + 1) s data hs (by omega)
  have hw : writeRawData wr s data = some (s', SUCCESS) := by simp [writeRawData, h]
  obtain ⟨s2, st, h1, h2⟩ := write_raw_data_exact wr Ok out W s data hs
  rw [hw] at h1
  simp only [Option.some.injEq, Prod.mk.injEq] at h1
  obtain ⟨rfl, rfl⟩ := h1
  exact ⟨s', hw, (h2 rfl).2⟩

/-- C23, receiving: whatever pieces the transport delivers, a raw read that reports success hands
over exactly the next `n` bytes of the stream. -/
theorem read_raw_data_exact (rd : Reader σ) (Ok : σ → Prop) (rest : σ → List Byte)
    (R : StreamReader rd Ok rest) (s : σ) (n : Nat) (alloc rec : Status) (hs : Ok s) :
    ∃ r, readRawData rd s n alloc rec = some r ∧
      (r.st = SUCCESS → ∃ d, r.val = some d ∧ d.length = n ∧ rest s = d ++ rest r.sock) ∧
      (r.st ≠ SUCCESS → r.val = none) := by
  by_cases hal : alloc = SUCCESS
  · obtain ⟨s', st, d, left, h1, h2, h3, h4⟩ := readLoop_sound R (n + 1) s n [] hs (by omega)
    rw [List.nil_append] at h1
    by_cases hst : st = SUCCESS
    · subst hst
      by_cases hl : left = 0
      · refine ⟨⟨s', SUCCESS, some d, true⟩, by simp [readRawData, hal, h1, hl], fun _ => ?_, fun h => absurd rfl h⟩
        have := h4 rfl
        exact ⟨d, rfl, by omega, h3⟩
      · exact ⟨⟨s', ERROR_PSOCK_READ_INVALID_SIZE, none, false⟩, by simp [readRawData, hal, h1, hl],
          fun h => absurd h (by show ERROR_PSOCK_READ_INVALID_SIZE ≠ SUCCESS; decide), fun _ => rfl⟩
    · exact ⟨⟨s', st, none, false⟩, by simp [readRawData, hal, h1, hst], fun h => absurd h hst, fun _ => rfl⟩
  · exact ⟨⟨s, alloc, none, false⟩, by simp [readRawData, hal], fun h => absurd h hal, fun _ => rfl⟩

/-- a blocking read delivers at least one byte as long as there are any -/
def Progress (rd : Reader σ) (Ok : σ → Prop) (rest : σ → List Byte) : Prop :=
  ∀ s n, Ok s → 0 < n → rest s ≠ [] → ∃ s' d, rd s n true = some (s', SUCCESS, d) ∧ d ≠ []

/-- C23, receiving: over a transport that delivers at least one byte each time, the read succeeds
with exactly the next `n` bytes. -/
theorem read_raw_data_delivers (rd : Reader σ) (Ok : σ → Prop) (rest : σ → List Byte)
    (R : StreamReader rd Ok rest) (P : Progress rd Ok rest) (s : σ) (n : Nat) (rec : Status) (hs : Ok s)
    (hn : n ≤ (rest s).length) :
    ∃ s', readRawData rd s n SUCCESS rec = some ⟨s', SUCCESS, some ((rest s).take n), true⟩ ∧
      rest s' = (rest s).drop n := by
  have key : ∀ (fuel : Nat) (s : σ) (n : Nat) (acc : List Byte), Ok s → n < fuel → n ≤ (rest s).length →
      ∃ s' d, readLoop rd fuel s n acc = some (s', SUCCESS, d, 0) := by
    intro fuel
    induction fuel with
    | zero => intro s n acc _ h; omega
    | succ fuel ih =>
      intro s n acc hs hf hn
      unfold readLoop
      by_cases hn0 : n = 0
      · exact ⟨s, acc, by simp [hn0]⟩
      · obtain ⟨s1, d, h1, h2⟩ := P s n hs (by omega) (by intro h; rw [h] at hn; simp at hn; omega)
        have hl : 0 < d.length := List.length_pos_iff.2 h2
        obtain ⟨h3, h4, h5⟩ := R.step _ _ _ _ _ _ hs h1
        obtain ⟨s', d', h6⟩ := ih s1 (n - d.length) (acc ++ d) h3 (by omega)
          (by rw [h5, List.length_append] at hn; omega)
        refine ⟨s', d', ?_⟩
        rw [if_neg hn0, h1]
        simp only [ne_eq, not_true, if_false]
        rw [if_neg (by omega), if_neg (by omega), h6]
  obtain ⟨s', d, h⟩ := key (n + 1) s n [] hs (by omega) hn
  have hw : readRawData rd s n SUCCESS rec = some ⟨s', SUCCESS, some d, true⟩ := by
    simp [readRawData, h]
  obtain ⟨r, h1, h2, _⟩ := read_raw_data_exact rd Ok rest R s n SUCCESS rec hs
  rw [hw] at h1
  simp only [Option.some.injEq] at h1
  subst h1
  obtain ⟨d', e1, e2, e3⟩ := h2 rfl
  simp only [Option.some.injEq] at e1
  subst e1
  refine ⟨s', ?_, ?_⟩
  · rw [hw, e3, List.take_append_of_le_length (by omega), List.take_of_length_le (by omega)]
  · rw [e3, List.drop_append_of_le_length (by omega), List.drop_of_length_le (by omega), List.nil_append]

/-- a transport that delivers at most three bytes at a time -/
def byThree : Reader (List Byte) := fun s n _ =>
  some (s.drop (if n > 3 then 3 else n), SUCCESS, s.take (if n > 3 then 3 else n))

-- it meets the hypotheses of the theorems above
example : StreamReader byThree (fun _ => True) id ∧ Progress byThree (fun _ => True) id := by
  refine ⟨⟨fun s n b _ => rfl, ?_⟩, ?_⟩
  · intro s n b s' st d _ h
    simp only [byThree, Option.some.injEq, Prod.mk.injEq] at h
    obtain ⟨rfl, rfl, rfl⟩ := h
    refine ⟨trivial, ?_, by simp⟩
    rw [List.length_take]; split <;> omega
  · intro s n _ hn hr
    refine ⟨_, _, rfl, ?_⟩
    cases s with
    | nil => exact absurd rfl hr
    | cons a s =>
      split
      · simp
      · cases n with
        | zero => omega
        | succ n => simp
example : (readRawData byThree [1, 2, 3, 4, 5, 6, 7, 8] 7 SUCCESS SUCCESS).map
    (fun r => (r.sock, r.val)) = some ([8], some [1, 2, 3, 4, 5, 6, 7]) := by decide
example : (writeRawData (fun (s : List Byte) d => some (s ++ d.take 3, SUCCESS, (d.take 3).length)) []
    [1, 2, 3, 4, 5, 6, 7]) = some ([1, 2, 3, 4, 5, 6, 7], SUCCESS) := by decide

/-! ### C46: no buffer is lost -/

/-- C46: `psock_read_raw_data`, `psock_read_boxed_string` and `psock_read_boxed_data` leave a buffer
allocated exactly when they hand it to the caller, and they hand one over exactly when they report
success (for every transport, misbehaving ones included). -/
theorem read_buffer_accounted (rd : Reader σ) (e : Endian) (s : σ) (n : Nat) (alloc rec : Status)
    (r : BufRes σ) (h : readRawData rd s n alloc rec = some r ∨ readBoxedString e rd s alloc rec = some r ∨
      readBoxedData e rd s alloc rec = some r) :
    (r.held = true ↔ r.val.isSome) ∧ (r.val.isSome ↔ r.st = SUCCESS) := by
  have hZ : ERROR_PSOCK_READ_INVALID_SIZE ≠ SUCCESS := by decide
  have hT : ERROR_PSOCK_READ_BOXED_INVALID_TYPE ≠ SUCCESS := by decide
  have hB : ERROR_PSOCK_READ_BOXED_INVALID_SIZE ≠ SUCCESS := by decide
  rcases h with h | h | h
  · unfold readRawData at h
    by_cases hal : alloc = SUCCESS
    · rw [if_neg (by simp [hal])] at h
      rcases h1 : readLoop rd (n + 1) s n [] with _ | ⟨s1, st, d, left⟩
      · simp [h1] at h
      · simp only [h1, bind, Option.bind] at h
        by_cases hst : st = SUCCESS
        · rw [if_neg (by simp [hst])] at h
          split at h
          · simp only [pure, Option.some.injEq] at h; subst h; simp [hZ]
          · simp only [pure, Option.some.injEq] at h; subst h; simp
        · rw [if_pos hst] at h
          simp only [pure, Option.some.injEq] at h; subst h; simp [hst]
    · rw [if_pos hal] at h
      simp only [pure, Option.some.injEq] at h; subst h; simp [hal]
  · unfold readBoxedString at h
    rcases h1 : readRawU32 e rd s with _ | ⟨s1, st, ty⟩
    · simp [h1] at h
    · simp only [h1, bind, Option.bind] at h
      by_cases hst : st = SUCCESS
      · rw [if_neg (by simp [hst])] at h
        split at h
        · simp only [pure, Option.some.injEq] at h; subst h; simp [hT]
        · rcases h2 : readRawU32 e rd s1 with _ | ⟨s2, st2, sz⟩
          · simp [h2] at h
          · simp only [h2] at h
            by_cases hst2 : st2 = SUCCESS
            · rw [if_neg (by simp [hst2])] at h
              rcases sz with _ | sz
              · simp at h
              · simp only at h
                split at h
                · simp only [pure, Option.some.injEq] at h; subst h; simp [hB]
                · split at h
                  · rename_i hal
                    simp only [pure, Option.some.injEq] at h; subst h; simpa using hal
                  · rcases h3 : rd s2 sz.toNat true with _ | ⟨s3, st3, d⟩
                    · simp [h3] at h
                    · simp only [h3] at h
                      by_cases hst3 : st3 = SUCCESS
                      · rw [if_neg (by simp [hst3])] at h
                        split at h
                        · simp only [pure, Option.some.injEq] at h; subst h; simp [hZ]
                        · simp only [pure, Option.some.injEq] at h; subst h; simp
                      · rw [if_pos hst3] at h
                        simp only [pure, Option.some.injEq] at h; subst h; simp [hst3]
            · rw [if_pos hst2] at h
              simp only [pure, Option.some.injEq] at h; subst h; simp [hst2]
      · rw [if_pos hst] at h
        simp only [pure, Option.some.injEq] at h; subst h; simp [hst]
  · unfold readBoxedData at h
    rcases h1 : readRawU32 e rd s with _ | ⟨s1, st, ty⟩
    · simp [h1] at h
    · simp only [h1, bind, Option.bind] at h
      by_cases hst : st = SUCCESS
      · rw [if_neg (by simp [hst])] at h
        split at h
        · simp only [pure, Option.some.injEq] at h; subst h; simp [hT]
        · rcases h2 : readRawU32 e rd s1 with _ | ⟨s2, st2, sz⟩
          · simp [h2] at h
          · simp only [h2] at h
            by_cases hst2 : st2 = SUCCESS
            · rw [if_neg (by simp [hst2])] at h
              rcases sz with _ | sz
              · simp at h
              · simp only at h
                split at h
                · rename_i hal
                  simp only [pure, Option.some.injEq] at h; subst h; simpa using hal
                · rcases h3 : rd s2 sz.toNat true with _ | ⟨s3, st3, d⟩
                  · simp [h3] at h
                  · simp only [h3] at h
                    by_cases hst3 : st3 = SUCCESS
                    · rw [if_neg (by simp [hst3])] at h
                      split at h
                      · simp only [pure, Option.some.injEq] at h; subst h; simp [hZ]
                      · simp only [pure, Option.some.injEq] at h; subst h; simp
                    · rw [if_pos hst3] at h
                      simp only [pure, Option.some.injEq] at h; subst h; simp [hst3]
            · rw [if_pos hst2] at h
              simp only [pure, Option.some.injEq] at h; subst h; simp [hst2]
      · rw [if_pos hst] at h
        simp only [pure, Option.some.injEq] at h; subst h; simp [hst]

example : (readBoxedString .little pbRead ⟨some [0, 0, 0, 32, 0, 0, 0, 9, 104], 0, none, none, 0, 0, 0⟩
    SUCCESS SUCCESS).map (fun r => (r.st, r.val, r.held)) =
    some (ERROR_PSOCK_READ_INVALID_SIZE, none, false) := by decide

/-! ### C22: output of a buffer psock -/

/-- writes one after the other, each with its own allocator answers -/
def pbWrites (pb : PB) : List (WAns × List Byte) → Option (PB × List (Status × Nat))
  | [] => some (pb, [])
  | (ans, d) :: ws =>
    match pbWrite ans pb d with
    | none => none
    | some (pb, st, n) =>
      match pbWrites pb ws with
      | none => none
      | some (pb, rs) => some (pb, (st, n) :: rs)

/-- C22: for every sequence of writes of any sizes to a new buffer psock, if all report success then
each reports its full size, and the output buffer is exactly the concatenation of the data. -/
theorem buffer_output_is_concatenation (pb0 pb : PB) (junk : Nat → Byte)
    (hc : pbCreate none SUCCESS SUCCESS SUCCESS SUCCESS junk = (SUCCESS, some pb0))
    (ws : List (WAns × List Byte)) (rs : List (Status × Nat)) (h : pbWrites pb0 ws = some (pb, rs))
    (hok : ∀ r ∈ rs, r.1 = SUCCESS) (junk' : Nat → Byte) :
    rs.map (·.2) = ws.map (fun w => w.2.length) ∧
    getOutput SUCCESS junk' pb = (SUCCESS, some (ws.map (·.2)).flatten) := by
  have key : ∀ (ws : List (WAns × List Byte)) (pb0 : PB) (rs : List (Status × Nat)), pb0.Ok →
      pbWrites pb0 ws = some (pb, rs) → (∀ r ∈ rs, r.1 = SUCCESS) →
      pb.Ok ∧ rs.map (·.2) = ws.map (fun w => w.2.length) ∧
        pb.out = pb0.out ++ (ws.map (·.2)).flatten := by
    intro ws
    induction ws with
    | nil =>
      intro pb0 rs h0 h _
      simp only [pbWrites, Option.some.injEq, Prod.mk.injEq] at h
      obtain ⟨rfl, rfl⟩ := h
      exact ⟨h0, rfl, by simp⟩
    | cons w ws ih =>
      intro pb0 rs h0 h hok
      obtain ⟨ans, d⟩ := w
      unfold pbWrites at h
      rcases h1 : pbWrite ans pb0 d with _ | ⟨pb1, st, n⟩
      · simp [h1] at h
      · simp only [h1] at h
        rcases h2 : pbWrites pb1 ws with _ | ⟨pb2, rs2⟩
        · simp [h2] at h
        · simp only [h2, Option.some.injEq, Prod.mk.injEq] at h
          obtain ⟨rfl, rfl⟩ := h
          have hst : st = SUCCESS := hok (st, n) List.mem_cons_self
          subst hst
          obtain ⟨a1, a2, a3⟩ := (pbWrite_ok h0 d).2.1 pb1 n h1
          obtain ⟨b1, b2, b3⟩ := ih pb1 rs2 a1 h2 (fun r hr => hok r (List.mem_cons_of_mem _ hr))
          refine ⟨b1, by simp [a2, b2], ?_⟩
          rw [b3, a3]; simp
  have h0 : pb0.Ok ∧ pb0.out = [] := by
    simp [pbCreate] at hc
    subst hc
    refine ⟨⟨rfl, ⟨_, rfl, by simp⟩, rfl, by show 0 < bufferSize; decide, ?_⟩, ?_⟩ <;> simp [PB.out]
  obtain ⟨a1, a2, a3⟩ := key ws pb0 rs h0.1 h hok
  refine ⟨a2, ?_⟩
  rw [getOutput_ok a1, a3, h0.2, List.nil_append]

/-- C22, creation: the call succeeds exactly if it gives a psock, and it does so exactly if every allocation it makes succeeds. -/
theorem buffer_create (buffer : Option (List Byte)) (a1 a2 a3 rel : Status) (junk : Nat → Byte) :
    ((pbCreate buffer a1 a2 a3 rel junk).1 = SUCCESS ↔ (pbCreate buffer a1 a2 a3 rel junk).2.isSome) ∧
    ((pbCreate buffer a1 a2 a3 rel junk).2.isSome ↔ a1 = SUCCESS ∧ a2 = SUCCESS ∧ (buffer = none → a3 = SUCCESS)) ∧
    (∀ pb, (pbCreate buffer a1 a2 a3 rel junk).2 = some pb → pb.rest = buffer.toList.flatten) := by
  unfold pbCreate
  cases buffer <;> by_cases h1 : a1 = SUCCESS <;> by_cases h2 : a2 = SUCCESS <;> by_cases h3 : a3 = SUCCESS <;>
    by_cases h4 : rel = SUCCESS <;> simp [h1, h2, h3, h4, PB.rest]

example : (pbCreate none SUCCESS SUCCESS ERROR_GENERAL_OUT_OF_MEMORY SUCCESS fun _ => 0).1 = ERROR_GENERAL_OUT_OF_MEMORY := by decide

/-- C22: with an allocator that does not fail every write succeeds. -/
theorem buffer_writes_succeed (pb0 : PB) (junk : Nat → Byte)
    (hc : pbCreate none SUCCESS SUCCESS SUCCESS SUCCESS junk = (SUCCESS, some pb0))
    (ds : List (List Byte)) :
    ∃ pb rs, pbWrites pb0 (ds.map fun d => (okAns, d)) = some (pb, rs) ∧ ∀ r ∈ rs, r.1 = SUCCESS := by
  have key : ∀ (ds : List (List Byte)) (pb0 : PB), pb0.Ok →
      ∃ pb rs, pbWrites pb0 (ds.map fun d => (okAns, d)) = some (pb, rs) ∧ ∀ r ∈ rs, r.1 = SUCCESS := by
    intro ds
    induction ds with
    | nil => intro pb0 _; exact ⟨pb0, [], rfl, by simp⟩
    | cons d ds ih =>
      intro pb0 h0
      obtain ⟨pb1, h1⟩ := pbWrite_full pb0 d h0
      obtain ⟨a1, _⟩ := (pbWrite_ok h0 d).2.1 pb1 _ h1
      obtain ⟨pb, rs, h2, h3⟩ := ih pb1 a1
      refine ⟨pb, (SUCCESS, d.length) :: rs, ?_, ?_⟩
      · simp only [List.map_cons, pbWrites, h1, h2]
      · intro r hr
        rcases List.mem_cons.1 hr with rfl | hr
        · rfl
        · exact h3 r hr
  refine key ds pb0 ?_
  simp [pbCreate] at hc
  subst hc
  exact ⟨rfl, ⟨_, rfl, by simp⟩, rfl, by show 0 < bufferSize; decide, by simp [PB.out]⟩

/-! ### C47: failed writes -/

/-- C47 fails: after a write of a whole buffer (4096 bytes `a`) that failed for lack of memory, a
write of one byte `b` succeeds, and the output buffer is not that byte but a byte of the failed
write. -/
theorem failed_write_corrupts_output (junk : Nat → Byte) (a b : Byte) :
    ∃ pb0 pb1 pb2,
      pbCreate none SUCCESS SUCCESS SUCCESS SUCCESS junk = (SUCCESS, some pb0) ∧
      pbWrite { okAns with node1 := ERROR_GENERAL_OUT_OF_MEMORY } pb0 (List.replicate 4096 a) =
        some (pb1, ERROR_GENERAL_OUT_OF_MEMORY, 0) ∧
      pbWrite okAns pb1 [b] = some (pb2, SUCCESS, 1) ∧
      getOutput SUCCESS junk pb2 = (SUCCESS, some [a]) := by
  have hne : ERROR_GENERAL_OUT_OF_MEMORY ≠ SUCCESS := by decide
  have hb : (4096 : Nat) = bufferSize := rfl
  rw [hb]
  obtain ⟨N, hN⟩ : ∃ N, bufferSize = N + 2 := ⟨4094, rfl⟩
  refine ⟨⟨none, 0, some [], some ((List.range bufferSize).map junk), bufferSize, 0, 0⟩,
    ⟨none, 0, some [], some (List.replicate bufferSize a), bufferSize, bufferSize, 0⟩,
    ⟨none, 0, some [List.replicate bufferSize a],
      some (b :: ((List.range bufferSize).map okAns.junk).drop 1), bufferSize, 1, 1⟩, ?_, ?_, ?_, ?_⟩
  · simp [pbCreate]
  · simp [pbWrite, put, hne, hN]
  · simp [pbWrite, okAns, pbWriteRest, hN, put, pbFinish]
  · simp [getOutput, copyOut, hN]

/-! ### C20: streams of boxed values through buffer psocks -/

/-- write calls one after the other, stopping at a failure -/
def writeSeq (e : Endian) (wr : Writer σ) (s : σ) : List Val → Option (σ × Status)
  | [] => some (s, SUCCESS)
  | v :: vs =>
    match writeBoxed e wr s v with
    | none => none
    | some (s, st) => if st ≠ SUCCESS then some (s, st) else writeSeq e wr s vs

/-- read calls one after the other, with an allocator that does not fail -/
def readSeq (e : Endian) (rd : Reader σ) (s : σ) : List Ty → Option (List (Status × Option Val))
  | [] => some []
  | t :: ts =>
    match readBoxed e rd s SUCCESS SUCCESS t with
    | none => none
    | some (s, st, v) =>
      match readSeq e rd s ts with
      | none => none
      | some rs => some ((st, v) :: rs)

/-- values with something after every empty string and empty data -/
def NoEmptyAtEnd (vs : List Val) : Prop := ∀ l v, vs = l ++ [v] → ¬ v.Empty

theorem encode_ne_nil (v : Val) : encode v ≠ [] := by
  rw [encode_eq]; intro h
  have := congrArg List.length h
  rw [List.length_append, be_length] at this
  simp at this

/-- C20 (part): any sequence of boxed values written to a new buffer psock on one host can be read
back from its output on another host (of either byte order) with the matching calls, and yields the
same sequence. Missing: a sequence that ends in an empty string or empty data, for which the last
read fails (`boxed_stream_violated`). -/
theorem boxed_stream_partial (e1 e2 : Endian) (vs : List Val) (hv : ∀ v ∈ vs, v.Valid)
    (hne : NoEmptyAtEnd vs) (junk : Nat → Byte) (pb0 : PB)
    (hc : pbCreate none SUCCESS SUCCESS SUCCESS SUCCESS junk = (SUCCESS, some pb0)) :
    ∃ pb1 buf pb2, writeSeq e1 (pbWrite okAns) pb0 vs = some (pb1, SUCCESS) ∧
      getOutput SUCCESS junk pb1 = (SUCCESS, some buf) ∧
      pbCreate (some buf) SUCCESS SUCCESS SUCCESS SUCCESS junk = (SUCCESS, some pb2) ∧
      readSeq e2 pbRead pb2 (vs.map Val.ty) = some (vs.map fun v => (SUCCESS, some v)) := by
  have hw : ∀ (vs : List Val) (pb : PB), pb.Ok → (∀ v ∈ vs, v.Valid) →
      ∃ pb1, writeSeq e1 (pbWrite okAns) pb vs = some (pb1, SUCCESS) ∧ pb1.Ok ∧
        pb1.out = pb.out ++ (vs.map encode).flatten := by
    intro vs
    induction vs with
    | nil => intro pb h _; exact ⟨pb, rfl, h, by simp⟩
    | cons v vs ih =>
      intro pb h hv
      obtain ⟨s', h1, h2, h3⟩ := write_boxed_succeeds _ _ _ (pbWrite_stream okAns) pbWrite_full e1 pb v
        (hv v List.mem_cons_self) h
      obtain ⟨pb1, h4, h5, h6⟩ := ih s' h2 (fun v h => hv v (List.mem_cons_of_mem _ h))
      refine ⟨pb1, by simp [writeSeq, h1, h4], h5, ?_⟩
      rw [h6, h3]; simp
  have hr : ∀ (vs : List Val) (pb : PB), (∀ v ∈ vs, v.Valid) → NoEmptyAtEnd vs →
      pb.rest = (vs.map encode).flatten →
      readSeq e2 pbRead pb (vs.map Val.ty) = some (vs.map fun v => (SUCCESS, some v)) := by
    intro vs
    induction vs with
    | nil => intro pb _ _ _; rfl
    | cons v vs ih =>
      intro pb hv hne hrest
      obtain ⟨s', h1, _, h3⟩ := readBoxed_full pbRead_stream pbRead_full e2 (s := pb) (v := v)
        (tail := (vs.map encode).flatten) trivial (hv v List.mem_cons_self)
        (by rw [hrest]; simp) SUCCESS (by
          intro hem s _ hs
          rw [pbRead_zero, hs]
          cases vs with
          | nil => exact absurd hem (hne [] v rfl)
          | cons u us =>
            intro h
            simp only [List.map_cons, List.flatten_cons, List.append_eq_nil_iff] at h
            exact encode_ne_nil u h.1)
      have := ih s' (fun v h => hv v (List.mem_cons_of_mem _ h))
        (fun l w h => hne (v :: l) w (by rw [h]; rfl)) h3
      simp [readSeq, h1, this]
  have h0 : pb0.Ok ∧ pb0.out = [] := by
    simp [pbCreate] at hc
    subst hc
    refine ⟨⟨rfl, ⟨_, rfl, by simp⟩, rfl, by show 0 < bufferSize; decide, ?_⟩, ?_⟩ <;> simp [PB.out]
  obtain ⟨pb1, w1, w2, w3⟩ := hw vs pb0 h0.1 hv
  refine ⟨pb1, pb1.out, _, w1, getOutput_ok w2 junk, rfl, ?_⟩
  apply hr vs _ hv hne
  rw [w3, h0.2]; simp [PB.rest]

/-- C20 fails: an empty string written as the last value cannot be read back from a buffer psock. -/
theorem boxed_stream_violated (e1 e2 : Endian) (junk : Nat → Byte) (pb0 : PB)
    (hc : pbCreate none SUCCESS SUCCESS SUCCESS SUCCESS junk = (SUCCESS, some pb0)) :
    ∃ pb1 buf pb2, writeSeq e1 (pbWrite okAns) pb0 [.string []] = some (pb1, SUCCESS) ∧
      getOutput SUCCESS junk pb1 = (SUCCESS, some buf) ∧
      pbCreate (some buf) SUCCESS SUCCESS SUCCESS SUCCESS junk = (SUCCESS, some pb2) ∧
      readSeq e2 pbRead pb2 [.string] = some [(ERROR_PSOCK_READ_EOF, none)] := by
  have h0 : pb0.Ok ∧ pb0.out = [] := by
    simp [pbCreate] at hc
    subst hc
    refine ⟨⟨rfl, ⟨_, rfl, by simp⟩, rfl, by show 0 < bufferSize; decide, ?_⟩, ?_⟩ <;> simp [PB.out]
  obtain ⟨pb1, h1, h2, h3⟩ := write_boxed_succeeds _ _ _ (pbWrite_stream okAns) pbWrite_full e1 pb0
    (.string []) ⟨by simp, by decide⟩ h0.1
  refine ⟨pb1, pb1.out, _, by simp [writeSeq, h1], getOutput_ok h2 junk, rfl, ?_⟩
  rw [h3, h0.2]
  cases e2 <;> decide

example : NoEmptyAtEnd [.string [], .data [0], .int .int8 5, .bool true] := by
  intro l v h
  have := congrArg List.getLast? h
  simp at this
  subst this
  simp [Val.Empty]
example : readSeq .big pbRead
    ⟨some (([Val.string [], .data [0], .int .int8 5, .bool true].map encode).flatten), 0, none, none, 0, 0, 0⟩
    [.string, .data, .int .int8, .bool] =
    some [(SUCCESS, some (.string [])), (SUCCESS, some (.data [0])), (SUCCESS, some (.int .int8 5)),
      (SUCCESS, some (.bool true))] := by decide

end Rcpr.Psock
