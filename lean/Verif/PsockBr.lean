import Verif.PsockAsync

/-!
Model of the buffered reader: `psock_br_create_from_psock.c`, `psock_br_fill.c`,
`psock_br_psock_read.c` and `psock_br_read_line.c` in `src/psock`.

Simplifications: the look-up of the wrapped socket's vtable succeeds. Sizes are natural numbers: the
subtractions `current_size - offset`, `max_size - current_size` would wrap if the smaller were
larger, which the model calls undefined and the invariant `BR.Ok` excludes.
-/
namespace Rcpr.Psock

open Rcpr

variable {σ : Type}

/-- `PSOCK_BR_BUFFER_SIZE` (src/psock/psock_internal.h:48) -/
def brBufferSize : Nat := 16384

/-- `struct psock_br` (src/psock/psock_internal.h); `buf` has `max_size` bytes -/
structure BR (σ : Type) where
  sock : σ
  buf : List Byte
  cur : Nat
  off : Nat
  err : Bool

/-- `psock_br_create_from_psock` (src/psock/psock_br_create_from_psock.c:69-139): `a1` answers the
allocation of the structure, `a2` that of the buffer, `rel` the release of the structure. The result
is the status and what is stored to `*br`. The test at line 132 looks at `retval`, so the status of
the release replaces the failure. -/
def brCreate (sock : σ) (a1 a2 rel : Status) (junk : Nat → Byte) : Status × Option (BR σ) :=
  if a1 ≠ SUCCESS then (a1, none)
  else if a2 ≠ SUCCESS then
    let retval := a2
    (if retval ≠ SUCCESS then rel else retval, none)
  else (SUCCESS, some ⟨sock, (List.range brBufferSize).map junk, 0, 0, false⟩)

/-- `psock_br_fill` (src/psock/psock_br_fill.c:28-88). Bytes delivered by a failing read are stored
but not counted. -/
def brFill (rd : Reader σ) (br : BR σ) : Option (BR σ × Status) :=
  if br.off > br.cur then none
  else
    match (if br.off > 0 then
        (put br.buf 0 ((br.buf.drop br.off).take (br.cur - br.off))).map
          fun b => { br with buf := b, cur := br.cur - br.off, off := 0 }
      else some br) with
    | none => none
    | some br =>
      if br.cur > br.buf.length then none
      else
        match rd br.sock (br.buf.length - br.cur) false with
        | none => none
        | some (s, st, d) =>
          match put br.buf br.cur d with
          | none => none
          | some b =>
            let br := { br with sock := s, buf := b }
            if st ≠ SUCCESS then some (br, st)
            else if d.length = 0 then some (br, ERROR_PSOCK_READ_GENERAL)
            else some ({ br with cur := br.cur + d.length }, SUCCESS)

/-- the loop of `psock_br_psock_read` (src/psock/psock_br_psock_read.c:51-99). `available_bytes` is
`current_size - offset` whenever it is tested. -/
def brLoop (rd : Reader σ) (block : Bool) :
    Nat → BR σ → Nat → List Byte → Option (BR σ × Status × List Byte)
  | 0, _, _, _ => none
  | fuel + 1, br, n, acc =>
    if br.off > br.cur then none
    else
      match (if br.cur - br.off < n then brFill rd br else some (br, SUCCESS)) with
      | none => none
      | some (br, st) =>
        if st ≠ SUCCESS then some (br, st, acc)
        else if br.off > br.cur ∨ br.cur > br.buf.length then none
        else
          let copy := if br.cur - br.off < n then br.cur - br.off else n
          let acc := acc ++ (br.buf.drop br.off).take copy
          let br := { br with off := br.off + copy }
          if block = true ∧ n - copy > 0 then brLoop rd block fuel br (n - copy) acc
          else some (br, SUCCESS, acc)

/-- `psock_br_psock_read` (src/psock/psock_br_psock_read.c:31-103) -/
def brRead (rd : Reader σ) : Reader (BR σ) := fun br n block => brLoop rd block (n + 1) br n []

/-- state of the copy loop of `psock_br_read_line`: position of `inp` in the buffer,
`available_input`, `buffer_remaining`, the output buffer, position of `bbuf` in it, `copied_bytes`
(src/psock/psock_br_read_line.c:89-205) -/
structure LS where
  inp : Nat
  avail : Nat
  rem : Nat
  out : List Byte
  pos : Nat
  copied : Nat

/-- the inner loop (src/psock/psock_br_read_line.c:92-99) -/
def rlCopy (buf : List Byte) : Nat → LS → Option LS
  | 0, _ => none
  | fuel + 1, l =>
    if l.rem > 0 ∧ l.avail > 0 then
      match buf[l.inp]? with
      | none => none
      | some c =>
        if c = 10 then some l
        else
          match put l.out l.pos [c] with
          | none => none
          | some out => rlCopy buf fuel ⟨l.inp + 1, l.avail - 1, l.rem - 1, out, l.pos + 1, l.copied + 1⟩
    else some l

/-- what `psock_br_read_line` leaves: the reader, the status, the output buffer and `*buffer_size`
(src/psock/psock_br_read_line.c) -/
structure LineRes (σ : Type) where
  br : BR σ
  st : Status
  out : List Byte
  size : Nat

/-- the outer loop (src/psock/psock_br_read_line.c:89-205) -/
def rlLoop (rd : Reader σ) (size0 : Nat) : Nat → BR σ → LS → Nat → Option (LineRes σ)
  | 0, _, _, _ => none
  | fuel + 1, br, l, committed =>
    if l.rem > 0 then
      match rlCopy br.buf (l.avail + 1) l with
      | none => none
      | some l =>
        match (if l.avail > 0 then br.buf[l.inp]? else some 0) with
        | none => none
        | some c =>
          if l.avail > 0 ∧ c = 10 then
            (put l.out l.pos [0]).map fun out =>
              ⟨{ br with off := br.off + (l.copied + 1) }, SUCCESS, out, committed + (l.copied + 1)⟩
          else if l.rem = 0 then
            (put l.out l.pos [0]).map fun out =>
              ⟨{ br with off := br.off + l.copied }, ERROR_PSOCK_BR_READ_LINE_TRUNCATED, out,
                committed + l.copied⟩
          else if l.avail = 0 then
            let committed := committed + l.copied
            let br := { br with off := br.cur }
            match (if br.err then some br
              else (brFill rd br).map fun r => if r.2 ≠ SUCCESS then { r.1 with err := true } else r.1) with
            | none => none
            | some br =>
              if br.err then
                if committed = 0 then some ⟨br, ERROR_PSOCK_READ_GENERAL, l.out, size0⟩
                else (put l.out l.pos [0]).map fun out => ⟨br, SUCCESS, out, committed + 1⟩
              else if br.off > br.cur then none
              else rlLoop rd size0 fuel br { l with inp := br.off, avail := br.cur - br.off, copied := 0 } committed
          else rlLoop rd size0 fuel br l committed
    else some ⟨br, ERROR_PSOCK_BR_READ_LINE_BAD_LOOP_INVARIANT, l.out, size0⟩

/-- `psock_br_read_line` (src/psock/psock_br_read_line.c:55-209); `out` is the caller's buffer, whose
length is `*buffer_size` (a precondition of the function) -/
def brReadLine (rd : Reader σ) (br : BR σ) (out : List Byte) : Option (LineRes σ) :=
  if out.length ≤ 1 then some ⟨br, ERROR_PSOCK_BR_READ_LINE_BUFFER_SIZE_TOO_SMALL, out, out.length⟩
  else if br.off > br.cur then none
  else rlLoop rd out.length (out.length + 2) br ⟨br.off, br.cur - br.off, out.length - 1, out, 0, 0⟩ 0

/-! ### The buffered reader as a stream -/

/-- bytes in the buffer not yet handed out.
Not in the code: for the specification; the fields are those of src/psock/psock_internal.h:50-62. -/
def BR.pending (br : BR σ) : List Byte := (br.buf.take br.cur).drop br.off

/-- what is still to come. Not in the code: for the specification. -/
def BR.rest (rest : σ → List Byte) (br : BR σ) : List Byte := br.pending ++ rest br.sock

/-- Not in the code: invariant of a buffered reader (fields: src/psock/psock_internal.h:50-62). -/
structure BR.Ok (P : σ → Prop) (br : BR σ) : Prop where
  sock : P br.sock
  off : br.off ≤ br.cur
  cur : br.cur ≤ br.buf.length
  room : br.off = 0 → br.cur < br.buf.length

theorem BR.pending_length {Ok : σ → Prop} {br : BR σ} (h : BR.Ok Ok br) : br.pending.length = br.cur - br.off := by
  have := h.cur
  simp only [BR.pending, List.length_drop, List.length_take]; omega

theorem BR.pending_get {br : BR σ} (i : Nat) (hi : br.off + i < br.cur) :
    br.pending[i]? = br.buf[br.off + i]? := by
  simp only [BR.pending, List.getElem?_drop, List.getElem?_take]
  rw [if_pos hi]

/-- filling: either the stream is unchanged up to what was appended, or the call failed -/
theorem brFill_ok {rd : Reader σ} {Ok : σ → Prop} {rest : σ → List Byte} (R : StreamReader rd Ok rest)
    (L : Lossless rd Ok) {br : BR σ} (h : BR.Ok Ok br) :
    ∃ br' st d s' st0, brFill rd br = some (br', st) ∧
      rd br.sock (br.buf.length - (br.cur - br.off)) false = some (s', st0, d) ∧
      (st = SUCCESS ↔ st0 = SUCCESS ∧ d ≠ []) ∧
      br'.sock = s' ∧ br'.off = 0 ∧ br'.buf.length = br.buf.length ∧ br'.err = br.err ∧ Ok s' ∧
      br'.rest rest = br.rest rest ∧
      (st = SUCCESS → d ≠ [] ∧ br'.pending = br.pending ++ d ∧ br'.cur ≤ br'.buf.length) ∧
      (st ≠ SUCCESS → br'.pending = br.pending ∧ br'.Ok Ok) := by
  have ho := h.off
  have hc := h.cur
  have hroom := h.room
  have hpl := BR.pending_length h
  -- the shift
  obtain ⟨br1, h1, a1, a2, a3, a4, a5⟩ : ∃ br1, (if br.off > 0 then
        (put br.buf 0 ((br.buf.drop br.off).take (br.cur - br.off))).map
          fun b => { br with buf := b, cur := br.cur - br.off, off := 0 }
      else some br) = some br1 ∧ br1.sock = br.sock ∧ br1.cur = br.cur - br.off ∧ br1.off = 0 ∧
      br1.buf.length = br.buf.length ∧ br1.buf.take br1.cur = br.pending ∧ br1.err = br.err := by
    by_cases hoff : br.off > 0
    · obtain ⟨b, p1, p2, p3⟩ := put_ok (buf := br.buf) (off := 0)
        (d := (br.buf.drop br.off).take (br.cur - br.off)) (by
          rw [List.length_take, List.length_drop]; omega)
      refine ⟨{ br with buf := b, cur := br.cur - br.off, off := 0 }, by rw [if_pos hoff, p1]; rfl, rfl, rfl, rfl, p2, ?_, rfl⟩
      rw [List.length_take, List.length_drop, Nat.zero_add, List.take_zero, List.nil_append] at p3
      rw [show min (br.cur - br.off) (br.buf.length - br.off) = br.cur - br.off by omega] at p3
      show b.take (br.cur - br.off) = _
      rw [p3, BR.pending, List.drop_take]
    · have h0 : br.off = 0 := by omega
      refine ⟨br, by rw [if_neg hoff], rfl, by omega, h0, rfl, ?_, rfl⟩
      rw [BR.pending, h0]; rfl
  obtain ⟨a5, a6⟩ := a5
  have hcap : br1.cur < br1.buf.length := by
    rw [a2, a4]
    by_cases h0 : br.off = 0
    · have := hroom h0; omega
    · omega
  rcases h2 : rd br.sock (br.buf.length - (br.cur - br.off)) false with _ | ⟨s', st0, d⟩
  · have := R.total br.sock (br.buf.length - (br.cur - br.off)) false h.sock
    simp [h2] at this
  obtain ⟨o1, o2, o3⟩ := R.step _ _ _ _ _ _ h.sock h2
  obtain ⟨b, p1, p2, p3⟩ := put_ok (buf := br1.buf) (off := br1.cur) (d := d) (by omega)
  have ptake : b.take br1.cur = br.pending := by
    have : b.take br1.cur = (b.take (br1.cur + d.length)).take br1.cur := by
      rw [List.take_take, Nat.min_eq_left (by omega)]
    rw [this, p3, a5, List.take_append_of_le_length (by rw [hpl]; omega), List.take_of_length_le (by rw [hpl]; omega)]
  have hun : brFill rd br = (if st0 ≠ SUCCESS then some ({ br1 with sock := s', buf := b }, st0)
            else if d.length = 0 then some ({ br1 with sock := s', buf := b }, ERROR_PSOCK_READ_GENERAL)
            else some ({ br1 with sock := s', buf := b, cur := br1.cur + d.length }, SUCCESS)) := by
    unfold brFill
    rw [if_neg (by omega), h1]
    simp only
    rw [if_neg (by omega), a1, a2, a4, h2]
    simp only
    rw [← a2, p1]
  have hsame : ({ br1 with sock := s', buf := b } : BR σ).pending = br.pending := by
    simp only [BR.pending, a3, List.drop_zero]
    exact ptake
  have hOk : BR.Ok Ok ({ br1 with sock := s', buf := b } : BR σ) :=
    ⟨o1, by simp only [a3]; omega, by simp only [p2]; omega, fun _ => by simp only [p2]; exact hcap⟩
  have hG : ERROR_PSOCK_READ_GENERAL ≠ SUCCESS := by decide
  by_cases hst : st0 = SUCCESS
  · rw [if_neg (by simp [hst])] at hun
    by_cases hd : d.length = 0
    · rw [if_pos hd] at hun
      have hd' : d = [] := List.eq_nil_of_length_eq_zero hd
      refine ⟨_, ERROR_PSOCK_READ_GENERAL, d, s', st0, hun, rfl, ?_, rfl, a3, by rw [← a4]; exact p2, a6, o1, ?_,
        fun h => absurd h hG, fun _ => ⟨hsame, hOk⟩⟩
      · simp [hG, hd']
      · rw [BR.rest, BR.rest, hsame, o3, hd']; rfl
    · rw [if_neg hd] at hun
      have hp : ({ br1 with sock := s', buf := b, cur := br1.cur + d.length } : BR σ).pending = br.pending ++ d := by
        simp only [BR.pending, a3, List.drop_zero, p3, a5]
      refine ⟨_, SUCCESS, d, s', st0, hun, rfl, ?_, rfl, a3, by rw [← a4]; exact p2, a6, o1, ?_, fun _ => ⟨?_, hp, ?_⟩,
        fun h => absurd rfl h⟩
      · simp only [hst, true_and, true_iff]; intro h; simp [h] at hd
      · rw [BR.rest, BR.rest, hp, o3, List.append_assoc]
      · intro h; simp [h] at hd
      · simp only [p2]; omega
  · rw [if_pos hst] at hun
    have hd := L _ _ _ _ _ _ h.sock h2 hst
    refine ⟨_, st0, d, s', st0, hun, rfl, ?_, rfl, a3, by rw [← a4]; exact p2, a6, o1, ?_,
      fun h => absurd h hst, fun _ => ⟨hsame, hOk⟩⟩
    · simp [hst]
    · rw [BR.rest, BR.rest, hsame, o3, hd]; rfl

theorem BR.pending_eq (br : BR σ) : br.pending = (br.buf.drop br.off).take (br.cur - br.off) := by
  rw [BR.pending, List.drop_take]

theorem BR.take_pending (br : BR σ) {k : Nat} (hk : k ≤ br.cur - br.off) :
    (br.buf.drop br.off).take k = br.pending.take k := by
  rw [br.pending_eq, List.take_take, Nat.min_eq_left hk]

theorem BR.pending_skip (br : BR σ) (k : Nat) :
    ({ br with off := br.off + k } : BR σ).pending = br.pending.drop k := by
  simp only [BR.pending, List.drop_drop]

theorem brLoop_ok {rd : Reader σ} {Ok : σ → Prop} {rest : σ → List Byte} (R : StreamReader rd Ok rest)
    (L : Lossless rd Ok) (block : Bool) : ∀ (fuel : Nat) (br : BR σ) (n : Nat) (acc : List Byte),
      BR.Ok Ok br → n < fuel →
      ∃ br' st e, brLoop rd block fuel br n acc = some (br', st, acc ++ e) ∧ br'.Ok Ok ∧ e.length ≤ n ∧
        br.rest rest = e ++ br'.rest rest ∧ (st = SUCCESS → block = true → e.length = n) := by
  intro fuel
  induction fuel with
  | zero => intro br n acc _ h; omega
  | succ fuel ih =>
    intro br n acc h hf
    have ho := h.off
    have hc := h.cur
    have hpl := BR.pending_length h
    unfold brLoop
    rw [if_neg (by omega)]
    by_cases hav : br.cur - br.off < n
    · rw [if_pos hav]
      obtain ⟨br1, st, d, s', st0, f1, f2, f3, f4, f5, f6, f6', f7, f8, f9, f10⟩ := brFill_ok R L h
      rw [f1]
      simp only
      by_cases hst : st = SUCCESS
      · rw [if_neg (by simp [hst])]
        obtain ⟨g1, g2, g3⟩ := f9 hst
        have hl : 0 < d.length := List.length_pos_iff.2 g1
        have hpl1 : br1.pending.length = br1.cur - br1.off := by
          simp only [BR.pending, List.length_drop, List.length_take]; omega
        have hpos : 0 < br1.cur := by
          rw [g2, List.length_append, f5] at hpl1; omega
        rw [if_neg (by omega)]
        generalize hcp : (if br1.cur - br1.off < n then br1.cur - br1.off else n) = copy
        have hcp1 : copy ≤ br1.cur - br1.off := by rw [← hcp]; split <;> omega
        have hcp2 : copy ≤ n ∧ 0 < copy := by rw [← hcp]; split <;> omega
        have hOk2 : BR.Ok Ok { br1 with off := br1.off + copy } :=
          ⟨by rw [f4]; exact f7, by simp only; omega, g3, fun h => by simp only at h; omega⟩
        have hrest2 : br.rest rest = br1.pending.take copy ++ ({ br1 with off := br1.off + copy } : BR σ).rest rest := by
          rw [← f8]
          simp only [BR.rest]
          rw [BR.pending_skip, ← List.append_assoc, List.take_append_drop]
        have hlen2 : (br1.pending.take copy).length = copy := by rw [List.length_take]; omega
        rw [BR.take_pending br1 hcp1]
        by_cases hmore : block = true ∧ n - copy > 0
        · rw [if_pos hmore]
          obtain ⟨br', st', e, i1, i2, i3, i4, i5⟩ := ih { br1 with off := br1.off + copy } (n - copy)
            (acc ++ br1.pending.take copy) hOk2 (by omega)
          refine ⟨br', st', br1.pending.take copy ++ e, by rw [i1, List.append_assoc], i2, ?_, ?_, ?_⟩
          · rw [List.length_append]; omega
          · rw [hrest2, i4, List.append_assoc]
          · intro a b
            have := i5 a b
            rw [List.length_append]; omega
        · rw [if_neg hmore]
          refine ⟨_, SUCCESS, _, rfl, hOk2, by omega, hrest2, fun _ b => ?_⟩
          have : ¬ n - copy > 0 := fun h => hmore ⟨b, h⟩
          omega
      · rw [if_pos hst]
        exact ⟨br1, st, [], by simp, (f10 hst).2, by simp, by simp [f8], fun h => absurd h hst⟩
    · rw [if_neg hav]
      simp only [ne_eq, not_true, if_false]
      rw [if_neg (by omega), if_neg hav, BR.take_pending br (by omega)]
      rw [if_neg (by omega)]
      refine ⟨_, SUCCESS, _, rfl, ⟨h.sock, by simp only; omega, hc, fun h' => h.room (by simp only at h'; omega)⟩,
        by rw [List.length_take]; omega, ?_, fun _ _ => by rw [List.length_take]; omega⟩
      simp only [BR.rest]
      rw [BR.pending_skip, ← List.append_assoc, List.take_append_drop]

theorem brRead_stream {rd : Reader σ} {Ok : σ → Prop} {rest : σ → List Byte} (R : StreamReader rd Ok rest)
    (L : Lossless rd Ok) : StreamReader (brRead rd) (BR.Ok Ok) (BR.rest rest) := by
  constructor
  · intro br n b h
    obtain ⟨br', st, e, h1, _⟩ := brLoop_ok R L b (n + 1) br n [] h (by omega)
    simp [brRead, h1]
  · intro br n b s' st d h h'
    obtain ⟨br', st', e, h1, h2, h3, h4, _⟩ := brLoop_ok R L b (n + 1) br n [] h (by omega)
    rw [brRead, h1, List.nil_append] at h'
    simp only [Option.some.injEq, Prod.mk.injEq] at h'
    obtain ⟨rfl, rfl, rfl⟩ := h'
    exact ⟨h2, h3, h4⟩

/-- a non-blocking read delivers at least one byte as long as there are any -/
def ProgressNB (rd : Reader σ) (Ok : σ → Prop) (rest : σ → List Byte) : Prop :=
  ∀ s n, Ok s → 0 < n → rest s ≠ [] → ∃ s' d, rd s n false = some (s', SUCCESS, d) ∧ d ≠ []

theorem brFill_success {rd : Reader σ} {Ok : σ → Prop} {rest : σ → List Byte} (R : StreamReader rd Ok rest)
    (L : Lossless rd Ok) (P : ProgressNB rd Ok rest) {br br' : BR σ} {st : Status} (h : BR.Ok Ok br)
    (hr : rest br.sock ≠ []) (hf : brFill rd br = some (br', st)) : st = SUCCESS := by
  obtain ⟨br1, st1, d, s', st0, f1, f2, f3, _⟩ := brFill_ok R L h
  rw [hf] at f1
  simp only [Option.some.injEq, Prod.mk.injEq] at f1
  have hcap : 0 < br.buf.length - (br.cur - br.off) := by
    have := h.room; have := h.off; have := h.cur; omega
  obtain ⟨s2, d2, p1, p2⟩ := P br.sock _ h.sock hcap hr
  rw [f2] at p1
  simp only [Option.some.injEq, Prod.mk.injEq] at p1
  rw [f1.2]
  exact f3.2 ⟨p1.2.1, by rw [p1.2.2]; exact p2⟩

theorem brLoop_full {rd : Reader σ} {Ok : σ → Prop} {rest : σ → List Byte} (R : StreamReader rd Ok rest)
    (L : Lossless rd Ok) (P : ProgressNB rd Ok rest) : ∀ (fuel : Nat) (br : BR σ) (n : Nat) (acc : List Byte),
      BR.Ok Ok br → n < fuel → n ≤ (br.rest rest).length →
      ∃ br' d, brLoop rd true fuel br n acc = some (br', SUCCESS, d) := by
  intro fuel
  induction fuel with
  | zero => intro br n acc _ h; omega
  | succ fuel ih =>
    intro br n acc h hf hn
    have ho := h.off
    have hc := h.cur
    have hpl := BR.pending_length h
    unfold brLoop
    rw [if_neg (by omega)]
    by_cases hav : br.cur - br.off < n
    · rw [if_pos hav]
      obtain ⟨br1, st, d, s', st0, f1, f2, f3, f4, f5, f6, f6', f7, f8, f9, f10⟩ := brFill_ok R L h
      have hst : st = SUCCESS := by
        refine brFill_success R L P h ?_ f1
        intro hr
        rw [BR.rest, List.length_append, hr, hpl] at hn
        simp at hn; omega
      rw [f1]
      simp only
      rw [if_neg (by simp [hst])]
      obtain ⟨g1, g2, g3⟩ := f9 hst
      have hl : 0 < d.length := List.length_pos_iff.2 g1
      have hpl1 : br1.pending.length = br1.cur - br1.off := by
        simp only [BR.pending, List.length_drop, List.length_take]; omega
      have hpos : 0 < br1.cur := by
        rw [g2, List.length_append, f5] at hpl1; omega
      rw [if_neg (by omega)]
      generalize hcp : (if br1.cur - br1.off < n then br1.cur - br1.off else n) = copy
      have hcp1 : copy ≤ br1.cur - br1.off := by rw [← hcp]; split <;> omega
      have hcp2 : copy ≤ n ∧ 0 < copy := by rw [← hcp]; split <;> omega
      have hOk2 : BR.Ok Ok { br1 with off := br1.off + copy } :=
        ⟨by rw [f4]; exact f7, by simp only; omega, g3, fun h => by simp only at h; omega⟩
      have hrest2 : br.rest rest = br1.pending.take copy ++ ({ br1 with off := br1.off + copy } : BR σ).rest rest := by
        rw [← f8]
        simp only [BR.rest]
        rw [BR.pending_skip, ← List.append_assoc, List.take_append_drop]
      split
      · refine ih { br1 with off := br1.off + copy } (n - copy) _ hOk2 (by omega) ?_
        rw [hrest2, List.length_append, List.length_take] at hn; omega
      · exact ⟨_, _, rfl⟩
    · rw [if_neg hav]
      simp only [ne_eq, not_true, if_false]
      rw [if_neg (by omega), if_neg hav, if_neg (by omega)]
      exact ⟨_, _, rfl⟩

theorem brRead_full {rd : Reader σ} {Ok : σ → Prop} {rest : σ → List Byte} (R : StreamReader rd Ok rest)
    (L : Lossless rd Ok) (P : ProgressNB rd Ok rest) : Full (brRead rd) (BR.Ok Ok) (BR.rest rest) := by
  intro br n h hn hl
  obtain ⟨br', d, h1⟩ := brLoop_full R L P (n + 1) br n [] h (by omega) hl
  obtain ⟨br2, st, e, h2, h3, h4, h5, h6⟩ := brLoop_ok R L true (n + 1) br n [] h (by omega)
  rw [h1] at h2
  simp only [Option.some.injEq, Prod.mk.injEq] at h2
  obtain ⟨rfl, rfl, rfl⟩ := h2
  exact ⟨br', _, h1, h6 rfl rfl⟩

theorem brCreate_ok {Ok : σ → Prop} {sock : σ} {junk : Nat → Byte} {br : BR σ} (hs : Ok sock)
    (h : brCreate sock SUCCESS SUCCESS SUCCESS junk = (SUCCESS, some br)) :
    BR.Ok Ok br ∧ br.sock = sock ∧ br.pending = [] ∧ br.err = false := by
  simp [brCreate] at h
  subst h
  refine ⟨⟨hs, Nat.le_refl _, by simp, fun _ => ?_⟩, rfl, by simp [BR.pending], rfl⟩
  simp [brBufferSize]

end Rcpr.Psock
