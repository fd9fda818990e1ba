import Verif.PsockLine
import Verif.Props.Psock

/-! Properties C24 to C26 and C48 to C50: buffered readers and async sockets. -/
namespace Rcpr.Psock

open Rcpr

variable {σ : Type}

/-! ### C24: the buffered reader is transparent -/

/-- read calls of given sizes, blocking or not, one after the other, whatever their status -/
def reads (rd : Reader σ) (s : σ) : List (Nat × Bool) → Option (σ × List (Status × List Byte))
  | [] => some (s, [])
  | (n, b) :: qs =>
    match rd s n b with
    | none => none
    | some (s, st, d) =>
      match reads rd s qs with
      | none => none
      | some (s, rs) => some (s, (st, d) :: rs)

/-- C24 (part): over every socket that loses nothing when a read fails, every sequence of reads
through a new buffered reader returns the bytes of the underlying stream in order: what the calls
returned, followed by what can still be read, is the original stream. Missing: sockets that return
an error together with data, as async sockets do (`br_transparent_violated`). -/
theorem br_transparent_partial (rd : Reader σ) (Ok : σ → Prop) (rest : σ → List Byte)
    (R : StreamReader rd Ok rest) (L : Lossless rd Ok) (s : σ) (hs : Ok s) (junk : Nat → Byte) (br0 : BR σ)
    (hc : brCreate s SUCCESS SUCCESS SUCCESS junk = (SUCCESS, some br0)) (qs : List (Nat × Bool)) :
    ∃ br rs, reads (brRead rd) br0 qs = some (br, rs) ∧
      rest s = (rs.map (·.2)).flatten ++ (br.pending ++ rest br.sock) ∧
      rs.length = qs.length ∧ ∀ x ∈ rs.zip qs, x.1.2.length ≤ x.2.1 ∧
        (x.1.1 = SUCCESS → x.2.2 = true → x.1.2.length = x.2.1) := by
  have key : ∀ (qs : List (Nat × Bool)) (br0 : BR σ), BR.Ok Ok br0 →
      ∃ br rs, reads (brRead rd) br0 qs = some (br, rs) ∧
        br0.rest rest = (rs.map (·.2)).flatten ++ br.rest rest ∧
        rs.length = qs.length ∧ ∀ x ∈ rs.zip qs, x.1.2.length ≤ x.2.1 ∧
          (x.1.1 = SUCCESS → x.2.2 = true → x.1.2.length = x.2.1) := by
    intro qs
    induction qs with
    | nil => intro br0 _; exact ⟨br0, [], rfl, by simp, rfl, by simp⟩
    | cons q qs ih =>
      intro br0 h0
      obtain ⟨n, b⟩ := q
      obtain ⟨br1, st, e, h1, h2, h3, h4, h5⟩ := brLoop_ok R L b (n + 1) br0 n [] h0 (by omega)
      obtain ⟨br, rs, i1, i2, i3, i4⟩ := ih br1 h2
      rw [List.nil_append] at h1
      refine ⟨br, (st, e) :: rs, by simp only [reads, brRead, h1, i1], ?_, by simp [i3], ?_⟩
      · rw [h4, i2]; simp
      · intro x hx
        rw [List.zip_cons_cons] at hx
        rcases List.mem_cons.1 hx with rfl | hx
        · exact ⟨h3, h5⟩
        · exact i4 x hx
  obtain ⟨o1, o2, o3, _⟩ := brCreate_ok hs hc
  obtain ⟨br, rs, h1, h2, h3, h4⟩ := key qs br0 o1
  refine ⟨br, rs, h1, ?_, h3, h4⟩
  rw [BR.rest, o2, o3] at h2
  exact h2

/-- C24: when the socket delivers something as long as there is anything, blocking reads through the
buffered reader succeed with exactly what was asked for. -/
theorem br_delivers (rd : Reader σ) (Ok : σ → Prop) (rest : σ → List Byte)
    (R : StreamReader rd Ok rest) (L : Lossless rd Ok) (P : ProgressNB rd Ok rest) (br : BR σ)
    (h : BR.Ok Ok br) (n : Nat) (hn : 0 < n) (hl : n ≤ (br.pending ++ rest br.sock).length) :
    ∃ br', brRead rd br n true = some (br', SUCCESS, (br.pending ++ rest br.sock).take n) ∧
      br'.pending ++ rest br'.sock = (br.pending ++ rest br.sock).drop n := by
  obtain ⟨br', d, h1, h2⟩ := brRead_full R L P br n h hn hl
  obtain ⟨_, _, h5⟩ := (brRead_stream R L).step _ _ _ _ _ _ h h1
  simp only [BR.rest] at h5
  refine ⟨br', ?_, ?_⟩
  · rw [h1, h5, List.take_append_of_le_length (by omega), List.take_of_length_le (by omega)]
  · rw [h5, List.drop_append_of_le_length (by omega), List.drop_of_length_le (by omega), List.nil_append]

/-- C24 fails over async sockets: when the last bytes and the end of the stream arrive together, the
read fails and the bytes are gone (they are neither returned nor left to be read). -/
theorem br_transparent_violated (junk : Nat → Byte) (br0 : BR (List REv)) (data : List Byte) (fuel : Nat)
    (hd : data ≠ []) (hl : data.length < brBufferSize) (hf : 3 ≤ fuel)
    (hc : brCreate [.chunk data] SUCCESS SUCCESS SUCCESS junk = (SUCCESS, some br0)) (n : Nat) (hn : 0 < n) :
    ∃ br, brRead (waRead fdRead fdWait fuel) br0 n true = some (br, ERROR_PSOCK_READ_EOF, []) ∧
      br.pending = [] ∧ br.sock = [] := by
  obtain ⟨_, o2, o3, o4⟩ := brCreate_ok (Ok := fun _ => True) trivial hc
  have hlen : br0.buf.length = brBufferSize ∧ br0.cur = 0 ∧ br0.off = 0 := by
    simp [brCreate] at hc; subst hc; simp
  obtain ⟨fuel, rfl⟩ : ∃ f, fuel = f + 3 := ⟨fuel - 3, by omega⟩
  have hl0 : 0 < data.length := List.length_pos_iff.2 hd
  have hN : (0 : Nat) < brBufferSize := by decide
  have hsw : SUCCESS ≠ ERROR_PSOCK_READ_WOULD_BLOCK := by decide
  have hr : waRead fdRead fdWait (fuel + 3) [.chunk data] brBufferSize false = some ([], ERROR_PSOCK_READ_EOF, data) := by
    unfold waRead waLoop
    rw [if_neg (by omega)]
    simp only [fdRead]
    rw [if_pos (by omega)]
    simp only [hsw, false_and, if_false, ne_eq, not_true]
    rw [if_neg (by omega), if_neg (by omega)]
    unfold waLoop
    rw [if_neg (by omega)]
    simp [hsw, fdRead]
  obtain ⟨b, p1, p2, p3⟩ := put_ok (buf := br0.buf) (off := 0) (d := data) (by omega)
  have hfill : brFill (waRead fdRead fdWait (fuel + 3)) br0 = some ({ br0 with sock := [], buf := b }, ERROR_PSOCK_READ_EOF) := by
    unfold brFill
    rw [if_neg (by omega), if_neg (by omega)]
    simp only
    rw [if_neg (by omega), o2, hlen.1, hlen.2.1, Nat.sub_zero, hr]
    simp only
    rw [p1]
    simp only
    rw [if_pos (by decide)]
  refine ⟨{ br0 with sock := [], buf := b }, ?_, ?_, rfl⟩
  · unfold brRead brLoop
    rw [if_neg (by omega), if_pos (by omega), hfill]
    simp only
    rw [if_pos (by decide)]
  · simp [BR.pending, hlen.2.1]

/-- C24 fails over async sockets in another way: a blocking read through the buffered reader does
not wait for data, it fails with would-block. -/
theorem br_does_not_block (junk : Nat → Byte) (br0 : BR (List REv)) (es : List REv) (fuel : Nat)
    (hf : 1 ≤ fuel)
    (hc : brCreate (.again :: es) SUCCESS SUCCESS SUCCESS junk = (SUCCESS, some br0)) (n : Nat) (hn : 0 < n) :
    ∃ br, brRead (waRead fdRead fdWait fuel) br0 n true = some (br, ERROR_PSOCK_READ_WOULD_BLOCK, []) := by
  obtain ⟨_, o2, o3, o4⟩ := brCreate_ok (Ok := fun _ => True) trivial hc
  have hlen : br0.buf.length = brBufferSize ∧ br0.cur = 0 ∧ br0.off = 0 := by
    simp [brCreate] at hc; subst hc; simp
  obtain ⟨fuel, rfl⟩ : ∃ f, fuel = f + 1 := ⟨fuel - 1, by omega⟩
  have hN : (0 : Nat) < brBufferSize := by decide
  have hr : waRead fdRead fdWait (fuel + 1) (.again :: es) brBufferSize false =
      some (es, ERROR_PSOCK_READ_WOULD_BLOCK, []) := by
    unfold waRead waLoop
    rw [if_neg (by omega)]
    simp [fdRead]
  have hfill : brFill (waRead fdRead fdWait (fuel + 1)) br0 = some ({ br0 with sock := es }, ERROR_PSOCK_READ_WOULD_BLOCK) := by
    unfold brFill
    rw [if_neg (by omega), if_neg (by omega)]
    simp only
    rw [if_neg (by omega), o2, hlen.1, hlen.2.1, Nat.sub_zero, hr]
    simp only
    rw [put_eq (by simp)]
    simp [show ERROR_PSOCK_READ_WOULD_BLOCK ≠ SUCCESS by decide]
  refine ⟨{ br0 with sock := es }, ?_⟩
  unfold brRead brLoop
  rw [if_neg (by omega), if_pos (by omega), hfill]
  simp only
  rw [if_pos (by decide)]

-- descriptor sockets and buffer sockets meet the hypotheses of `br_transparent_partial`
example : StreamReader fdRead (fun _ => True) fdRest ∧ Lossless fdRead (fun _ => True) :=
  ⟨fdRead_stream, fdRead_lossless⟩
example : (reads (brRead fdRead) ⟨[.chunk [1, 2, 3], .chunk [4], .again, .chunk [5, 6]], [0, 0, 0, 0], 0, 0, false⟩
    [(2, true), (2, true), (1, false), (2, true)]).map (·.2) =
    some [(SUCCESS, [1, 2]), (SUCCESS, [3, 4]), (ERROR_PSOCK_READ_WOULD_BLOCK, []), (SUCCESS, [5, 6])] := by decide

/-! ### C25: reading lines -/

/-- C25 (part), safety: over every socket that loses nothing when a read fails, and for every
caller's buffer of at least two bytes, `psock_br_read_line` has one of four outcomes, none of which
loses or reorders bytes of the stream or touches bytes of the buffer after the terminating NUL:
a line ended by a newline (which is consumed); a full buffer; the last bytes before the socket
failed; nothing. Missing: which outcome it is may depend on how the socket chunks the data
(`read_line_chunking_violated`, `read_line_would_block_violated`). -/
theorem read_line_outcome_partial (rd : Reader σ) (Ok : σ → Prop) (rest : σ → List Byte)
    (R : StreamReader rd Ok rest) (L : Lossless rd Ok) (br : BR σ) (h : BR.Ok Ok br) (out0 : List Byte)
    (ho : 1 < out0.length) :
    ∃ r, brReadLine rd br out0 = some r ∧ BR.Ok Ok r.br ∧
      ((r.st = ERROR_PSOCK_READ_GENERAL ∧ r.out = out0 ∧ r.size = out0.length ∧ br.rest rest = r.br.rest rest) ∨
       ∃ line, 10 ∉ line ∧ line.length + 1 ≤ out0.length ∧ r.out = line ++ 0 :: out0.drop (line.length + 1) ∧
        ((r.st = SUCCESS ∧ r.size = line.length + 1 ∧ br.rest rest = line ++ 10 :: r.br.rest rest) ∨
         (r.st = ERROR_PSOCK_BR_READ_LINE_TRUNCATED ∧ r.size = line.length ∧ line.length + 1 = out0.length ∧
            br.rest rest = line ++ r.br.rest rest) ∨
         (r.st = SUCCESS ∧ r.size = line.length + 1 ∧ line ≠ [] ∧ r.br.err = true ∧
            br.rest rest = line ++ r.br.rest rest))) := by
  obtain ⟨r, h1, h2, h3⟩ := brReadLine_ok R L h out0 ho
  refine ⟨r, h1, h2, ?_⟩
  cases h3 with
  | line e a1 a2 a3 a4 a5 a6 a7 => exact Or.inr ⟨e, a3, a4, a5, Or.inl ⟨a1, a6, a2⟩⟩
  | full e a1 a2 a3 a4 a5 a6 a7 => exact Or.inr ⟨e, a3, by omega, a5, Or.inr (Or.inl ⟨a1, a6, a4, a2⟩)⟩
  | last e a0 a1 a2 a3 a4 a5 a6 a7 a8 a9 =>
    exact Or.inr ⟨e, a3, by omega, a5, Or.inr (Or.inr ⟨a1, a6, a0, a7, a2⟩)⟩
  | none a1 a2 a5 a6 a7 a8 a9 => exact Or.inl ⟨a1, a5, a6, a2⟩

theorem prefix_line {e e' t t' : List Byte} (h1 : 10 ∉ e) (h2 : 10 ∉ e') (h : e ++ 10 :: t = e' ++ 10 :: t') :
    e = e' ∧ t = t' := by
  induction e generalizing e' with
  | nil =>
    cases e' with
    | nil => simpa using h
    | cons a e' => simp at h; exact absurd (by simp [← h.1]) h2
  | cons a e ih =>
    cases e' with
    | nil => simp at h; exact absurd (by simp [h.1]) h1
    | cons b e' =>
      simp only [List.cons_append, List.cons.injEq] at h
      obtain ⟨i1, i2⟩ := ih (fun m => h1 (List.mem_cons_of_mem _ m)) (fun m => h2 (List.mem_cons_of_mem _ m)) h.2
      exact ⟨by rw [h.1, i1], i2⟩

theorem no_newline_prefix {e e' t t' : List Byte} (h1 : 10 ∉ e') (h : e ++ 10 :: t = e' ++ t') : e'.length ≤ e.length := by
  apply Classical.byContradiction
  intro hlt
  apply h1
  have h2 : (e ++ 10 :: t)[e.length]? = some 10 := by simp
  rw [h, List.getElem?_append_left (by omega)] at h2
  exact List.mem_of_getElem? h2

/-- C25: a buffer with no room for a byte and the terminator is refused, and neither it nor the stream is touched. -/
theorem read_line_small (rd : Reader σ) (br : BR σ) (out0 : List Byte) (h : out0.length ≤ 1) :
    ∃ r, brReadLine rd br out0 = some r ∧ r.st ≠ SUCCESS ∧ r.br = br ∧ r.out = out0 := by
  refine ⟨_, by unfold brReadLine; rw [if_pos h], ?_, rfl, rfl⟩
  show ERROR_PSOCK_BR_READ_LINE_BUFFER_SIZE_TOO_SMALL ≠ SUCCESS
  decide

example : ([0] : List Byte).length ≤ 1 := by decide

/-- C25 (part), completeness: over a socket that delivers something as long as there is anything, a
line shorter than the buffer less one is returned exactly, in any chunking, and exactly it and its
newline are consumed. -/
theorem read_line_complete_partial (rd : Reader σ) (Ok : σ → Prop) (rest : σ → List Byte)
    (R : StreamReader rd Ok rest) (L : Lossless rd Ok) (P : ProgressNB rd Ok rest) (br : BR σ)
    (h : BR.Ok Ok br) (herr : br.err = false) (out0 line t : List Byte)
    (hr : br.rest rest = line ++ 10 :: t) (h10 : 10 ∉ line) (hl : line.length + 1 < out0.length) :
    ∃ br', brReadLine rd br out0 =
        some ⟨br', SUCCESS, line ++ 0 :: out0.drop (line.length + 1), line.length + 1⟩ ∧
      BR.Ok Ok br' ∧ br'.err = false ∧ br'.rest rest = t := by
  obtain ⟨r, h1, h2, h3⟩ := brReadLine_ok R L h out0 (by omega)
  rw [h1]
  cases r with | mk br' st out size =>
  cases h3 with
  | line e a1 a2 a3 a4 a5 a6 a7 =>
    rw [hr] at a2
    obtain ⟨rfl, rfl⟩ := prefix_line h10 a3 a2
    simp only at a1 a5 a6 a7 h2 ⊢
    subst a1 a5 a6
    exact ⟨br', rfl, h2, by rw [a7, herr], rfl⟩
  | full e a1 a2 a3 a4 a5 a6 a7 =>
    rw [hr] at a2
    have := no_newline_prefix a3 a2
    omega
  | last e a0 a1 a2 a3 a4 a5 a6 a7 a8 a9 =>
    rcases a9 with a9 | a9
    · rw [herr] at a9; exact absurd a9 (by simp)
    · rw [a9 P, hr, List.append_nil] at a2
      exact absurd (by rw [← a2]; simp) a3
  | none a1 a2 a5 a6 a7 a8 a9 =>
    rcases a9 with a9 | a9
    · rw [herr] at a9; exact absurd a9 (by simp)
    · rw [a9 P, hr] at a2; simp at a2

/-- C25 (part): over such a socket, a longer line is reported as truncated after exactly the bytes
that fit, in any chunking, and the rest of the line can be read by further calls. -/
theorem read_line_truncates_partial (rd : Reader σ) (Ok : σ → Prop) (rest : σ → List Byte)
    (R : StreamReader rd Ok rest) (L : Lossless rd Ok) (P : ProgressNB rd Ok rest) (br : BR σ)
    (h : BR.Ok Ok br) (herr : br.err = false) (out0 line t : List Byte) (ho : 1 < out0.length)
    (hr : br.rest rest = line ++ t) (h10 : 10 ∉ line) (hl : line.length + 1 = out0.length)
    (ht : t.head? ≠ some 10) :
    ∃ br', brReadLine rd br out0 =
        some ⟨br', ERROR_PSOCK_BR_READ_LINE_TRUNCATED, line ++ [0], line.length⟩ ∧
      BR.Ok Ok br' ∧ br'.err = false ∧ br'.rest rest = t := by
  obtain ⟨r, h1, h2, h3⟩ := brReadLine_ok R L h out0 ho
  rw [h1]
  cases r with | mk br' st out size =>
  cases h3 with
  | line e a1 a2 a3 a4 a5 a6 a7 =>
    rw [hr] at a2
    exfalso
    have hle := no_newline_prefix h10 a2.symm
    have heq : e.length = line.length := by omega
    obtain ⟨rfl, rfl⟩ := List.append_inj a2 heq.symm
    exact ht rfl
  | full e a1 a2 a3 a4 a5 a6 a7 =>
    rw [hr] at a2
    obtain ⟨rfl, rfl⟩ := List.append_inj a2 (by omega)
    simp only at a1 a5 a6 a7 h2 ⊢
    rw [List.drop_of_length_le (by omega)] at a5
    subst a1 a5 a6
    exact ⟨br', rfl, h2, by rw [a7, herr], rfl⟩
  | last e a0 a1 a2 a3 a4 a5 a6 a7 a8 a9 =>
    rcases a9 with a9 | a9
    · rw [herr] at a9; exact absurd a9 (by simp)
    · rw [a9 P, hr, List.append_nil] at a2
      have := congrArg List.length a2
      rw [List.length_append] at this; omega
  | none a1 a2 a5 a6 a7 a8 a9 =>
    rcases a9 with a9 | a9
    · rw [herr] at a9; exact absurd a9 (by simp)
    · rw [a9 P, hr] at a2
      have := congrArg List.length a2
      rw [List.length_append, List.length_nil] at this; omega

/-- successive calls with buffers of the same size; status and text of each -/
def readLines (rd : Reader σ) (br : BR σ) (out0 : List Byte) : Nat → Option (BR σ × List (Status × List Byte))
  | 0 => some (br, [])
  | k + 1 =>
    match brReadLine rd br out0 with
    | none => none
    | some r =>
      match readLines rd r.br out0 k with
      | none => none
      | some (br, ls) => some (br, (r.st, r.out.take r.size) :: ls)

/-- C25 (part): a stream of lines, each shorter than the buffer less one, is returned line by line,
in any chunking and with nothing lost between calls. -/
theorem read_lines_partial (rd : Reader σ) (Ok : σ → Prop) (rest : σ → List Byte)
    (R : StreamReader rd Ok rest) (L : Lossless rd Ok) (P : ProgressNB rd Ok rest) (out0 : List Byte)
    (ls : List (List Byte)) (t : List Byte) (br : BR σ) (h : BR.Ok Ok br) (herr : br.err = false)
    (hls : ∀ l ∈ ls, 10 ∉ l ∧ l.length + 1 < out0.length)
    (hr : br.rest rest = (ls.map (· ++ [10])).flatten ++ t) :
    ∃ br', readLines rd br out0 ls.length = some (br', ls.map fun l => (SUCCESS, l ++ [0])) ∧
      br'.rest rest = t := by
  induction ls generalizing br with
  | nil => exact ⟨br, rfl, by simpa using hr⟩
  | cons l ls ih =>
    obtain ⟨l1, l2⟩ := hls l List.mem_cons_self
    obtain ⟨br1, h1, h2, h3, h4⟩ := read_line_complete_partial rd Ok rest R L P br h herr out0 l
      ((ls.map (· ++ [10])).flatten ++ t) (by rw [hr]; simp) l1 l2
    obtain ⟨br', i1, i2⟩ := ih br1 h2 h3 (fun l hl => hls l (List.mem_cons_of_mem _ hl)) h4
    refine ⟨br', ?_, i2⟩
    simp only [List.length_cons, readLines, h1, i1, List.map_cons, Option.some.injEq, Prod.mk.injEq, true_and,
      List.cons.injEq, and_true]
    rw [show l ++ 0 :: out0.drop (l.length + 1) = (l ++ [0]) ++ out0.drop (l.length + 1) by simp,
      List.take_append_of_le_length (by simp), List.take_of_length_le (by simp)]

/-- C25 fails: the same stream gives a different result depending on how the socket chunks it (a
line of three bytes and a buffer of four). -/
theorem read_line_chunking_violated :
    fdRest [.chunk [97, 98, 99, 10]] = fdRest [.chunk [97, 98, 99], .chunk [10]] ∧
    (brReadLine fdRead ⟨[.chunk [97, 98, 99, 10]], List.replicate 8 0, 0, 0, false⟩ [0, 0, 0, 0]).map
      (fun r => (r.st, r.size)) = some (SUCCESS, 4) ∧
    (brReadLine fdRead ⟨[.chunk [97, 98, 99], .chunk [10]], List.replicate 8 0, 0, 0, false⟩ [0, 0, 0, 0]).map
      (fun r => (r.st, r.size)) = some (ERROR_PSOCK_BR_READ_LINE_TRUNCATED, 3) := by decide

/-- C25 fails: on a non-blocking socket, a pause within a line makes the call return the first half
as a complete line, and every later call fails although the rest of the line is there. -/
theorem read_line_would_block_violated :
    (readLines fdRead ⟨[.chunk [97, 98], .again, .chunk [99, 10]], List.replicate 8 0, 0, 0, false⟩
      (List.replicate 8 0) 2).map (·.2.map (·.1)) = some [SUCCESS, ERROR_PSOCK_READ_GENERAL] ∧
    (readLines fdRead ⟨[.chunk [97, 98], .again, .chunk [99, 10]], List.replicate 8 0, 0, 0, false⟩
      (List.replicate 8 0) 1).map (·.2) = some [(SUCCESS, [97, 98, 0])] := by decide

/-- a script without waits delivers something as long as there is anything -/
def NoWaits (es : List REv) : Prop := ∀ e ∈ es, ∃ d, e = .chunk d ∧ d ≠ []

-- the hypotheses of the theorems on lines are met by any chunking of any stream
example : StreamReader fdRead NoWaits fdRest ∧ Lossless fdRead NoWaits ∧ ProgressNB fdRead NoWaits fdRest := by
  refine ⟨⟨fun s n b _ => fdRead_stream.total s n b trivial, ?_⟩,
    fun s n b s' st d _ => fdRead_lossless s n b s' st d trivial, ?_⟩
  · intro s n b s' st d hs h
    obtain ⟨_, h2, h3⟩ := fdRead_stream.step s n b s' st d trivial h
    refine ⟨?_, h2, h3⟩
    cases s with
    | nil =>
      simp only [fdRead, Option.some.injEq, Prod.mk.injEq] at h
      rw [← h.1]; exact hs
    | cons e es =>
      obtain ⟨d', rfl, hd'⟩ := hs e List.mem_cons_self
      simp only [fdRead] at h
      split at h
      · simp only [Option.some.injEq, Prod.mk.injEq] at h
        rw [← h.1]; exact fun e he => hs e (List.mem_cons_of_mem _ he)
      · rename_i hl
        simp only [Option.some.injEq, Prod.mk.injEq] at h
        rw [← h.1]
        intro e he
        rcases List.mem_cons.1 he with rfl | he
        · exact ⟨_, rfl, by intro h; rw [List.drop_eq_nil_iff] at h; omega⟩
        · exact hs e (List.mem_cons_of_mem _ he)
  · intro s n hs hn hr
    cases s with
    | nil => exact absurd rfl hr
    | cons e es =>
      obtain ⟨d', rfl, hd'⟩ := hs e List.mem_cons_self
      unfold fdRead
      simp only
      split
      · exact ⟨_, _, rfl, hd'⟩
      · refine ⟨_, _, rfl, ?_⟩
        simp; exact ⟨by omega, hd'⟩
example : (readLines fdRead ⟨[.chunk [97], .chunk [98, 10, 10, 99], .chunk [10, 100]], List.replicate 8 0, 0, 0, false⟩
    (List.replicate 5 0) 4).map (·.2) =
    some [(SUCCESS, [97, 98, 0]), (SUCCESS, [0]), (SUCCESS, [99, 0]), (SUCCESS, [100, 0])] := by decide

/-! ### C49: creating a buffered reader -/

/-- C49 fails: when the buffer cannot be allocated, the constructor reports success and produces no
reader. -/
theorem br_create_violated (sock : σ) (junk : Nat → Byte) :
    brCreate sock SUCCESS ERROR_GENERAL_OUT_OF_MEMORY SUCCESS junk = (SUCCESS, none) := by
  simp [brCreate, show ERROR_GENERAL_OUT_OF_MEMORY ≠ SUCCESS by decide]

/-- C49 (part): a failure of the first allocation is reported, a reader is produced exactly when both
allocations succeed, and when the second allocation fails and the clean-up fails as well, that failure
is reported. Missing: the report when only the second allocation fails. -/
theorem br_create_partial (sock : σ) (a1 a2 rel : Status) (junk : Nat → Byte) :
    ((brCreate sock a1 a2 rel junk).2.isSome ↔ a1 = SUCCESS ∧ a2 = SUCCESS) ∧
    (a2 = SUCCESS ∨ rel ≠ SUCCESS →
      ((brCreate sock a1 a2 rel junk).1 = SUCCESS ↔ (brCreate sock a1 a2 rel junk).2.isSome)) := by
  unfold brCreate
  by_cases h1 : a1 = SUCCESS <;> by_cases h2 : a2 = SUCCESS <;> by_cases h3 : rel = SUCCESS <;>
    simp [h1, h2, h3]

example : (brCreate ([] : List REv) ERROR_GENERAL_OUT_OF_MEMORY SUCCESS SUCCESS fun _ => 0).1 =
    ERROR_GENERAL_OUT_OF_MEMORY := by decide

/-! ### C26: async sockets -/

/-- C26, reading, for every wrapped socket that loses nothing and every behaviour of the scheduler
that takes nothing from the stream: if the call returns at all, it returns bytes from the front of
the stream, and exactly as many as asked for if it is a blocking call that succeeds. -/
theorem async_read_exact (rd : Reader σ) (blk : σ → Option (σ × Status)) (Ok : σ → Prop)
    (rest : σ → List Byte) (R : StreamReader rd Ok rest) (L : Lossless rd Ok) (B : WaitKeeps blk Ok rest)
    (fuel : Nat) (s s' : σ) (n : Nat) (block : Bool) (st : Status) (d : List Byte) (hs : Ok s)
    (h : waRead rd blk fuel s n block = some (s', st, d)) :
    rest s = d ++ rest s' ∧ d.length ≤ n ∧ (st = SUCCESS → block = true → d.length = n) := by
  obtain ⟨e, e1, e2, e3, _, e5⟩ := waLoop_sound R L B block fuel s n [] s' st d hs h
  rw [List.nil_append] at e1
  subst e1
  exact ⟨e3, e2, e5⟩

/-- C26, reading: for every finite schedule of would-block answers and partial reads, a blocking read
of `n` bytes ends, succeeds, and returns exactly the next `n` bytes. -/
theorem async_read_delivers (es : List REv) (hs : Healthy es) (n : Nat) (hn : n ≤ (fdRest es).length)
    (fuel : Nat) (hf : n + fdWaits es < fuel) :
    ∃ es', waRead fdRead fdWait fuel es n true = some (es', SUCCESS, (fdRest es).take n) ∧
      fdRest es' = (fdRest es).drop n := by
  obtain ⟨s', d, h1⟩ := waLoop_full fdRead_ok (fdWait_keeps _ _) fdRead_schedule fuel es n [] hs hn hf
  obtain ⟨h2, h3, h4⟩ := async_read_exact fdRead fdWait Healthy fdRest fdRead_ok
    (fun s n b s' st d _ => fdRead_lossless s n b s' st d trivial) (fdWait_keeps _ _) fuel es s' n true SUCCESS d hs h1
  have h5 := h4 rfl rfl
  refine ⟨s', ?_, ?_⟩
  · rw [waRead, h1, h2, List.take_append_of_le_length (by omega), List.take_of_length_le (by omega)]
  · rw [h2, List.drop_append_of_le_length (by omega), List.drop_of_length_le (by omega), List.nil_append]

/-- C26, writing, for every wrapped socket: if the call returns at all, it has sent bytes from the
front of the data once and in order, all of them if it reports success. -/
theorem async_write_exact (wr : Writer σ) (blk : σ → Option (σ × Status)) (Ok : σ → Prop)
    (out : σ → List Byte) (W : StreamWriter wr Ok out) (L : LosslessW wr Ok out) (B : WaitKeeps blk Ok out)
    (fuel : Nat) (s s' : σ) (d : List Byte) (st : Status) (n : Nat) (hs : Ok s)
    (h : waWrite wr blk fuel s d = some (s', st, n)) :
    ∃ k, k ≤ d.length ∧ out s' = out s ++ d.take k ∧ (st = SUCCESS → k = d.length ∧ n = d.length) := by
  obtain ⟨k, k1, k2, _, k4, _⟩ := waWLoop_sound W L B d.length fuel s d s' st n hs h
  exact ⟨k, k1, k2, k4⟩

/-- C26, writing: for every finite schedule of would-block answers and partial writes, the write
ends, succeeds, and has sent exactly the data. -/
theorem async_write_delivers (es : List WEv) (out d : List Byte) (hs : ∀ e ∈ es, e ≠ .err ∧ e ≠ .take 0)
    (fuel : Nat) (hf : d.length + wWaits es < fuel) :
    ∃ es', waWrite fdWrite fdWait fuel (es, out) d = some ((es', out ++ d), SUCCESS, d.length) := by
  obtain ⟨s', h1⟩ := waWLoop_full fdWrite_ok fdWrite_ok_lossless (fdWait_keeps _ _) fdWrite_schedule d.length fuel
    (es, out) d hs hf
  obtain ⟨k, k1, k2, k3⟩ := async_write_exact fdWrite fdWait HealthyW (·.2) fdWrite_ok fdWrite_ok_lossless
    (fdWait_keeps _ _) fuel (es, out) s' d SUCCESS d.length hs h1
  rw [(k3 rfl).1, List.take_length] at k2
  exact ⟨s'.1, by rw [waWrite, h1, ← k2]⟩

example : Healthy [.again, .chunk [1, 2], .again, .again, .chunk [3]] := by
  intro e he; simp at he; rcases he with rfl | rfl | rfl | rfl <;> simp
example : waRead fdRead fdWait 9 [.again, .chunk [1, 2], .again, .again, .chunk [3, 4]] 3 true =
    some ([.chunk [4]], SUCCESS, [1, 2, 3]) := by decide
example : waWrite fdWrite fdWait 9 ([.take 1, .again, .take 2, .again], []) [1, 2, 3, 4, 5] =
    some (([], [1, 2, 3, 4, 5]), SUCCESS, 5) := by decide

/-! ### C48: size reported by a failed async write -/

/-- C48 fails: the peer goes away after two of four bytes were taken; the write fails, but reports
all four bytes as written. -/
theorem async_write_size_violated :
    waWrite fdWrite fdWait 9 ([.take 2, .take 0], []) [1, 2, 3, 4] =
      some (([], [1, 2]), ERROR_PSOCK_WRITE_EOF, 4) := by decide

/-- the write failed with this error of the wrapped socket -/
def FailsOnlyWith (wr : Writer σ) (blk : σ → Option (σ × Status)) : Prop :=
  (∀ s d s' n, wr s d = some (s', SUCCESS, n) → d ≠ [] → n ≠ 0) ∧ (∀ s s' st, blk s = some (s', st) → st = SUCCESS)

/-- C48 (part): when the failure is an error of the wrapped socket, the size reported is the number
of bytes sent. Missing: failures because the socket takes no more bytes or because waiting failed. -/
theorem async_write_size_partial (wr : Writer σ) (blk : σ → Option (σ × Status)) (Ok : σ → Prop)
    (out : σ → List Byte) (W : StreamWriter wr Ok out) (L : LosslessW wr Ok out) (B : WaitKeeps blk Ok out)
    (F : FailsOnlyWith wr blk) (fuel : Nat) (s s' : σ) (d : List Byte) (st : Status) (n : Nat) (hs : Ok s)
    (h : waWrite wr blk fuel s d = some (s', st, n)) : n ≤ d.length ∧ out s' = out s ++ d.take n := by
  have key : ∀ (fuel : Nat) (s : σ) (rem : List Byte) (size : Nat), Ok s → rem.length ≤ size →
      waWLoop wr blk size fuel s rem = some (s', st, n) →
      ∃ k, k ≤ rem.length ∧ out s' = out s ++ rem.take k ∧ n = size - (rem.length - k) := by
    intro fuel
    induction fuel with
    | zero => intro s rem size _ _ h; simp [waWLoop] at h
    | succ fuel ih =>
      intro s rem size hs hsz h
      unfold waWLoop at h
      by_cases hd0 : rem.length = 0
      · rw [if_pos hd0] at h
        simp only [Option.some.injEq, Prod.mk.injEq] at h
        obtain ⟨rfl, rfl, rfl⟩ := h
        exact ⟨0, by omega, by simp, by omega⟩
      rw [if_neg hd0] at h
      rcases h1 : wr s rem with _ | ⟨s1, st1, n1⟩
      · simp [h1] at h
      simp only [h1] at h
      by_cases hwb : st1 = ERROR_PSOCK_WRITE_WOULD_BLOCK
      · subst hwb
        obtain ⟨l1, l2⟩ := L _ _ _ _ _ hs h1 (by decide)
        rw [if_pos rfl] at h
        rcases h2 : blk s1 with _ | ⟨s2, bst⟩
        · simp [h2] at h
        simp only [h2] at h
        obtain ⟨b1, b2⟩ := B _ _ _ l1 h2
        rw [if_neg (by simp [F.2 _ _ _ h2])] at h
        obtain ⟨k, k1, k2, k3⟩ := ih _ _ _ b1 hsz h
        exact ⟨k, k1, by rw [k2, b2, l2], k3⟩
      · rw [if_neg hwb] at h
        by_cases hst : st1 = SUCCESS
        · subst hst
          obtain ⟨o1, o2, o3⟩ := W.step _ _ _ _ hs h1
          have hn0 := F.1 _ _ _ _ h1 (by intro h; simp [h] at hd0)
          rw [if_neg (by simp), if_neg hn0, if_neg (by omega)] at h
          obtain ⟨k, k1, k2, k3⟩ := ih _ _ _ o1 (by rw [List.length_drop]; omega) h
          rw [List.length_drop] at k1 k3
          refine ⟨n1 + k, by omega, ?_, by omega⟩
          rw [k2, o3, List.append_assoc, List.take_add]
        · rw [if_pos hst] at h
          simp only [Option.some.injEq, Prod.mk.injEq] at h
          obtain ⟨rfl, rfl, rfl⟩ := h
          obtain ⟨l1, l2⟩ := L _ _ _ _ _ hs h1 hst
          exact ⟨0, by omega, by simp [l2], by omega⟩
  obtain ⟨k, k1, k2, k3⟩ := key fuel s d d.length hs (Nat.le_refl _) h
  have : n = k := by omega
  subst this
  exact ⟨k1, k2⟩

example : waWrite fdWrite fdWait 9 ([.take 2, .again, .take 1, .err], []) [1, 2, 3, 4] =
    some (([], [1, 2, 3]), ERROR_PSOCK_WRITE_GENERAL, 3) := by decide

/-! ### C50: boxed values over async sockets, end to end -/

/-- an async socket on a scripted descriptor, run until it returns -/
def asyncRead : Reader (List REv) := fun s n b => waRead fdRead fdWait (n + fdWaits s + 1) s n b

def asyncWrite : Writer (List WEv × List Byte) := fun s d =>
  waWrite fdWrite fdWait (d.length + wWaits s.1 + 1) s d

theorem waLoop_fd_total (block : Bool) : ∀ (fuel : Nat) (s : List REv) (n : Nat) (acc : List Byte),
    n + fdWaits s < fuel → (waLoop fdRead fdWait block fuel s n acc).isSome := by
  have hsw : SUCCESS ≠ ERROR_PSOCK_READ_WOULD_BLOCK := by decide
  have hgw : ERROR_PSOCK_READ_GENERAL ≠ ERROR_PSOCK_READ_WOULD_BLOCK := by decide
  have hgs : ERROR_PSOCK_READ_GENERAL ≠ SUCCESS := by decide
  intro fuel
  induction fuel with
  | zero => intro s n acc h; omega
  | succ fuel ih =>
    intro s n acc h
    unfold waLoop
    by_cases hn : n = 0
    · rw [if_pos hn]; rfl
    rw [if_neg hn]
    cases s with
    | nil => simp [fdRead, hsw]
    | cons e es =>
      cases e with
      | chunk d =>
        simp only [fdWaits] at h
        simp only [fdRead]
        by_cases hdn : d.length ≤ n
        · rw [if_pos hdn]
          simp only [hsw, false_and, if_false, ne_eq, not_true]
          split
          · rfl
          · rw [if_neg (by omega)]
            exact ih _ _ _ (by omega)
        · rw [if_neg hdn]
          simp only [hsw, false_and, if_false, ne_eq, not_true]
          rw [if_neg (by rw [List.length_take]; omega), if_neg (by rw [List.length_take]; omega)]
          refine ih _ _ _ ?_
          rw [List.length_take]; simp only [fdWaits]; omega
      | again =>
        simp only [fdWaits] at h
        cases block with
        | true =>
          simp only [fdRead, and_self, if_true, fdWait, ne_eq, not_true, if_false]
          exact ih _ _ _ (by omega)
        | false =>
          simp only [fdRead]
          simp
          split <;> rfl
      | err => simp [fdRead, hgw, hgs]

theorem asyncRead_stream : StreamReader asyncRead Healthy fdRest := by
  constructor
  · intro s n b _
    exact waLoop_fd_total b _ s n [] (by omega)
  · intro s n b s' st d hs h
    obtain ⟨e, e1, e2, e3, e4, _⟩ := waLoop_sound fdRead_ok
      (fun s n b s' st d _ => fdRead_lossless s n b s' st d trivial) (fdWait_keeps _ _) b _ s n [] s' st d hs h
    rw [List.nil_append] at e1
    subst e1
    exact ⟨e4, e2, e3⟩

theorem asyncRead_full : Full asyncRead Healthy fdRest := by
  intro s n hs _ hn
  obtain ⟨s', h1, _⟩ := async_read_delivers s hs n hn (n + fdWaits s + 1) (by omega)
  exact ⟨s', _, h1, by rw [List.length_take]; omega⟩

theorem asyncRead_zero (s : List REv) : ZeroReadOk asyncRead s :=
  ⟨s, by unfold asyncRead waRead waLoop; simp⟩

theorem asyncWrite_full : FullW asyncWrite HealthyW := by
  intro s d hs
  obtain ⟨es', h⟩ := async_write_delivers s.1 s.2 d hs (d.length + wWaits s.1 + 1) (by omega)
  exact ⟨_, h⟩

theorem asyncWrite_stream : StreamWriter asyncWrite HealthyW (·.2) := by
  constructor
  · intro s d hs
    obtain ⟨s', h⟩ := asyncWrite_full s d hs
    simp [h]
  · intro s d s' n hs h
    obtain ⟨k, k1, k2, k3, k4, _⟩ := waWLoop_sound fdWrite_ok fdWrite_ok_lossless (fdWait_keeps _ _) d.length _ s d s'
      SUCCESS n hs h
    obtain ⟨rfl, rfl⟩ := k4 rfl
    exact ⟨k3, Nat.le_refl _, k2⟩

/-- C50: any sequence of boxed values written to an async socket under any finite schedule of partial
writes and waits, and read with the matching calls from an async socket that delivers those bytes
under any other finite schedule of partial reads and waits, on hosts of either byte order, is
returned unchanged. -/
theorem boxed_over_async (e1 e2 : Endian) (vs : List Val) (hv : ∀ v ∈ vs, v.Valid) (ws : List WEv)
    (hw : ∀ e ∈ ws, e ≠ .err ∧ e ≠ .take 0) :
    ∃ ws' sent, writeSeq e1 asyncWrite (ws, []) vs = some ((ws', sent), SUCCESS) ∧
      ∀ rs : List REv, Healthy rs → fdRest rs = sent →
        readSeq e2 asyncRead rs (vs.map Val.ty) = some (vs.map fun v => (SUCCESS, some v)) := by
  have hwrite : ∀ (vs : List Val) (s : List WEv × List Byte), HealthyW s → (∀ v ∈ vs, v.Valid) →
      ∃ s', writeSeq e1 asyncWrite s vs = some (s', SUCCESS) ∧ s'.2 = s.2 ++ (vs.map encode).flatten := by
    intro vs
    induction vs with
    | nil => intro s _ _; exact ⟨s, rfl, by simp⟩
    | cons v vs ih =>
      intro s hs hv
      obtain ⟨s1, h1, h2, h3⟩ := write_boxed_succeeds _ _ _ asyncWrite_stream asyncWrite_full e1 s v
        (hv v List.mem_cons_self) hs
      obtain ⟨s', h4, h5⟩ := ih s1 h2 (fun v h => hv v (List.mem_cons_of_mem _ h))
      refine ⟨s', by simp [writeSeq, h1, h4], ?_⟩
      rw [h5, h3]; simp
  have hread : ∀ (vs : List Val) (s : List REv), Healthy s → (∀ v ∈ vs, v.Valid) →
      fdRest s = (vs.map encode).flatten →
      readSeq e2 asyncRead s (vs.map Val.ty) = some (vs.map fun v => (SUCCESS, some v)) := by
    intro vs
    induction vs with
    | nil => intro s _ _ _; rfl
    | cons v vs ih =>
      intro s hs hv hr
      obtain ⟨s', h1, h2, h3⟩ := read_boxed_succeeds _ _ _ asyncRead_stream asyncRead_full e2 s v
        (vs.map encode).flatten hs (hv v List.mem_cons_self) (by rw [hr]; simp) SUCCESS
        (fun _ s _ _ => asyncRead_zero s)
      have := ih s' h2 (fun v h => hv v (List.mem_cons_of_mem _ h)) h3
      simp [readSeq, h1, this]
  obtain ⟨⟨ws', sent⟩, h1, h2⟩ := hwrite vs (ws, []) hw hv
  refine ⟨ws', sent, h1, ?_⟩
  intro rs hrs hr
  refine hread vs rs hrs hv ?_
  rw [hr]; simpa using h2

example : (writeSeq .little asyncWrite ([.take 1, .again, .take 5], []) [.int .int8 5, .string []]).map (fun r => (r.1.2, r.2)) =
    some ([0, 0, 0, 22, 5, 0, 0, 0, 32, 0, 0, 0, 0], SUCCESS) := by decide
example : readSeq .big asyncRead [.chunk [0], .again, .chunk [0, 0, 22, 5, 0, 0], .chunk [0, 32], .again, .chunk [0, 0, 0, 0]]
    [.int .int8, .string] = some [(SUCCESS, some (.int .int8 5)), (SUCCESS, some (.string []))] := by decide

end Rcpr.Psock
