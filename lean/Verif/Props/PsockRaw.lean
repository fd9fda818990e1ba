import Verif.PsockRaw

/-!
C84: a non-blocking read reports exactly the bytes it took from the stream.
-/
namespace Rcpr.Psock

open Rcpr

variable {σ : Type}

/-! ### Specification -/

/-- what the caller is told to have read: after success and after would-block, the first `*data_size`
bytes of the buffer; nothing after any other status (include/rcpr/psock.h, psock_read_raw) -/
def Raw.told (r : Raw σ) : List Byte :=
  if r.st = SUCCESS ∨ r.st = ERROR_PSOCK_READ_WOULD_BLOCK then r.buf.take r.size else []

/-- any number of non-blocking reads, each with a buffer of its own -/
def rawReads (rd : SReader σ) (s : σ) : List (List Byte) → Option (σ × List (Raw σ))
  | [] => some (s, [])
  | b :: bs =>
    match readRaw rd s b with
    | none => none
    | some r =>
      match rawReads rd r.sock bs with
      | none => none
      | some (s, rs) => some (s, r :: rs)

/-- However often and with whatever buffers one reads, the bytes `tell` makes of the answers, followed by
what is still to come, are the stream. Buffers are never overrun, and no more is reported than fits. -/
def FaithfulAs (tell : Raw σ → List Byte) (rd : SReader σ) (Ok : σ → Prop) (rest : σ → List Byte) : Prop :=
  ∀ s bufs, Ok s → (∀ b ∈ bufs, b ≠ []) → ∃ s' rs, rawReads rd s bufs = some (s', rs) ∧ Ok s' ∧
    rest s = (rs.map tell).flatten ++ rest s' ∧
    rs.map (·.buf.length) = bufs.map (·.length) ∧ ∀ r ∈ rs, r.size ≤ r.buf.length

/-- The full property: what one is told to have read, followed by what is still to come, is the stream. -/
def Faithful (rd : SReader σ) (Ok : σ → Prop) (rest : σ → List Byte) : Prop := FaithfulAs Raw.told rd Ok rest

/-- what a caller believes who looks at `*data_size` after success only -/
def Raw.got (r : Raw σ) : List Byte := if r.st = SUCCESS then r.buf.take r.size else []

/-! ### One call -/

theorem take_stored {d buf : List Byte} : (d ++ buf.drop d.length).take d.length = d := by simp

theorem stored_length {d buf : List Byte} (h : d.length ≤ buf.length) :
    (d ++ buf.drop d.length).length = buf.length := by
  rw [List.length_append, List.length_drop]; omega

/-- the property of sessions from that of one call -/
theorem faithful_of {tell : Raw σ → List Byte} {rd : SReader σ} {Ok : σ → Prop} {rest : σ → List Byte}
    (h : ∀ s b, Ok s → b ≠ [] → ∃ r, readRaw rd s b = some r ∧ Ok r.sock ∧ rest s = tell r ++ rest r.sock ∧
      r.buf.length = b.length ∧ r.size ≤ r.buf.length) : FaithfulAs tell rd Ok rest := by
  intro s bufs
  induction bufs generalizing s with
  | nil => intro hs _; exact ⟨s, [], rfl, hs, by simp, rfl, by simp⟩
  | cons b bs ih =>
    intro hs hb
    obtain ⟨r, h1, h2, h3, h4, h5⟩ := h s b hs (hb b List.mem_cons_self)
    obtain ⟨s', rs, i1, i2, i3, i4, i5⟩ := ih r.sock h2 (fun x hx => hb x (List.mem_cons_of_mem _ hx))
    refine ⟨s', r :: rs, by simp [rawReads, h1, i1], i2, ?_, ?_, ?_⟩
    · rw [List.map_cons, List.flatten_cons, List.append_assoc, ← i3, h3]
    · rw [List.map_cons, List.map_cons, h4, i4]
    · intro x hx
      rcases List.mem_cons.1 hx with rfl | hx
      · exact h5
      · exact i5 x hx

/-- one call, over any method that stores a prefix of the stream that fits and whose `*size` is the number
of bytes stored -/
theorem readRaw_sound {rd : Reader σ} {Ok : σ → Prop} {rest : σ → List Byte} {sz : Status → List Byte → Nat → Nat}
    (R : StreamReader rd Ok rest) {s : σ} {buf : List Byte} (hs : Ok s) :
    ∃ s' st d, rd s buf.length false = some (s', st, d) ∧ Ok s' ∧ d.length ≤ buf.length ∧
      rest s = d ++ rest s' ∧
      readRaw (withSize sz rd) s buf =
        some ⟨s', st, d ++ buf.drop d.length,
          if st = SUCCESS ∨ st = ERROR_PSOCK_READ_WOULD_BLOCK then sz st d buf.length else buf.length⟩ := by
  obtain ⟨⟨s', st, d⟩, hr⟩ := Option.isSome_iff_exists.1 (R.total s buf.length false hs)
  obtain ⟨h1, h2, h3⟩ := R.step _ _ _ _ _ _ hs hr
  refine ⟨s', st, d, hr, h1, h2, h3, ?_⟩
  unfold readRaw withSize
  simp only [hr]
  rw [if_neg (by omega)]
  by_cases hw : st = ERROR_PSOCK_READ_WOULD_BLOCK
  · simp [hw]
  · by_cases hk : st = SUCCESS
    · simp [hk]; intro c; exact absurd c (by decide)
    · simp [hw, hk]

theorem size_le {sz : Status → List Byte → Nat → Nat} {st : Status} {d buf : List Byte} (hd : d.length ≤ buf.length)
    (h : sz st d buf.length ≤ buf.length) :
    (if st = SUCCESS ∨ st = ERROR_PSOCK_READ_WOULD_BLOCK then sz st d buf.length else buf.length) ≤
      (d ++ buf.drop d.length).length := by
  rw [stored_length hd]
  split
  · exact h
  · exact Nat.le_refl _

/-! ### C84 -/

/-- C84 for psocks over a buffer in memory: all of it. -/
theorem read_raw_buffer : Faithful pbReadS (fun _ => True) PB.rest := by
  apply faithful_of
  intro s b _ hb
  obtain ⟨s', st, d, h1, h2, h3, h4, h5⟩ := readRaw_sound (sz := sizeOnSuccess)
    pbRead_stream (s := s) (buf := b) trivial
  refine ⟨_, h5, h2, ?_, stored_length h3, ?_⟩
  · have hst : st = SUCCESS ∨ (st = ERROR_PSOCK_READ_EOF ∧ d = []) := by
      unfold pbRead at h1
      split at h1
      · simp only [Option.some.injEq, Prod.mk.injEq] at h1
        exact .inr ⟨h1.2.1.symm, h1.2.2.symm⟩
      · split at h1
        · simp only [Option.some.injEq, Prod.mk.injEq] at h1
          exact .inr ⟨h1.2.1.symm, h1.2.2.symm⟩
        · simp only [Option.some.injEq, Prod.mk.injEq] at h1
          exact .inl h1.2.1.symm
    rcases hst with rfl | ⟨rfl, rfl⟩
    · simpa [Raw.told, sizeOnSuccess, take_stored] using h4
    · have : ¬ (ERROR_PSOCK_READ_EOF = SUCCESS ∨ ERROR_PSOCK_READ_EOF = ERROR_PSOCK_READ_WOULD_BLOCK) := by decide
      simpa [Raw.told, this] using h4
  · exact size_le (sz := sizeOnSuccess) h3 (by unfold sizeOnSuccess; split <;> omega)

/-- C84 for buffered readers, over every socket that loses nothing when a read fails: all of it. -/
theorem read_raw_br (rd : Reader σ) (Ok : σ → Prop) (rest : σ → List Byte) (R : StreamReader rd Ok rest)
    (L : Lossless rd Ok) : Faithful (brReadS rd) (BR.Ok Ok) (BR.rest rest) := by
  apply faithful_of
  intro s b hs hb
  obtain ⟨s', st, d, h1, h2, h3, h4, h5⟩ := readRaw_sound (sz := sizeAlways) (brRead_stream R L)
    (s := s) (buf := b) hs
  refine ⟨_, h5, h2, ?_, stored_length h3, size_le (sz := sizeAlways) h3 h3⟩
  by_cases hk : st = SUCCESS ∨ st = ERROR_PSOCK_READ_WOULD_BLOCK
  · simpa [Raw.told, hk, sizeAlways, take_stored] using h4
  · -- one pass that fails has stored nothing
    have hd : d = [] := by
      have hne : st ≠ SUCCESS := fun c => hk (.inl c)
      unfold brRead brLoop at h1
      split at h1
      · cases h1
      · split at h1
        · cases h1
        · rename_i br1 st1 _
          by_cases c : st1 ≠ SUCCESS
          · rw [if_pos c] at h1
            simp only [Option.some.injEq, Prod.mk.injEq] at h1
            exact h1.2.2.symm
          · rw [if_neg c] at h1
            exfalso
            revert h1
            repeat' split
            all_goals (intro h1; first | (cases h1; done) | skip)
            all_goals simp_all
    subst hd
    simpa [Raw.told, hk] using h4

/-- C84 fails for psocks over a descriptor: when nothing has arrived, the answer is would-block and the
whole buffer is reported as read, though not one byte was stored. -/
theorem read_raw_descriptor_violated (es : List REv) (buf : List Byte) :
    ∃ r, readRaw fdReadS (.again :: es) buf = some r ∧ r.st = ERROR_PSOCK_READ_WOULD_BLOCK ∧ r.told = buf ∧
      fdRest r.sock = fdRest (.again :: es) := by
  have h : ERROR_PSOCK_READ_WOULD_BLOCK ≠ SUCCESS := by decide
  refine ⟨⟨es, ERROR_PSOCK_READ_WOULD_BLOCK, buf, buf.length⟩, ?_, rfl, ?_, rfl⟩
  · simp [readRaw, fdReadS, withSize, fdRead, sizeOnSuccess, h]
  · simp [Raw.told]

/-- C84 (part) for psocks over a descriptor, for every behaviour of the descriptor: a caller who looks at
`*data_size` after success only has the stream, whole and in order. After any other status nothing was
taken from the stream, the buffer is as it was, and `*data_size` is the size of the buffer. Missing: the
size reported with would-block. -/
theorem read_raw_descriptor_partial :
    FaithfulAs Raw.got fdReadS (fun _ => True) fdRest ∧
    ∀ es buf r, readRaw fdReadS es buf = some r → r.st ≠ SUCCESS →
      r.buf = buf ∧ r.size = buf.length ∧ fdRest r.sock = fdRest es := by
  have key : ∀ (s : List REv) (b : List Byte), ∃ s' st d, fdRest s = d ++ fdRest s' ∧ d.length ≤ b.length ∧
      (st ≠ SUCCESS → d = []) ∧ readRaw fdReadS s b = some ⟨s', st, d ++ b.drop d.length,
        if st = SUCCESS then d.length else b.length⟩ := by
    intro s b
    obtain ⟨s', st, d, h1, h2, h3, h4, h5⟩ := readRaw_sound (sz := sizeOnSuccess) fdRead_stream (s := s) (buf := b) trivial
    refine ⟨s', st, d, h4, h3, fdRead_lossless _ _ _ _ _ _ trivial h1, ?_⟩
    rw [fdReadS, h5]
    by_cases c : st = SUCCESS <;> simp [sizeOnSuccess, c]
  constructor
  · apply faithful_of
    intro s b _ _
    obtain ⟨s', st, d, h1, h2, h3, h4⟩ := key s b
    refine ⟨_, h4, trivial, ?_, stored_length h2, ?_⟩
    · by_cases c : st = SUCCESS
      · simpa [Raw.got, c, take_stored] using h1
      · simpa [Raw.got, c, h3 c] using h1
    · show (if st = SUCCESS then d.length else b.length) ≤ (d ++ b.drop d.length).length
      rw [stored_length h2]; split <;> omega
  · intro es buf r hr hst
    obtain ⟨s', st, d, h1, h2, h3, h4⟩ := key es buf
    rw [hr] at h4
    cases h4
    have c : st ≠ SUCCESS := hst
    rw [h3 c] at h1 ⊢
    refine ⟨by simp, by simp [c], ?_⟩
    simpa using h1.symm

/-- C84 fails for async psocks: when the end of the stream follows the last bytes, they are read and then
dropped. The caller gets an error, is told of no bytes, and nothing is left to read. -/
theorem read_raw_async_violated (d buf : List Byte) (blk : List REv → Option (List REv × Status)) (fuel : Nat)
    (hd : d ≠ []) (hl : d.length < buf.length) (hf : 2 ≤ fuel) :
    ∃ r, readRaw (waReadS fdRead blk fuel) [.chunk d] buf = some r ∧ r.st = ERROR_PSOCK_READ_EOF ∧
      r.told = [] ∧ fdRest r.sock = [] ∧ r.buf = d ++ buf.drop d.length := by
  have hw : SUCCESS ≠ ERROR_PSOCK_READ_WOULD_BLOCK := by decide
  have he : ¬ (ERROR_PSOCK_READ_EOF = SUCCESS ∨ ERROR_PSOCK_READ_EOF = ERROR_PSOCK_READ_WOULD_BLOCK) := by decide
  have h0 : d.length ≠ 0 := fun h => hd (List.length_eq_zero_iff.1 h)
  obtain ⟨fuel, rfl⟩ : ∃ k, fuel = k + 2 := ⟨fuel - 2, by omega⟩
  have hrun : waRead fdRead blk (fuel + 2) [.chunk d] buf.length false = some ([], ERROR_PSOCK_READ_EOF, d) := by
    unfold waRead waLoop
    rw [if_neg (by omega)]
    simp only [fdRead]
    rw [if_pos (by omega)]
    simp only [hw, false_and, if_false, ne_eq, not_true_eq_false]
    rw [if_neg h0, if_neg (by omega)]
    unfold waLoop
    rw [if_neg (by omega)]
    simp [hw, fdRead]
  refine ⟨⟨[], ERROR_PSOCK_READ_EOF, d ++ buf.drop d.length, buf.length⟩, ?_, rfl, ?_, rfl, rfl⟩
  · unfold readRaw waReadS withSize
    simp only [hrun]
    rw [if_neg (by omega), if_neg (fun c => he (.inr c)), if_pos (fun c => he (.inl c))]
  · simp [Raw.told, he]

/-- a non-blocking read of an async psock needs no more passes than bytes -/
theorem waLoop_nb_total {rd : Reader σ} {Ok : σ → Prop} {rest : σ → List Byte} (R : StreamReader rd Ok rest)
    (blk : σ → Option (σ × Status)) : ∀ (fuel : Nat) (s : σ) (n : Nat) (acc : List Byte), Ok s → n < fuel →
      (waLoop rd blk false fuel s n acc).isSome := by
  intro fuel
  induction fuel with
  | zero => intro s n acc _ h; omega
  | succ fuel ih =>
    intro s n acc hs hf
    unfold waLoop
    by_cases h0 : n = 0
    · simp [h0]
    · rw [if_neg h0]
      obtain ⟨⟨s', st, d⟩, hr⟩ := Option.isSome_iff_exists.1 (R.total s n false hs)
      obtain ⟨h1, h2, h3⟩ := R.step _ _ _ _ _ _ hs hr
      simp only [hr]
      rw [if_neg (by simp)]
      by_cases hw : st = ERROR_PSOCK_READ_WOULD_BLOCK
      · rw [if_pos (by simp [hw])]; split <;> rfl
      · rw [if_neg (fun c => hw c.1)]
        by_cases hk : st = SUCCESS
        · rw [if_neg (fun c => c hk)]
          by_cases hd : d.length = 0
          · simp [hd]
          · rw [if_neg hd, if_neg (by omega)]
            exact ih s' (n - d.length) (acc ++ d) h1 (by omega)
        · rw [if_pos hk]; rfl

/-- C84 (part) for async psocks, over every socket that loses nothing when a read fails: every byte taken
from the stream is accounted for, in order. It was told to the caller, or else the call that took it
answered an error other than would-block and the byte lies, uncounted, at the front of the buffer.
So as long as no such error is answered, what one is told, followed by what is still to come, is the
stream. Missing: bytes read before an error, or before the end of the stream, are not reported. -/
theorem read_raw_async_partial (rd : Reader σ) (blk : σ → Option (σ × Status)) (Ok : σ → Prop)
    (rest : σ → List Byte) (R : StreamReader rd Ok rest) (L : Lossless rd Ok) (B : WaitKeeps blk Ok rest)
    (fuel : Nat) (s : σ) (bufs : List (List Byte)) (hs : Ok s) (hb : ∀ b ∈ bufs, b.length < fuel) :
    ∃ s' rs lost, rawReads (waReadS rd blk fuel) s bufs = some (s', rs) ∧ Ok s' ∧
      rs.map (·.buf.length) = bufs.map (·.length) ∧ lost.length = rs.length ∧
      rest s = (List.zipWith (fun r l => r.told ++ l) rs lost).flatten ++ rest s' ∧
      (∀ x ∈ rs.zip lost, x.2 <+: x.1.buf ∧ x.1.size ≤ x.1.buf.length ∧
        (x.1.st = SUCCESS ∨ x.1.st = ERROR_PSOCK_READ_WOULD_BLOCK → x.2 = [])) := by
  induction bufs generalizing s with
  | nil => exact ⟨s, [], [], rfl, hs, rfl, rfl, by simp, by simp⟩
  | cons b bs ih =>
    obtain ⟨⟨s1, st, d⟩, hr⟩ := Option.isSome_iff_exists.1
      (waLoop_nb_total R blk fuel s b.length [] hs (hb b List.mem_cons_self))
    obtain ⟨e, e1, e2, e3, e4, _⟩ := waLoop_sound R L B false fuel s b.length [] s1 st d hs hr
    rw [List.nil_append] at e1; subst e1
    obtain ⟨s', rs, lost, i1, i2, i3, i4, i5, i6⟩ := ih s1 e4 (fun x hx => hb x (List.mem_cons_of_mem _ hx))
    have hr' : waRead rd blk fuel s b.length false = some (s1, st, d) := hr
    by_cases hk : st = SUCCESS ∨ st = ERROR_PSOCK_READ_WOULD_BLOCK
    · have hrun : readRaw (waReadS rd blk fuel) s b = some ⟨s1, st, d ++ b.drop d.length, d.length⟩ := by
        unfold readRaw waReadS withSize
        simp only [hr', sizeAlways]
        rw [if_neg (by omega)]
        rcases hk with rfl | rfl
        · rw [if_neg (by decide)]; simp
        · simp
      refine ⟨s', ⟨s1, st, d ++ b.drop d.length, d.length⟩ :: rs, [] :: lost, by simp only [rawReads, hrun, i1], i2, ?_, by simp [i4], ?_, ?_⟩
      · simp only [List.map_cons, i3, stored_length e2]
      · simp only [List.zipWith_cons_cons, List.flatten_cons, List.append_nil, List.append_assoc, ← i5, e3]
        simp [Raw.told, hk]
      · intro x hx
        rcases List.mem_cons.1 hx with rfl | hx
        · refine ⟨List.nil_prefix, ?_, fun _ => rfl⟩
          show d.length ≤ (d ++ b.drop d.length).length
          rw [stored_length e2]; omega
        · exact i6 x hx
    · have hrun : readRaw (waReadS rd blk fuel) s b = some ⟨s1, st, d ++ b.drop d.length, b.length⟩ := by
        unfold readRaw waReadS withSize
        simp only [hr', sizeAlways]
        rw [if_neg (by omega), if_neg (fun c => hk (.inr c)), if_pos (fun c => hk (.inl c))]
      refine ⟨s', ⟨s1, st, d ++ b.drop d.length, b.length⟩ :: rs, d :: lost, by simp only [rawReads, hrun, i1], i2, ?_, by simp [i4], ?_, ?_⟩
      · simp only [List.map_cons, i3, stored_length e2]
      · simp only [List.zipWith_cons_cons, List.flatten_cons, List.append_assoc, ← i5, e3]
        simp [Raw.told, hk]
      · intro x hx
        rcases List.mem_cons.1 hx with rfl | hx
        · refine ⟨List.prefix_append _ _, ?_, fun c => absurd c hk⟩
          show b.length ≤ (d ++ b.drop d.length).length
          rw [stored_length e2]; omega
        · exact i6 x hx

/-- A non-blocking read of an async psock takes all that has arrived, up to the size of the buffer, however
it was cut up on the way; it answers would-block exactly when nothing has arrived. -/
theorem read_raw_async_takes_all (ds : List (List Byte)) (hds : ∀ d ∈ ds, d ≠ []) (es : List REv)
    (blk : List REv → Option (List REv × Status)) (buf : List Byte) (hb : buf ≠ []) (fuel : Nat)
    (hf : buf.length < fuel) :
    ∃ r, readRaw (waReadS fdRead blk fuel) (ds.map .chunk ++ .again :: es) buf = some r ∧
      r.st = (if ds = [] then ERROR_PSOCK_READ_WOULD_BLOCK else SUCCESS) ∧
      r.told = ds.flatten.take buf.length ∧
      fdRest r.sock = ds.flatten.drop buf.length ++ fdRest es := by
  have hsw : SUCCESS ≠ ERROR_PSOCK_READ_WOULD_BLOCK := by decide
  have key : ∀ (fuel : Nat) (ds : List (List Byte)) (n : Nat) (acc : List Byte), (∀ d ∈ ds, d ≠ []) → n < fuel →
      (n = 0 → acc ≠ []) →
      ∃ s', waLoop fdRead blk false fuel (ds.map .chunk ++ .again :: es) n acc =
        some (s', if acc = [] ∧ ds = [] then ERROR_PSOCK_READ_WOULD_BLOCK else SUCCESS, acc ++ ds.flatten.take n) ∧
        fdRest s' = ds.flatten.drop n ++ fdRest es := by
    intro fuel
    induction fuel with
    | zero => intro ds n acc _ h; omega
    | succ fuel ih =>
      intro ds n acc hds hf hacc
      unfold waLoop
      have fr : ∀ ds : List (List Byte), fdRest (ds.map .chunk ++ .again :: es) = ds.flatten ++ fdRest es := by
        intro ds
        induction ds with
        | nil => simp [fdRest]
        | cons d ds ih => simp [fdRest, ih]
      by_cases h0 : n = 0
      · subst h0
        refine ⟨ds.map .chunk ++ .again :: es, by simp [hacc rfl], ?_⟩
        simp [fr]
      · rw [if_neg h0]
        cases ds with
        | nil =>
          simp only [List.map_nil, List.nil_append, fdRead]
          rw [if_neg (by simp), if_pos (by simp)]
          by_cases ha : acc = []
          · subst ha
            exact ⟨es, by simp, by simp⟩
          · have : acc.length > 0 := List.length_pos_iff.2 ha
            exact ⟨es, by simp [this, ha], by simp⟩
        | cons d ds =>
          have hd := hds d List.mem_cons_self
          have hd0 : d.length ≠ 0 := fun h => hd (List.length_eq_zero_iff.1 h)
          have ht : ∀ x ∈ ds, x ≠ [] := fun x hx => hds x (List.mem_cons_of_mem _ hx)
          simp only [List.map_cons, List.cons_append, fdRead]
          by_cases hl : d.length ≤ n
          · rw [if_pos hl]
            simp only [hsw, false_and, if_false, ne_eq, not_true_eq_false]
            rw [if_neg hd0, if_neg (by omega)]
            obtain ⟨s', i1, i2⟩ := ih ds (n - d.length) (acc ++ d) ht (by omega) (fun _ => by simp [hd])
            refine ⟨s', ?_, ?_⟩
            · rw [i1]
              simp [hd, List.take_append, List.take_of_length_le hl]
            · rw [i2]
              simp [List.drop_append, List.drop_of_length_le hl]
          · rw [if_neg hl]
            have hlt : (d.take n).length = n := by rw [List.length_take]; omega
            simp only [hsw, false_and, if_false, ne_eq, not_true_eq_false, hlt]
            rw [if_neg h0, if_neg (by omega)]
            obtain ⟨s', i1, i2⟩ := ih (d.drop n :: ds) (n - n) (acc ++ d.take n)
              (fun x hx => by
                rcases List.mem_cons.1 hx with rfl | hx
                · intro c
                  rw [List.drop_eq_nil_iff] at c
                  omega
                · exact ht x hx)
              (by omega) (fun _ c => by
                have := congrArg List.length c
                rw [List.length_append, hlt] at this
                simp at this
                exact h0 this.2)
            refine ⟨s', ?_, ?_⟩
            · rw [List.map_cons, List.cons_append] at i1
              rw [i1]
              have : n - d.length = 0 := by omega
              simp [this, List.take_append]
            · rw [i2]
              have : n - d.length = 0 := by omega
              simp [this, List.drop_append]
  have hb0 : buf.length ≠ 0 := fun h => hb (List.length_eq_zero_iff.1 h)
  obtain ⟨s', k1, k2⟩ := key fuel ds buf.length [] hds hf (fun h => absurd h hb0)
  rw [List.nil_append] at k1
  have hlen : (ds.flatten.take buf.length).length ≤ buf.length := by rw [List.length_take]; omega
  have hst : (if ([] : List Byte) = [] ∧ ds = [] then ERROR_PSOCK_READ_WOULD_BLOCK else SUCCESS) =
      (if ds = [] then ERROR_PSOCK_READ_WOULD_BLOCK else SUCCESS) := by simp
  rw [hst] at k1
  refine ⟨⟨s', if ds = [] then ERROR_PSOCK_READ_WOULD_BLOCK else SUCCESS,
    ds.flatten.take buf.length ++ buf.drop (ds.flatten.take buf.length).length,
    (ds.flatten.take buf.length).length⟩, ?_, rfl, ?_, k2⟩
  · unfold readRaw waReadS withSize waRead
    simp only [k1, sizeAlways]
    rw [if_neg (by omega)]
    by_cases c : ds = []
    · simp [c]
    · simp [c, hsw]
  · unfold Raw.told
    have : ∀ c : Prop, [Decidable c] → ((if c then ERROR_PSOCK_READ_WOULD_BLOCK else SUCCESS) = SUCCESS ∨
        (if c then ERROR_PSOCK_READ_WOULD_BLOCK else SUCCESS) = ERROR_PSOCK_READ_WOULD_BLOCK) := by
      intro c _; by_cases h : c <;> simp [h]
    rw [if_pos (this _)]
    exact take_stored

/-- Buffered readers do not hand out what they hold: with bytes in the buffer, but fewer than asked for, and
nothing new arrived, a non-blocking read answers would-block and reports no bytes. -/
theorem read_raw_br_withholds (rd : Reader σ) (Ok : σ → Prop) (rest : σ → List Byte) (R : StreamReader rd Ok rest)
    (L : Lossless rd Ok) (br : BR σ) (h : BR.Ok Ok br) (buf : List Byte) (hn : br.pending.length < buf.length)
    (s' : σ) (hw : ∀ n, rd br.sock n false = some (s', ERROR_PSOCK_READ_WOULD_BLOCK, [])) :
    ∃ r, readRaw (brReadS rd) br buf = some r ∧ r.st = ERROR_PSOCK_READ_WOULD_BLOCK ∧ r.told = [] ∧
      r.sock.pending = br.pending := by
  have hsw : ERROR_PSOCK_READ_WOULD_BLOCK ≠ SUCCESS := by decide
  rw [BR.pending_length h] at hn
  obtain ⟨br', st, d, s1, st0, f1, f2, f3, f4, f5, f6, f7, f8, f9, f10, f11⟩ := brFill_ok R L h
  rw [hw] at f2
  simp only [Option.some.injEq, Prod.mk.injEq] at f2
  have hst : st = ERROR_PSOCK_READ_WOULD_BLOCK := by
    have ho := h.off
    have hc := h.cur
    revert f1
    unfold brFill
    rw [if_neg (by omega)]
    intro f1
    revert f1
    split
    · intro c; cases c
    · rename_i b hb
      have hsock : b.sock = br.sock := by
        revert hb
        split
        · intro hb
          cases hp : put br.buf 0 ((br.buf.drop br.off).take (br.cur - br.off)) with
          | none => rw [hp] at hb; cases hb
          | some x => rw [hp] at hb; cases hb; rfl
        · intro hb; cases hb; rfl
      rw [hsock]
      split
      · intro c; cases c
      · rw [hw]
        dsimp only
        repeat' split
        all_goals (intro c; first | (cases c; done) | skip)
        all_goals simp_all
  refine ⟨⟨br', ERROR_PSOCK_READ_WOULD_BLOCK, buf, 0⟩, ?_, rfl, by simp [Raw.told], (f11 (by rw [hst]; exact hsw)).1⟩
  unfold readRaw brReadS withSize brRead brLoop
  have ho := h.off
  rw [if_neg (by omega), if_pos hn]
  simp [f1, hst, hsw, sizeAlways]

/-! ### The hypotheses are met -/

example : rawReads (waReadS fdRead fdWait 9) [.chunk [1, 2, 3], .chunk [4], .again, .again, .chunk [5, 6]]
      [[0, 0], [0, 0, 0, 0], [0], [0, 0, 0]] =
    some ([], [⟨[.chunk [3], .chunk [4], .again, .again, .chunk [5, 6]], SUCCESS, [1, 2], 2⟩,
      ⟨[.again, .chunk [5, 6]], SUCCESS, [3, 4, 0, 0], 2⟩,
      ⟨[.chunk [5, 6]], ERROR_PSOCK_READ_WOULD_BLOCK, [0], 0⟩,
      ⟨[], ERROR_PSOCK_READ_EOF, [5, 6, 0], 3⟩]) := by decide
example : rawReads fdReadS [.chunk [1, 2, 3], .again, .chunk [4]] [[9, 9], [9, 9], [9, 9], [9, 9]] =
    some ([], [⟨[.chunk [3], .again, .chunk [4]], SUCCESS, [1, 2], 2⟩,
      ⟨[.again, .chunk [4]], SUCCESS, [3, 9], 1⟩,
      ⟨[.chunk [4]], ERROR_PSOCK_READ_WOULD_BLOCK, [9, 9], 2⟩, ⟨[], SUCCESS, [4, 9], 1⟩]) := by decide
example : (rawReads (brReadS fdRead) ⟨[.chunk [1, 2, 3], .again, .chunk [4]], [0, 0, 0, 0, 0, 0], 0, 0, false⟩
      [[9], [9, 9, 9], [9, 9, 9]]).map (fun r => r.2.map fun r => (r.st, r.told)) =
    some [(SUCCESS, [1]), (ERROR_PSOCK_READ_WOULD_BLOCK, []), (SUCCESS, [2, 3, 4])] := by decide
example : (rawReads pbReadS ⟨some [1, 2, 3], 0, none, none, 0, 0, 0⟩ [[9, 9], [9, 9], [9]]).map
      (fun r => r.2.map fun r => (r.st, r.told)) =
    some [(SUCCESS, [1, 2]), (SUCCESS, [3]), (ERROR_PSOCK_READ_EOF, [])] := by decide

end Rcpr.Psock
