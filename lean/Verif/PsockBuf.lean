import Verif.PsockProof

/-!
Model of the buffer psock: `psock_create_from_buffer.c`, `psock_from_buffer_read.c`,
`psock_from_buffer_write.c`, `psock_from_buffer_get_output_buffer.c` in `src/psock`.

Simplifications: the output queue (an `slist`, see C01) is a list of buffers; a node of the queue is
the buffer it holds; sizes are natural numbers (they are bounded by memory actually allocated).
Answers of the allocator are parameters.
-/
namespace Rcpr.Psock

open Rcpr

/-- `PSOCK_BUFFER_SIZE` (src/psock/psock_internal.h:87) -/
def bufferSize : Nat := 4096

/-- `struct psock_from_buffer` (src/psock/psock_internal.h). A buffer's contents are a list of its
allocated length; `none` is `NULL`. -/
structure PB where
  input : Option (List Byte)
  roff : Nat
  queue : Option (List (List Byte))
  curr : Option (List Byte)
  bufSize : Nat
  woff : Nat
  total : Nat

/-- `memcpy(buf + off, d, |d|)`; undefined past the end. As in src/psock/psock_from_buffer_write.c. -/
def put (buf : List Byte) (off : Nat) (d : List Byte) : Option (List Byte) :=
  if off + d.length ≤ buf.length then some (buf.take off ++ (d ++ buf.drop (off + d.length))) else none

/-- `psock_from_buffer_read` (src/psock/psock_from_buffer_read.c:33-70) -/
def pbRead : Reader PB := fun pb n _ =>
  match pb.input with
  | none => some (pb, ERROR_PSOCK_READ_EOF, [])
  | some buf =>
    if pb.roff ≥ buf.length then some (pb, ERROR_PSOCK_READ_EOF, [])
    else
      let max := buf.length - pb.roff
      let size := if n > max then max else n
      some ({ pb with roff := pb.roff + size }, SUCCESS, (buf.drop pb.roff).take size)

/-- what the allocator answers during one write: creation of the queue entry for the full buffer
(`node1`), its slist node (`append1`), the next buffer (`newbuf`, holding `junk`), the large buffer,
its entry and slist node, and the clean-up calls (`rel`, `rcl`) (src/psock/psock_from_buffer_write.c) -/
structure WAns where
  node1 : Status
  append1 : Status
  newbuf : Status
  large : Status
  node2 : Status
  append2 : Status
  rel : Status
  rcl : Status
  junk : Nat → Byte

/-- everything succeeds. Not in the code: the allocator. -/
def okAns : WAns := ⟨SUCCESS, SUCCESS, SUCCESS, SUCCESS, SUCCESS, SUCCESS, SUCCESS, SUCCESS, fun _ => 0⟩

/-- the end of `psock_from_buffer_write` (182-187) -/
def pbFinish (pb : PB) (total : Nat) : Option (PB × Status × Nat) :=
  some ({ pb with total := pb.total + total }, SUCCESS, total)

/-- `psock_from_buffer_write` from line 134: what is left after filling the current buffer
(src/psock/psock_from_buffer_write.c) -/
def pbWriteRest (ans : WAns) (pb : PB) (q : List (List Byte)) (cur rem : List Byte) (total : Nat) :
    Option (PB × Status × Nat) :=
  if rem.length ≥ pb.bufSize then
    if ans.large ≠ SUCCESS then some (pb, ans.large, rem.length)
    else if ans.node2 ≠ SUCCESS then
      some (pb, if ans.rcl ≠ SUCCESS then ans.rcl else ans.node2, rem.length)
    else if ans.append2 ≠ SUCCESS then
      some (pb, if ans.rcl ≠ SUCCESS then ans.rcl else if ans.rel ≠ SUCCESS then ans.rel
        else ans.append2, rem.length)
    else pbFinish { pb with queue := some (q ++ [rem]) } (total + rem.length)
  else if rem.length > 0 then
    match put cur pb.woff rem with
    | none => none
    | some cur => pbFinish { pb with curr := some cur, woff := pb.woff + rem.length } (total + rem.length)
  else pbFinish pb total

/-- `psock_from_buffer_write` (src/psock/psock_from_buffer_write.c:47-206). On failure `*size` is the
number of bytes not yet copied. `output_buffer_size - buffer_write_offset` would wrap for an offset
beyond the end, which does not happen (`PB.Ok`); the model calls it undefined. -/
def pbWrite (ans : WAns) : Writer PB := fun pb data =>
  match pb.curr, pb.queue with
  | some cur, some q =>
    if pb.woff > pb.bufSize then none
    else
      let copy := if pb.bufSize - pb.woff > data.length then data.length else pb.bufSize - pb.woff
      match put cur pb.woff (data.take copy) with
      | none => none
      | some cur =>
        let rem := data.drop copy
        let pb := { pb with curr := some cur, woff := pb.woff + copy }
        if pb.woff ≥ pb.bufSize then
          if ans.node1 ≠ SUCCESS then some (pb, ans.node1, rem.length)
          else if ans.append1 ≠ SUCCESS then
            some (pb, if ans.rel ≠ SUCCESS then ans.rel else ans.append1, rem.length)
          else
            let q := q ++ [cur.take pb.bufSize]
            let pb := { pb with queue := some q, curr := none, bufSize := bufferSize, woff := 0 }
            if ans.newbuf ≠ SUCCESS then some (pb, ans.newbuf, rem.length)
            else
              let cur := (List.range bufferSize).map ans.junk
              pbWriteRest ans { pb with curr := some cur } q cur rem copy
        else pbWriteRest ans pb q cur rem copy
  | _, _ => some (pb, ERROR_PSOCK_UNSUPPORTED_TYPE, data.length)

/-- the loop of `copy_output_buffer` (src/psock/psock_from_buffer_get_output_buffer.c:150-180):
bytes copied out when `n` bytes fit -/
def copyOut : List (List Byte) → List Byte → Nat → Nat → List Byte
  | [], cur, woff, n => cur.take (if n > woff then woff else n)
  | b :: q, cur, woff, n =>
    let copy := if n > b.length then b.length else n
    b.take copy ++ copyOut q cur woff (n - copy)

/-- `psock_from_buffer_get_output_buffer` (src/psock/psock_from_buffer_get_output_buffer.c:64-122):
status and the buffer handed to the caller, of length `output_buffer_total_size`; bytes not copied
are whatever the allocation held (`junk`). -/
def getOutput (alloc : Status) (junk : Nat → Byte) (pb : PB) : Status × Option (List Byte) :=
  match pb.curr, pb.queue with
  | some cur, some q =>
    if alloc ≠ SUCCESS then (alloc, none)
    else
      let d := copyOut q cur pb.woff pb.total
      (SUCCESS, some (d ++ (List.range (pb.total - d.length)).map junk))
  | _, _ => (ERROR_PSOCK_UNSUPPORTED_TYPE, none)

/-- `psock_create_from_buffer` (src/psock/psock_create_from_buffer.c:81-183): `a1` answers the
allocation of the structure, `a2` that of the input buffer or of the queue, `a3` that of the output
buffer; `rel` the release of the unfinished psock. `buffer = none` is `NULL`. -/
def pbCreate (buffer : Option (List Byte)) (a1 a2 a3 rel : Status) (junk : Nat → Byte) :
    Status × Option PB :=
  if a1 ≠ SUCCESS then (a1, none)
  else match buffer with
    | some b =>
      if a2 ≠ SUCCESS then (if rel ≠ SUCCESS then rel else a2, none)
      else (SUCCESS, some ⟨some b, 0, none, none, 0, 0, 0⟩)
    | none =>
      if a2 ≠ SUCCESS then (if rel ≠ SUCCESS then rel else a2, none)
      else if a3 ≠ SUCCESS then (if rel ≠ SUCCESS then rel else a3, none)
      else (SUCCESS, some ⟨none, 0, some [], some ((List.range bufferSize).map junk), bufferSize, 0, 0⟩)

/-! ### Invariant -/

/-- bytes still to be read.
Not in the code: for the specification; the fields are those of src/psock/psock_internal.h:92-103. -/
def PB.rest (pb : PB) : List Byte := (pb.input.toList.flatten).drop pb.roff

theorem pbRead_stream : StreamReader pbRead (fun _ => True) PB.rest := by
  constructor
  · intro s n b _
    unfold pbRead
    split
    · rfl
    · split <;> rfl
  · intro s n b s' st d _ h
    unfold pbRead at h
    split at h
    · simp only [Option.some.injEq, Prod.mk.injEq] at h
      obtain ⟨rfl, rfl, rfl⟩ := h; simp
    · rename_i buf hb
      split at h
      · simp only [Option.some.injEq, Prod.mk.injEq] at h
        obtain ⟨rfl, rfl, rfl⟩ := h; simp
      · simp only [Option.some.injEq, Prod.mk.injEq] at h
        obtain ⟨rfl, rfl, rfl⟩ := h
        refine ⟨trivial, ?_, ?_⟩
        · rw [List.length_take]; split <;> omega
        · simp only [PB.rest, hb, Option.toList_some, List.flatten_cons, List.flatten_nil,
            List.append_nil]
          rw [← List.drop_drop, List.take_append_drop]

theorem pbRead_full : Full pbRead (fun _ => True) PB.rest := by
  intro s n _ hn hl
  rcases hb : s.input with _ | buf
  · simp [PB.rest, hb] at hl; omega
  · simp only [PB.rest, hb, Option.toList_some, List.flatten_cons, List.flatten_nil,
      List.append_nil, List.length_drop] at hl
    refine ⟨_, _, by unfold pbRead; rw [hb]; dsimp only; rw [if_neg (by omega)], ?_⟩
    rw [if_neg (by omega), List.length_take, List.length_drop]; omega

theorem pbRead_zero {s : PB} : ZeroReadOk pbRead s ↔ s.rest ≠ [] := by
  unfold ZeroReadOk pbRead PB.rest
  rcases hb : s.input with _ | buf
  · simp; decide
  · simp only [Option.toList_some, List.flatten_cons, List.flatten_nil, List.append_nil, ne_eq,
      List.drop_eq_nil_iff]
    by_cases h : buf.length ≤ s.roff
    · rw [if_pos (by omega)]; simp [h]; decide
    · rw [if_neg (by omega)]; simp [h]

/-- bytes written so far.
Not in the code: for the specification; the fields are those of src/psock/psock_internal.h:92-103. -/
def PB.out (pb : PB) : List Byte :=
  (pb.queue.toList.flatten).flatten ++ (pb.curr.toList.flatten).take pb.woff

/-- a psock open for writing. Not in the code: invariant (fields: src/psock/psock_internal.h:92-103). -/
structure PB.Ok (pb : PB) : Prop where
  queue : pb.queue.isSome
  curr : ∃ c, pb.curr = some c ∧ c.length = pb.bufSize
  size : pb.bufSize = bufferSize
  woff : pb.woff < pb.bufSize
  total : pb.total = pb.out.length

theorem put_ok {buf : List Byte} {off : Nat} {d : List Byte} (h : off + d.length ≤ buf.length) :
    ∃ b, put buf off d = some b ∧ b.length = buf.length ∧ b.take (off + d.length) = buf.take off ++ d := by
  refine ⟨buf.take off ++ (d ++ buf.drop (off + d.length)), by simp [put, h], ?_, ?_⟩
  · simp only [List.length_append, List.length_take, List.length_drop]; omega
  · rw [← List.append_assoc, List.take_append_of_le_length (by
      rw [List.length_append, List.length_take]; omega)]
    rw [List.take_of_length_le (by rw [List.length_append, List.length_take]; omega)]

theorem pbWriteRest_ok {ans : WAns} {pb : PB} {q : List (List Byte)} {cur rem : List Byte} {t : Nat}
    (hq : pb.queue = some q) (hc : pb.curr = some cur) (hl : cur.length = pb.bufSize)
    (hs : pb.bufSize = bufferSize) (hw : pb.woff < pb.bufSize) (ht : pb.total + t = pb.out.length)
    (hrem : 0 < rem.length → pb.woff = 0) :
    (pbWriteRest ans pb q cur rem t).isSome ∧
    (∀ pb' n, pbWriteRest ans pb q cur rem t = some (pb', SUCCESS, n) →
      PB.Ok pb' ∧ n = t + rem.length ∧ pb'.out = pb.out ++ rem) ∧
    (ans.large = SUCCESS → ans.node2 = SUCCESS → ans.append2 = SUCCESS →
      ∃ pb', pbWriteRest ans pb q cur rem t = some (pb', SUCCESS, t + rem.length)) := by
  unfold pbWriteRest
  by_cases h1 : rem.length ≥ pb.bufSize
  · rw [if_pos h1]
    have hw0 : pb.woff = 0 := hrem (by omega)
    have ho : pb.out = q.flatten := by simp [PB.out, hq, hw0]
    by_cases h2 : ans.large = SUCCESS
    · rw [if_neg (by simp [h2])]
      by_cases h3 : ans.node2 = SUCCESS
      · rw [if_neg (by simp [h3])]
        by_cases h4 : ans.append2 = SUCCESS
        · rw [if_neg (by simp [h4])]
          refine ⟨rfl, ?_, fun _ _ _ => ⟨_, rfl⟩⟩
          intro pb' n h
          simp only [pbFinish, Option.some.injEq, Prod.mk.injEq, true_and] at h
          obtain ⟨rfl, rfl⟩ := h
          have ho' : PB.out { pb with queue := some (q ++ [rem]), total := pb.total + (t + rem.length) } =
              pb.out ++ rem := by simp [PB.out, hq, hw0]
          refine ⟨⟨rfl, ⟨cur, hc, hl⟩, hs, hw, ?_⟩, rfl, ho'⟩
          rw [ho', List.length_append, ← ht]; show _ + _ = _; omega
        · rw [if_pos h4]
          refine ⟨rfl, ?_, fun _ _ h => absurd h h4⟩
          intro pb' n h
          simp only [Option.some.injEq, Prod.mk.injEq] at h
          have h5 := h.2.1
          split at h5
          · contradiction
          · split at h5 <;> contradiction
      · rw [if_pos h3]
        refine ⟨rfl, ?_, fun _ h => absurd h h3⟩
        intro pb' n h
        simp only [Option.some.injEq, Prod.mk.injEq] at h
        have h5 := h.2.1
        split at h5 <;> contradiction
    · rw [if_pos h2]
      refine ⟨rfl, ?_, fun h => absurd h h2⟩
      intro pb' n h
      simp only [Option.some.injEq, Prod.mk.injEq] at h
      exact absurd h.2.1 h2
  · rw [if_neg h1]
    by_cases h2 : rem.length > 0
    · rw [if_pos h2]
      have hw0 : pb.woff = 0 := hrem h2
      obtain ⟨b, b1, b2, b3⟩ := put_ok (buf := cur) (off := pb.woff) (d := rem) (by omega)
      simp only [b1]
      refine ⟨rfl, ?_, fun _ _ _ => ⟨_, rfl⟩⟩
      intro pb' n h
      simp only [pbFinish, Option.some.injEq, Prod.mk.injEq, true_and] at h
      obtain ⟨rfl, rfl⟩ := h
      have ho' : PB.out { pb with
                curr := some b, woff := pb.woff + rem.length, total := pb.total + (t + rem.length) } = pb.out ++ rem := by
        simp [PB.out, hq, hc, b3]
      refine ⟨⟨by simp [hq], ⟨b, rfl, by rw [b2]; exact hl⟩, hs, ?_, ?_⟩, rfl, ho'⟩
      · show pb.woff + rem.length < pb.bufSize; omega
      · rw [ho', List.length_append, ← ht]; show _ + _ = _; omega
    · rw [if_neg h2]
      have : rem = [] := List.length_eq_zero_iff.1 (by omega)
      subst this
      refine ⟨rfl, ?_, fun _ _ _ => ⟨_, rfl⟩⟩
      intro pb' n h
      simp only [pbFinish, Option.some.injEq, Prod.mk.injEq, true_and] at h
      obtain ⟨rfl, rfl⟩ := h
      have ho' : PB.out { pb with total := pb.total + t } = pb.out := by simp [PB.out]
      exact ⟨⟨by simp [hq], ⟨cur, hc, hl⟩, hs, hw, by rw [ho']; exact ht⟩, rfl, by simp [ho']⟩

/-- one write from a good state -/
theorem pbWrite_ok {ans : WAns} {pb : PB} (h : pb.Ok) (data : List Byte) :
    (pbWrite ans pb data).isSome ∧
    (∀ pb' n, pbWrite ans pb data = some (pb', SUCCESS, n) →
      pb'.Ok ∧ n = data.length ∧ pb'.out = pb.out ++ data) ∧
    (ans.node1 = SUCCESS → ans.append1 = SUCCESS → ans.newbuf = SUCCESS → ans.large = SUCCESS →
      ans.node2 = SUCCESS → ans.append2 = SUCCESS →
      ∃ pb', pbWrite ans pb data = some (pb', SUCCESS, data.length)) := by
  obtain ⟨q, hq⟩ := Option.isSome_iff_exists.1 h.queue
  obtain ⟨cur, hc, hl⟩ := h.curr
  have hw := h.woff
  have hb := h.size
  have ht := h.total
  unfold pbWrite
  rw [hc, hq]
  dsimp only
  rw [if_neg (by omega)]
  have ho : pb.out = q.flatten ++ cur.take pb.woff := by simp [PB.out, hq, hc]
  generalize hcp : (if pb.bufSize - pb.woff > data.length then data.length
    else pb.bufSize - pb.woff) = copy
  have hcl : copy ≤ data.length ∧ pb.woff + copy ≤ pb.bufSize ∧
      (copy = data.length ∨ pb.woff + copy = pb.bufSize) := by
    subst hcp; split <;> omega
  obtain ⟨hcl1, hcl2, hcl3⟩ := hcl
  have htl : (data.take copy).length = copy := by rw [List.length_take]; omega
  obtain ⟨b, b1, b2, b3⟩ := put_ok (buf := cur) (off := pb.woff) (d := data.take copy) (by omega)
  rw [htl] at b3
  simp only [b1]
  have hsum : copy + (data.drop copy).length = data.length := by rw [List.length_drop]; omega
  by_cases hf : pb.woff + copy ≥ pb.bufSize
  · rw [if_pos hf]
    by_cases n1 : ans.node1 = SUCCESS
    · rw [if_neg (by simp [n1])]
      by_cases n2 : ans.append1 = SUCCESS
      · rw [if_neg (by simp [n2])]
        by_cases n3 : ans.newbuf = SUCCESS
        · rw [if_neg (by simp [n3])]
          have ho2 : PB.out { pb with
                queue := some (q ++ [b.take pb.bufSize]), curr := some ((List.range bufferSize).map ans.junk), bufSize := bufferSize, woff := 0 } =
              pb.out ++ data.take copy := by
            rw [ho]
            simp only [PB.out, Option.toList_some, List.flatten_cons, List.flatten_nil,
              List.append_nil, List.take_zero, List.flatten_append]
            rw [show pb.bufSize = pb.woff + copy by omega, b3, List.append_assoc]
          have R := pbWriteRest_ok (ans := ans) (pb := { pb with
                queue := some (q ++ [b.take pb.bufSize]), curr := some ((List.range bufferSize).map ans.junk), bufSize := bufferSize, woff := 0 })
              (q := q ++ [b.take pb.bufSize]) (cur := (List.range bufferSize).map ans.junk)
              (rem := data.drop copy) (t := copy) rfl rfl (by simp) rfl (by show 0 < bufferSize; decide)
              (by rw [ho2, List.length_append, htl, ← ht]) (fun _ => rfl)
          obtain ⟨r1, r2, r3⟩ := R
          refine ⟨r1, ?_, ?_⟩
          · intro pb' n hh
            obtain ⟨o1, o2, o3⟩ := r2 pb' n hh
            refine ⟨o1, by omega, ?_⟩
            rw [o3, ho2, List.append_assoc, List.take_append_drop]
          · intro _ _ _ l1 l2 l3
            rw [hsum] at r3
            exact r3 l1 l2 l3
        · rw [if_pos n3]
          refine ⟨rfl, ?_, fun _ _ h => absurd h n3⟩
          intro pb' n hh
          simp only [Option.some.injEq, Prod.mk.injEq] at hh
          exact absurd hh.2.1 n3
      · rw [if_pos n2]
        refine ⟨rfl, ?_, fun _ h => absurd h n2⟩
        intro pb' n hh
        simp only [Option.some.injEq, Prod.mk.injEq] at hh
        have h5 := hh.2.1
        split at h5 <;> contradiction
    · rw [if_pos n1]
      refine ⟨rfl, ?_, fun h => absurd h n1⟩
      intro pb' n hh
      simp only [Option.some.injEq, Prod.mk.injEq] at hh
      exact absurd hh.2.1 n1
  · rw [if_neg hf]
    have hcd : copy = data.length := by omega
    have ho2 : PB.out { pb with curr := some b, woff := pb.woff + copy } = pb.out ++ data.take copy := by
      rw [ho]
      simp only [PB.out, Option.toList_some, List.flatten_cons, List.flatten_nil, List.append_nil, b3, hq]
      rw [List.append_assoc]
    have R := pbWriteRest_ok (ans := ans) (pb := { pb with curr := some b, woff := pb.woff + copy })
        (q := q) (cur := b) (rem := data.drop copy) (t := copy) hq rfl (by rw [b2]; exact hl) hb
        (by show pb.woff + copy < pb.bufSize; omega) (by rw [ho2, List.length_append, htl, ← ht])
        (fun hp => by rw [List.length_drop] at hp; omega)
    rw [hq] at R ho2
    obtain ⟨r1, r2, r3⟩ := R
    refine ⟨r1, ?_, ?_⟩
    · intro pb' n hh
      obtain ⟨o1, o2, o3⟩ := r2 pb' n hh
      refine ⟨o1, by omega, ?_⟩
      rw [o3, ho2, List.append_assoc, List.take_append_drop]
    · intro _ _ _ l1 l2 l3
      rw [hsum] at r3
      exact r3 l1 l2 l3

theorem pbWrite_stream (ans : WAns) : StreamWriter (pbWrite ans) PB.Ok PB.out := by
  constructor
  · intro s d h; exact (pbWrite_ok h d).1
  · intro s d s' n h hw
    obtain ⟨h1, rfl, h3⟩ := (pbWrite_ok h d).2.1 s' n hw
    exact ⟨h1, Nat.le_refl _, by rw [h3, List.take_length]⟩

theorem pbWrite_full : FullW (pbWrite okAns) PB.Ok := by
  intro s d h
  exact (pbWrite_ok h d).2.2 rfl rfl rfl rfl rfl rfl

theorem copyOut_all (q : List (List Byte)) (cur : List Byte) (woff : Nat) (n : Nat)
    (hn : n = q.flatten.length + woff) :
    copyOut q cur woff n = q.flatten ++ cur.take woff := by
  induction q generalizing n with
  | nil =>
    have : n = woff := by simpa using hn
    simp [copyOut, this]
  | cons b q ih =>
    rw [List.flatten_cons, List.length_append] at hn
    unfold copyOut
    dsimp only
    have : (if n > b.length then b.length else n) = b.length := by split <;> omega
    rw [this, List.take_length, ih (n - b.length) (by omega), List.flatten_cons, List.append_assoc]

/-- what `get_output_buffer` hands out -/
theorem getOutput_ok {pb : PB} (h : pb.Ok) (junk : Nat → Byte) :
    getOutput SUCCESS junk pb = (SUCCESS, some pb.out) := by
  obtain ⟨q, hq⟩ := Option.isSome_iff_exists.1 h.queue
  obtain ⟨cur, hc, hl⟩ := h.curr
  have hw := h.woff
  have ho : pb.out = q.flatten ++ cur.take pb.woff := by simp [PB.out, hq, hc]
  have ht := h.total
  unfold getOutput
  rw [hc, hq]
  have hlen : pb.total = q.flatten.length + pb.woff := by
    rw [ht, ho, List.length_append, List.length_take]; omega
  have hco := copyOut_all q cur pb.woff pb.total hlen
  rw [← ho] at hco
  simp only [ne_eq, not_true, if_false, hco]
  rw [ht, Nat.sub_self]
  simp

end Rcpr.Psock
