import Verif.PsockDuplex
import Verif.Props.PsockStream

/-!
Both directions of a socket through a buffered reader (C102).
-/
namespace Rcpr.Psock

open Rcpr

variable {σ τ : Type}

/-! ### Specification: the two directions by themselves -/

/-- The reads of a program alone, on a reader of a socket that has only the incoming direction. -/
def readsAlone (rd : Reader σ) : BR σ → List DOp → Option (BR σ × List RAns)
  | br, [] => some (br, [])
  | br, .write _ :: os => readsAlone rd br os
  | br, .read n b :: os =>
    match brRead rd br n b with
    | none => none
    | some (br, st, d) => (readsAlone rd br os).map fun x => (x.1, (st, d, d.length) :: x.2)
  | br, .line buf :: os =>
    match brReadLine rd br buf with
    | none => none
    | some r => (readsAlone rd r.br os).map fun x => (x.1, (r.st, r.out, r.size) :: x.2)

/-- The writes of a program alone, and not through a reader at all. -/
def writesAlone (wr : Writer τ) : τ → List DOp → Option (τ × List (Status × Nat))
  | t, [] => some (t, [])
  | t, .write d :: os =>
    match wr t d with
    | none => none
    | some (t, st, n) => (writesAlone wr t os).map fun x => (x.1, (st, n) :: x.2)
  | t, .read _ _ :: os => writesAlone wr t os
  | t, .line _ :: os => writesAlone wr t os

/-- A reader of the incoming direction, with an outgoing one beside it. -/
def BR.with (br : BR σ) (t : τ) : BR (σ × τ) := ⟨(br.sock, t), br.buf, br.cur, br.off, br.err⟩

/-! ### Lemmas: reading leaves the outgoing direction alone -/

theorem brFill_with (rd : Reader σ) (br : BR σ) (t : τ) :
    brFill (onIn rd) (br.with t) = (brFill rd br).map fun x => (x.1.with t, x.2) := by
  rcases br with ⟨s, buf, cur, off, err⟩
  simp only [brFill, BR.with]
  by_cases h1 : off > cur
  · simp [h1]
  · simp only [h1, if_false]
    by_cases h2 : off > 0
    · simp only [h2, if_true]
      cases put buf 0 (List.take (cur - off) (List.drop off buf)) with
      | none => rfl
      | some b =>
        simp only [Option.map_some, onIn]
        split
        · rfl
        · cases rd s (b.length - (cur - off)) false with
          | none => rfl
          | some x =>
            obtain ⟨s', st, d⟩ := x
            dsimp only
            cases put b (cur - off) d with
            | none => rfl
            | some b' => dsimp only; split <;> (try split) <;> rfl
    · simp only [h2, if_false, onIn]
      split
      · rfl
      · cases rd s (buf.length - cur) false with
        | none => rfl
        | some x =>
          obtain ⟨s', st, d⟩ := x
          dsimp only
          cases put buf cur d with
          | none => rfl
          | some b' => dsimp only; split <;> (try split) <;> rfl

theorem brLoop_with (rd : Reader σ) (block : Bool) (t : τ) : ∀ (fuel : Nat) (br : BR σ) (n : Nat) (acc : List Byte),
    brLoop (onIn rd) block fuel (br.with t) n acc = (brLoop rd block fuel br n acc).map fun x => (x.1.with t, x.2) := by
  intro fuel
  induction fuel with
  | zero => intro br n acc; rfl
  | succ fuel ih =>
    intro br n acc
    simp only [brLoop]
    have e1 : (br.with t).off = br.off := rfl
    have e2 : (br.with t).cur = br.cur := rfl
    rw [e1, e2]
    by_cases h1 : br.off > br.cur
    · simp [h1]
    · simp only [h1, if_false]
      have key : (if br.cur - br.off < n then brFill (onIn rd) (br.with t) else some (br.with t, SUCCESS)) =
          (if br.cur - br.off < n then brFill rd br else some (br, SUCCESS)).map fun x => (x.1.with t, x.2) := by
        split
        · exact brFill_with rd br t
        · rfl
      rw [key]
      cases (if br.cur - br.off < n then brFill rd br else some (br, SUCCESS)) with
      | none => rfl
      | some x =>
        obtain ⟨b, st⟩ := x
        simp only [Option.map_some]
        split
        · rfl
        · split
          · rename_i h; rw [if_pos (show b.off > b.cur ∨ b.cur > b.buf.length from h)]; rfl
          · rename_i h
            rw [if_neg (show ¬ (b.off > b.cur ∨ b.cur > b.buf.length) from h)]
            generalize hc : (if b.cur - b.off < n then b.cur - b.off else n) = copy
            have hc' : (if (b.with t).cur - (b.with t).off < n then (b.with t).cur - (b.with t).off else n) = copy := hc
            rw [hc']
            by_cases hm : block = true ∧ n - copy > 0
            · rw [if_pos hm, if_pos hm]
              exact ih { b with off := b.off + copy } _ _
            · rw [if_neg hm, if_neg hm]; rfl

theorem rlLoop_with (rd : Reader σ) (size0 : Nat) (t : τ) : ∀ (fuel : Nat) (br : BR σ) (l : LS) (c : Nat),
    rlLoop (onIn rd) size0 fuel (br.with t) l c =
      (rlLoop rd size0 fuel br l c).map fun x => ⟨x.br.with t, x.st, x.out, x.size⟩ := by
  intro fuel
  induction fuel with
  | zero => intro br l c; rfl
  | succ fuel ih =>
    intro br l c
    rcases br with ⟨s, buf, cur, off, err⟩
    simp only [rlLoop, BR.with]
    have ih' := ih
    simp only [BR.with] at ih'
    by_cases h1 : l.rem > 0
    · simp only [h1, if_true]
      cases rlCopy buf (l.avail + 1) l with
      | none => rfl
      | some l =>
        dsimp only
        cases (if l.avail > 0 then buf[l.inp]? else some 0) with
        | none => rfl
        | some ch =>
          dsimp only
          split
          · cases put l.out l.pos [0] <;> rfl
          · split
            · cases put l.out l.pos [0] <;> rfl
            · split
              · cases err with
                | true =>
                  simp only [if_true]
                  split
                  · rfl
                  · cases put l.out l.pos [0] <;> rfl
                | false =>
                  have hf := brFill_with rd ⟨s, buf, cur, cur, false⟩ t
                  simp only [BR.with] at hf
                  simp only [Bool.false_eq_true, if_false, hf]
                  cases brFill rd ⟨s, buf, cur, cur, false⟩ with
                  | none => rfl
                  | some x =>
                    obtain ⟨⟨s', buf', cur', off', err'⟩, st⟩ := x
                    simp only [Option.map_some]
                    by_cases hst : st = SUCCESS
                    · simp only [hst, ne_eq, not_true_eq_false, if_false]
                      split
                      · split
                        · rfl
                        · cases put l.out l.pos [0] <;> rfl
                      · split
                        · rfl
                        · exact ih' ⟨s', buf', cur', off', err'⟩ _ _
                    · simp only [ne_eq, hst, not_false_eq_true, if_true]
                      split
                      · rfl
                      · cases put l.out l.pos [0] <;> rfl
              · exact ih' ⟨s, buf, cur, off, err⟩ _ _
    · simp only [h1, if_false]; rfl

theorem readLine_with (rd : Reader σ) (br : BR σ) (t : τ) (buf : List Byte) :
    brReadLine (onIn rd) (br.with t) buf =
      (brReadLine rd br buf).map fun x => ⟨x.br.with t, x.st, x.out, x.size⟩ := by
  simp only [brReadLine]
  have e2 : (br.with t).off = br.off := rfl
  have e3 : (br.with t).cur = br.cur := rfl
  rw [e2, e3]
  split
  · rfl
  · split
    · rfl
    · exact rlLoop_with rd _ t _ br _ _

theorem write_with (wr : Writer τ) (br : BR σ) (t : τ) (d : List Byte) :
    brWrite (onOut wr) (br.with t) d = (wr t d).map fun x => (br.with x.1, x.2) := by
  simp only [brWrite, onOut, BR.with]
  cases wr t d <;> rfl

/-! ### C102 -/

/-- **C102** The directions do not disturb each other. Whatever a program reads (bytes or lines, blocking or not) and
writes through one buffered reader, and however it mixes that: the reads are told what they are told if nothing is ever
written, and the writes are told and do what they do if they are made on the psock below and nothing is ever read. So
nothing that is written waits in the reader, and nothing that waits in the reader is lost by writing. -/
theorem duplex (rd : Reader σ) (wr : Writer τ) : ∀ (os : List DOp) (br : BR σ) (t : τ),
    drun (onIn rd) (onOut wr) (br.with t) os =
      (readsAlone rd br os).bind fun r => (writesAlone wr t os).map fun w => (r.1.with w.1, r.2, w.2) := by
  intro os
  induction os with
  | nil => intro br t; rfl
  | cons o os ih =>
    intro br t
    cases o with
    | read n b =>
      simp only [drun, dstep, readsAlone, writesAlone, brRead]
      rw [brLoop_with]
      cases brLoop rd b (n + 1) br n [] with
      | none => rfl
      | some x =>
        obtain ⟨b', st, d⟩ := x
        simp only [Option.map_some]
        rw [ih]
        cases readsAlone rd b' os with
        | none => rfl
        | some y => cases writesAlone wr t os <;> rfl
    | line buf =>
      simp only [drun, dstep, readsAlone, writesAlone]
      rw [readLine_with]
      cases brReadLine rd br buf with
      | none => rfl
      | some x =>
        simp only [Option.map_some]
        rw [ih]
        cases readsAlone rd x.br os with
        | none => rfl
        | some y => cases writesAlone wr t os <;> rfl
    | write d =>
      simp only [drun, dstep, readsAlone, writesAlone]
      rw [write_with]
      cases wr t d with
      | none => cases readsAlone rd br os <;> rfl
      | some x =>
        obtain ⟨t', st, n⟩ := x
        simp only [Option.map_some]
        rw [ih]
        cases readsAlone rd br os with
        | none => rfl
        | some y => cases writesAlone wr t' os <;> rfl

/-- What a program writes, piece by piece. -/
def written : List DOp → List (List Byte)
  | [] => []
  | .write d :: os => d :: written os
  | .read _ _ :: os => written os
  | .line _ :: os => written os

/-- On a socket whose writes succeed and whose failing reads lose nothing, a program of reads and writes in any order
receives the bytes of the incoming stream in order, from the first that waits in the reader on, and the peer is sent all
that was written and nothing else, in order. -/
theorem duplex_stream {rd : Reader σ} {wr : Writer τ} {Ok : σ → Prop} {rest : σ → List Byte} {OkT : τ → Prop}
    {out : τ → List Byte} (R : StreamReader rd Ok rest) (L : Lossless rd Ok) (W : StreamWriter wr OkT out)
    (F : FullW wr OkT) (os : List DOp) (hl : ∀ buf, DOp.line buf ∉ os) (br : BR σ) (h : BR.Ok Ok br) (t : τ) (ht : OkT t) :
    ∃ (br' : BR σ) (t' : τ) (ra : List RAns), drun (onIn rd) (onOut wr) (br.with t) os =
        some (br'.with t', ra, (written os).map fun d => (SUCCESS, d.length)) ∧
      br.pending ++ rest br.sock = (ra.map (·.2.1)).flatten ++ (br'.pending ++ rest br'.sock) ∧
      out t' = out t ++ (written os).flatten := by
  have hr : ∃ br' ra, readsAlone rd br os = some (br', ra) ∧
      br.rest rest = (ra.map (·.2.1)).flatten ++ br'.rest rest := by
    clear ht
    induction os generalizing br with
    | nil => exact ⟨br, [], rfl, rfl⟩
    | cons o os ih =>
      have hl' : ∀ buf, DOp.line buf ∉ os := fun buf hm => hl buf (List.mem_cons_of_mem _ hm)
      cases o with
      | read n b =>
        obtain ⟨br1, st, e, h1, h2, _, h4, _⟩ := brLoop_ok R L b (n + 1) br n [] h (by omega)
        obtain ⟨br', ra, i1, i2⟩ := ih hl' br1 h2
        rw [List.nil_append] at h1
        refine ⟨br', (st, e, e.length) :: ra, by simp only [readsAlone, brRead, h1, i1, Option.map_some], ?_⟩
        rw [h4, i2]; simp
      | line buf => exact absurd List.mem_cons_self (hl buf)
      | write d => exact ih hl' br h
  have hw : ∃ t', writesAlone wr t os = some (t', (written os).map fun d => (SUCCESS, d.length)) ∧
      out t' = out t ++ (written os).flatten := by
    clear hr hl
    induction os generalizing t with
    | nil => exact ⟨t, rfl, by simp [written]⟩
    | cons o os ih =>
      cases o with
      | read n b => exact ih t ht
      | line buf => exact ih t ht
      | write d =>
        obtain ⟨t1, h1⟩ := F t d ht
        obtain ⟨o1, _, o3⟩ := W.step _ _ _ _ ht h1
        obtain ⟨t', i1, i2⟩ := ih t1 o1
        refine ⟨t', by simp only [writesAlone, h1, i1, Option.map_some, written, List.map_cons], ?_⟩
        rw [i2, o3, List.take_length]; simp [written]
  obtain ⟨br', ra, r1, r2⟩ := hr
  obtain ⟨t', w1, w2⟩ := hw
  exact ⟨br', t', ra, by rw [duplex, r1, w1]; rfl, r2, w2⟩

/-- Values that are boxed and written through a reader are written as on the psock below, and the reader keeps what it
has. -/
theorem boxed_write_through (e : Endian) (wr : Writer σ) (br : BR σ) (v : Val) :
    writeBoxed e (brWrite wr) br v = (writeBoxed e wr br.sock v).map fun x => ({ br with sock := x.1 }, x.2) := by
  have raw : ∀ (w : Width) (x : BitVec (8 * w.bytes)) (b : BR σ), writeRawInt e (brWrite wr) b w x =
      (writeRawInt e wr b.sock w x).map fun x => ({ b with sock := x.1 }, x.2) := by
    intro w x b
    simp only [writeRawInt, brWrite]
    cases wr b.sock _ with
    | none => rfl
    | some y =>
      obtain ⟨s, st, n⟩ := y
      simp only [bind, Option.bind]
      split <;> (try split) <;> rfl
  have u32 : ∀ (x : BitVec 32) (b : BR σ), writeRawU32 e (brWrite wr) b x =
      (writeRawU32 e wr b.sock x).map fun x => ({ b with sock := x.1 }, x.2) := fun x b => raw .w32 x b
  cases v with
  | int t x =>
    simp only [writeBoxed, writeBoxedInt, u32]
    cases writeRawU32 e wr br.sock _ with
    | none => rfl
    | some y =>
      simp only [Option.map_some, bind, Option.bind]
      split
      · rfl
      · exact raw _ _ _
  | bool x =>
    simp only [writeBoxed, writeBoxedBool, u32]
    cases writeRawU32 e wr br.sock _ with
    | none => rfl
    | some y =>
      simp only [Option.map_some, bind, Option.bind]
      split
      · rfl
      · simp only [writeRawBool, brWrite]
        cases wr y.1 _ with
        | none => rfl
        | some z =>
          simp only [bind, Option.bind]
          split <;> (try split) <;> rfl
  | string x =>
    simp only [writeBoxed, writeBoxedString, u32]
    split
    · rfl
    · cases writeRawU32 e wr br.sock _ with
      | none => rfl
      | some y =>
        obtain ⟨y1, y2⟩ := y
        simp only [Option.map_some, bind, Option.bind]
        split
        · rfl
        · cases writeRawU32 e wr y1 _ with
          | none => rfl
          | some z =>
            obtain ⟨z1, z2⟩ := z
            simp only [Option.map_some, brWrite]
            split
            · rfl
            · cases wr z1 _ with
              | none => rfl
              | some a => dsimp only; split <;> (try split) <;> rfl
  | data x =>
    simp only [writeBoxed, writeBoxedData, u32]
    cases writeRawU32 e wr br.sock _ with
    | none => rfl
    | some y =>
      obtain ⟨y1, y2⟩ := y
      simp only [Option.map_some, bind, Option.bind]
      split
      · rfl
      · cases writeRawU32 e wr y1 _ with
        | none => rfl
        | some z =>
          obtain ⟨z1, z2⟩ := z
          simp only [Option.map_some, brWrite]
          split
          · rfl
          · cases wr z1 _ with
            | none => rfl
            | some a => dsimp only; split <;> (try split) <;> rfl

/-! ### Cases -/

/-- A small reader of a nonblocking descriptor that has two pieces to come. -/
def br₁ : BR (List REv) := ⟨[.chunk [97, 98, 10, 99], .chunk [100]], [0, 0, 0, 0, 0, 0], 0, 0, false⟩

/-- A line, two writes of which the first is cut short, and the rest of the bytes, which waited in the reader. -/
example : (drun (onIn fdRead) (onOut fdWrite) (br₁.with ([WEv.take 1, .take 9], ([] : List Byte)))
    [.line [0, 0, 0, 0, 0], .write [1, 2, 3], .write [2, 3], .read 2 true]).map
      (fun x => (x.1.sock.2.2, x.2)) =
    some ([1, 2, 3], [(SUCCESS, [97, 98, 0, 0, 0], 3), (SUCCESS, [99, 100], 2)], [(SUCCESS, 1), (SUCCESS, 2)]) := by
  rfl

/-- The hypotheses of `duplex_stream` are met by a nonblocking descriptor that is read and an async psock that is written. -/
example (t : List WEv × List Byte) (ht : HealthyW t) :=
  duplex_stream fdRead_stream fdRead_lossless asyncWrite_stream asyncWrite_full [.read 2 true, .write [1, 2], .read 5 false]
    (by simp) br₁ ⟨trivial, Nat.le_refl _, by decide, by decide⟩ t ht

example : (writeBoxed .little (brWrite (onOut fdWrite)) (br₁.with ([WEv.take 9, .take 9], ([] : List Byte))) (.bool true)).map
    (fun x => (x.1.sock.2.2, x.2)) = some ([0, 0, 0, 24, 1], SUCCESS) := by decide

end Rcpr.Psock
