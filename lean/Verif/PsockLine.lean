import Verif.PsockBr

/-! Lemmas about `psock_br_read_line`. -/
namespace Rcpr.Psock

open Rcpr

variable {σ : Type}

theorem put_eq {buf d : List Byte} {off : Nat} (h : off + d.length ≤ buf.length) :
    put buf off d = some (buf.take off ++ (d ++ buf.drop (off + d.length))) := by simp [put, h]

/-- a caller's buffer whose first bytes are `e` -/
theorem put_after {e out0 d : List Byte} (h : e.length + d.length ≤ out0.length) :
    put (e ++ out0.drop e.length) e.length d = some (e ++ d ++ out0.drop (e.length + d.length)) := by
  rw [put_eq (by rw [List.length_append, List.length_drop]; omega)]
  rw [List.take_left, List.drop_append, List.drop_drop, List.drop_of_length_le (by omega), List.nil_append,
    Nat.add_sub_cancel_left, List.append_assoc]

theorem rlCopy_ok (buf out0 : List Byte) : ∀ (fuel : Nat) (l : LS) (e w : List Byte),
    l.avail < fuel → l.inp + l.avail ≤ buf.length → w = (buf.drop l.inp).take l.avail →
    l.pos = e.length → l.out = e ++ out0.drop e.length → e.length + l.rem ≤ out0.length →
    ∃ k, k ≤ l.avail ∧ k ≤ l.rem ∧ 10 ∉ w.take k ∧
      rlCopy buf fuel l = some ⟨l.inp + k, l.avail - k, l.rem - k,
        (e ++ w.take k) ++ out0.drop (e.length + k), e.length + k, l.copied + k⟩ ∧
      (k = l.rem ∨ k = l.avail ∨ w[k]? = some 10) := by
  intro fuel
  induction fuel with
  | zero => intro l e w h; omega
  | succ fuel ih =>
    intro l e w hf hb hw hp ho hr
    unfold rlCopy
    by_cases hc : l.rem > 0 ∧ l.avail > 0
    · rw [if_pos hc]
      have hlt : l.inp < buf.length := by omega
      rw [List.getElem?_eq_getElem hlt]
      simp only
      have hcons : w = buf[l.inp] :: (buf.drop (l.inp + 1)).take (l.avail - 1) := by
        rw [hw, List.drop_eq_getElem_cons hlt]
        obtain ⟨a, ha⟩ : ∃ a, l.avail = a + 1 := ⟨l.avail - 1, by omega⟩
        rw [ha, List.take_succ_cons, Nat.add_sub_cancel]
      by_cases hten : buf[l.inp] = 10
      · rw [if_pos hten]
        refine ⟨0, by omega, by omega, by simp, ?_, Or.inr (Or.inr (by rw [hcons]; simp [hten]))⟩
        cases l
        simp only at *
        simp [← ho, hp]
      · rw [if_neg hten, hp, ho, put_after (by simp; omega)]
        simp only
        obtain ⟨k, k1, k2, k3, k4, k5⟩ := ih ⟨l.inp + 1, l.avail - 1, l.rem - 1,
          e ++ [buf[l.inp]] ++ out0.drop (e.length + 1), e.length + 1, l.copied + 1⟩
          (e ++ [buf[l.inp]]) ((buf.drop (l.inp + 1)).take (l.avail - 1)) (by simp only; omega)
          (by simp only; omega) rfl (by simp) (by simp) (by simp only [List.length_append, List.length_singleton]; omega)
        simp only [List.length_append, List.length_singleton] at k1 k2 k4 k5 ⊢
        refine ⟨k + 1, by omega, by omega, ?_, ?_, ?_⟩
        · rw [hcons, List.take_succ_cons, List.mem_cons, not_or]
          exact ⟨fun h => hten h.symm, k3⟩
        · rw [k4, hcons, List.take_succ_cons]
          simp only [Option.some.injEq, LS.mk.injEq]
          refine ⟨by omega, by omega, by omega, ?_, by omega, by omega⟩
          simp only [List.append_assoc, List.cons_append, List.nil_append]
          rw [show e.length + 1 + k = e.length + (k + 1) by omega]
        · rcases k5 with h | h | h
          · left; omega
          · right; left; omega
          · right; right; rw [hcons]; simpa using h
    · rw [if_neg hc]
      refine ⟨0, by omega, by omega, by simp, ?_, by omega⟩
      cases l
      simp only at *
      simp [← ho, hp]

/-- The possible outcomes of reading a line from a stream `S` into a buffer `out0`. -/
inductive LineOutcome (rd : Reader σ) (Ok : σ → Prop) (rest : σ → List Byte) (err : Bool) (S out0 : List Byte)
    (r : LineRes σ) : Prop
  /-- a line and its newline -/
  | line (e : List Byte) (h1 : r.st = SUCCESS) (h2 : S = e ++ 10 :: r.br.rest rest) (h3 : 10 ∉ e)
      (h4 : e.length + 1 ≤ out0.length) (h5 : r.out = e ++ 0 :: out0.drop (e.length + 1))
      (h6 : r.size = e.length + 1) (h7 : r.br.err = err)
  /-- the buffer is full -/
  | full (e : List Byte) (h1 : r.st = ERROR_PSOCK_BR_READ_LINE_TRUNCATED) (h2 : S = e ++ r.br.rest rest)
      (h3 : 10 ∉ e) (h4 : e.length + 1 = out0.length) (h5 : r.out = e ++ 0 :: out0.drop (e.length + 1))
      (h6 : r.size = e.length) (h7 : r.br.err = err)
  /-- bytes without a newline, then nothing more from the socket -/
  | last (e : List Byte) (h0 : e ≠ []) (h1 : r.st = SUCCESS) (h2 : S = e ++ r.br.rest rest)
      (h3 : 10 ∉ e) (h4 : e.length + 1 < out0.length) (h5 : r.out = e ++ 0 :: out0.drop (e.length + 1))
      (h6 : r.size = e.length + 1) (h7 : r.br.err = true) (h8 : r.br.pending = [])
      (h9 : err = true ∨ (ProgressNB rd Ok rest → r.br.rest rest = []))
  /-- nothing at all -/
  | none (h1 : r.st = ERROR_PSOCK_READ_GENERAL) (h2 : S = r.br.rest rest) (h5 : r.out = out0)
      (h6 : r.size = out0.length) (h7 : r.br.err = true) (h8 : r.br.pending = [])
      (h9 : err = true ∨ (ProgressNB rd Ok rest → r.br.rest rest = []))

theorem rlLoop_ok {rd : Reader σ} {Ok : σ → Prop} {rest : σ → List Byte} (R : StreamReader rd Ok rest)
    (L : Lossless rd Ok) (S out0 : List Byte) (err : Bool) :
    ∀ (fuel : Nat) (br : BR σ) (l : LS) (e : List Byte),
      Ok br.sock → br.off ≤ br.cur → br.cur ≤ br.buf.length → 0 < br.buf.length → br.err = err →
      S = e ++ br.rest rest → 10 ∉ e → l.pos = e.length → l.out = e ++ out0.drop e.length →
      e.length + l.rem + 1 = out0.length → 0 < l.rem → l.inp = br.off → l.avail = br.cur - br.off →
      l.copied = 0 → l.rem + (if l.avail = 0 then 1 else 0) < fuel →
      ∃ r, rlLoop rd out0.length fuel br l e.length = some r ∧ BR.Ok Ok r.br ∧
        LineOutcome rd Ok rest err S out0 r := by
  intro fuel
  induction fuel with
  | zero => intro br l e _ _ _ _ _ _ _ _ _ _ _ _ _ _ h; omega
  | succ fuel ih =>
    intro br l e hs ho hc hb herr hS hten hpos hout hrem hrem0 hinp hav hcop hf
    have hpl : br.pending.length = br.cur - br.off := by
      simp only [BR.pending, List.length_drop, List.length_take]; omega
    have hpe := br.pending_eq
    obtain ⟨k, k1, k2, k3, k4, k5⟩ := rlCopy_ok br.buf out0 (l.avail + 1) l e br.pending (by omega) (by omega)
      (by rw [hpe, hinp, hav]) hpos hout (by omega)
    unfold rlLoop
    rw [if_pos hrem0, k4]
    simp only
    have hklen : (e ++ br.pending.take k).length = e.length + k := by
      rw [List.length_append, List.length_take]; omega
    have hten' : 10 ∉ e ++ br.pending.take k := by
      rw [List.mem_append, not_or]; exact ⟨hten, k3⟩
    have hputs : put ((e ++ br.pending.take k) ++ out0.drop (e.length + k)) (e.length + k) [0] =
        some ((e ++ br.pending.take k) ++ 0 :: out0.drop (e.length + k + 1)) := by
      rw [← hklen, put_after (by rw [hklen]; simp; omega)]
      simp
    have hrestk : br.rest rest = br.pending.take k ++ ({ br with off := br.off + k } : BR σ).rest rest := by
      simp only [BR.rest]
      rw [BR.pending_skip, ← List.append_assoc, List.take_append_drop]
    have hget : ∀ i, br.off + i < br.cur → br.buf[br.off + i]? = br.pending[i]? := fun i hi =>
      (BR.pending_get i hi).symm
    -- the byte under `inp`
    have hread : (if l.avail - k > 0 then br.buf[l.inp + k]? else some 0) =
        some (if l.avail - k > 0 then (br.pending[k]?).get! else 0) := by
      split
      · rw [hinp, hget k (by omega), List.getElem?_eq_getElem (by omega)]; simp
      · rfl
    rw [hread]
    simp only
    by_cases hnl : l.avail - k > 0 ∧ br.pending[k]? = some 10
    · obtain ⟨n1, n2⟩ := hnl
      rw [if_pos ⟨n1, by rw [if_pos n1, n2]; rfl⟩, hputs]
      simp only [Option.map_some]
      refine ⟨_, rfl, ⟨hs, by simp only; omega, hc, fun h => by simp only at h; omega⟩, ?_⟩
      refine LineOutcome.line (e ++ br.pending.take k) rfl ?_ hten' (by omega) (by rw [hklen]) (by simp only [hklen]; omega) herr
      rw [hS, hrestk]
      simp only [BR.rest, List.append_assoc]
      rw [BR.pending_skip, hcop, Nat.zero_add, BR.pending_skip]
      have hkl : k < br.pending.length := by omega
      rw [List.drop_eq_getElem_cons hkl, List.getElem?_eq_getElem hkl, Option.some.injEq] at *
      rw [n2]; rfl
    · rw [if_neg (by
        rintro ⟨n1, n2⟩
        apply hnl
        refine ⟨n1, ?_⟩
        rw [if_pos n1] at n2
        have hkl : k < br.pending.length := by omega
        rw [List.getElem?_eq_getElem hkl] at n2 ⊢
        simpa using n2)]
      by_cases hr0 : l.rem - k = 0
      · rw [if_pos hr0, hputs]
        simp only [Option.map_some]
        refine ⟨_, rfl, ⟨hs, by simp only; omega, hc, fun h => by simp only at h; omega⟩, ?_⟩
        refine LineOutcome.full (e ++ br.pending.take k) rfl ?_ hten' (by omega) (by rw [hklen]) (by simp only [hklen]; omega) herr
        rw [hS, hrestk, hcop, Nat.zero_add, List.append_assoc]
      · rw [if_neg hr0]
        have hka : k = l.avail := by
          rcases k5 with h | h | h
          · omega
          · exact h
          · apply Classical.byContradiction
            intro hne
            exact hnl ⟨by omega, h⟩
        rw [if_pos (by omega)]
        have hall : br.pending.take k = br.pending := List.take_of_length_le (by omega)
        rw [hall] at hputs hklen hten' hrestk ⊢
        -- everything in the buffer has been taken
        have hS1 : S = (e ++ br.pending) ++ rest br.sock := by rw [hS, BR.rest, List.append_assoc]
        have hOk1 : BR.Ok Ok { br with off := br.cur } := ⟨hs, Nat.le_refl _, hc, fun h => by simp only at h ⊢; omega⟩
        have hp1 : ({ br with off := br.cur } : BR σ).pending = [] := by
          simp [BR.pending, List.drop_eq_nil_iff, List.length_take]
        have hcomm : e.length + (l.copied + k) = (e ++ br.pending).length := by rw [hklen, hcop]; omega
        have final : ∀ br2 : BR σ, BR.Ok Ok br2 → br2.err = true → br2.pending = [] → S = (e ++ br.pending) ++ br2.rest rest →
            (err = true ∨ (ProgressNB rd Ok rest → br2.rest rest = [])) →
            ∃ r, (if br2.err = true then
                if e.length + (l.copied + k) = 0 then
                  some (⟨br2, ERROR_PSOCK_READ_GENERAL, e ++ br.pending ++ out0.drop (e.length + k), out0.length⟩ : LineRes σ)
                else (put (e ++ br.pending ++ out0.drop (e.length + k)) (e.length + k) [0]).map fun out =>
                  ⟨br2, SUCCESS, out, e.length + (l.copied + k) + 1⟩
              else if br2.off > br2.cur then none
              else rlLoop rd out0.length fuel br2 ⟨br2.off, br2.cur - br2.off, l.rem - k,
                  e ++ br.pending ++ out0.drop (e.length + k), e.length + k, 0⟩ (e.length + (l.copied + k))) = some r ∧
              BR.Ok Ok r.br ∧ LineOutcome rd Ok rest err S out0 r := by
          intro br2 ok2 err2 pend2 hS2 hp2
          rw [if_pos err2]
          by_cases h0 : e.length + (l.copied + k) = 0
          · rw [if_pos h0]
            have he : e ++ br.pending = [] := List.eq_nil_of_length_eq_zero (by rw [← hcomm]; exact h0)
            refine ⟨_, rfl, ok2, LineOutcome.none rfl ?_ ?_ rfl err2 pend2 hp2⟩
            · rw [hS2, he]; rfl
            · have : e.length + k = 0 := by omega
              simp [he, this]
          · rw [if_neg h0, hputs]
            simp only [Option.map_some]
            refine ⟨_, rfl, ok2, LineOutcome.last (e ++ br.pending) ?_ rfl hS2 hten' (by omega) (by rw [hklen])
              (by simp only; rw [← hcomm]) err2 pend2 hp2⟩
            intro h
            apply h0; rw [hcomm, h]; rfl
        by_cases he : br.err = true
        · rw [if_pos he]
          simp only
          refine final { br with off := br.cur } hOk1 he hp1 ?_ (Or.inl (by rw [← herr]; exact he))
          rw [hS1, BR.rest, hp1]; rfl
        · rw [if_neg he]
          obtain ⟨br2, st, d, s', st0, f1, f2, f3, f4, f5, f6, f6', f7, f8, f9, f10⟩ := brFill_ok R L hOk1
          rw [f1]
          simp only [Option.map_some]
          have hS3 : S = (e ++ br.pending) ++ br2.rest rest := by
            rw [f8, hS1, BR.rest, hp1]; rfl
          by_cases hst : st = SUCCESS
          · rw [show (if st ≠ SUCCESS then ({ br2 with err := true } : BR σ) else br2) = br2 from if_neg (by simp [hst])]
            obtain ⟨g1, g2, g3⟩ := f9 hst
            have hl : 0 < d.length := List.length_pos_iff.2 g1
            have hpl2 : br2.pending.length = br2.cur - br2.off := by
              simp only [BR.pending, List.length_drop, List.length_take]; omega
            rw [g2, hp1, List.nil_append] at hpl2
            have herr2 : ¬ br2.err = true := by rw [f6']; exact he
            rw [if_neg herr2, if_neg (by omega), hcomm]
            have := ih br2 ⟨br2.off, br2.cur - br2.off, l.rem - k,
              e ++ br.pending ++ out0.drop (e.length + k), e.length + k, 0⟩ (e ++ br.pending)
              (by rw [f4]; exact f7) (by omega) g3 (by rw [f6]; exact hb) (by rw [f6']; exact herr) hS3 hten'
              (by simp only [hklen]) (by simp only [hklen]) (by rw [hklen]; simp only; omega) (by simp only; omega) rfl rfl rfl
              (by
                simp only
                rw [if_neg (by omega)]
                by_cases h0 : l.avail = 0
                · rw [if_pos h0] at hf; omega
                · omega)
            exact this
          · rw [show (if st ≠ SUCCESS then ({ br2 with err := true } : BR σ) else br2) = { br2 with err := true } from if_pos hst]
            refine final { br2 with err := true } ?_ rfl ?_ ?_ ?_
            · obtain ⟨_, q⟩ := f10 hst
              exact ⟨q.sock, q.off, q.cur, q.room⟩
            · have := (f10 hst).1; rw [hp1] at this; exact this
            · rw [hS3]; rfl
            · right
              intro P
              have h1 := (f10 hst).1
              rw [hp1] at h1
              show br2.pending ++ rest br2.sock = []
              rw [h1, List.nil_append]
              have : rest br.sock = [] := by
                apply Classical.byContradiction
                intro hne
                exact hst (brFill_success R L P hOk1 hne f1)
              rw [BR.rest, BR.rest, hp1, h1] at f8
              simpa [this] using f8

theorem brReadLine_ok {rd : Reader σ} {Ok : σ → Prop} {rest : σ → List Byte} (R : StreamReader rd Ok rest)
    (L : Lossless rd Ok) {br : BR σ} (h : BR.Ok Ok br) (out0 : List Byte) (ho : 1 < out0.length) :
    ∃ r, brReadLine rd br out0 = some r ∧ BR.Ok Ok r.br ∧
      LineOutcome rd Ok rest br.err (br.rest rest) out0 r := by
  have := h.off
  have := h.cur
  have := h.room
  have key := rlLoop_ok R L (br.rest rest) out0 br.err (out0.length + 2) br
    ⟨br.off, br.cur - br.off, out0.length - 1, out0, 0, 0⟩ [] h.sock h.off h.cur (by omega) rfl rfl (by simp) rfl
    (by simp) (by simp only [List.length_nil]; omega) (by simp only; omega) rfl rfl rfl (by simp only; split <;> omega)
  obtain ⟨r, h1, h2⟩ := key
  refine ⟨r, ?_, h2⟩
  unfold brReadLine
  rw [if_neg (by omega), if_neg (by omega)]
  exact h1

end Rcpr.Psock
