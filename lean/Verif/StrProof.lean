import Verif.Str

namespace Rcpr.Str

open Rcpr

/-! ## Specification vocabulary -/

/-- the whitespace characters: tab, line feed, vertical tab, form feed, carriage return, space -/
def ws (c : Byte) : Bool := [9#8, 10#8, 11#8, 12#8, 13#8, 32#8].contains c

/-- `s` without its maximal whitespace prefix -/
def lstrip (s : List Byte) : List Byte := s.dropWhile ws

/-- `s` without its maximal whitespace suffix -/
def rstrip (s : List Byte) : List Byte := (s.reverse.dropWhile ws).reverse

/-- the C string starting at index `i` of a buffer -/
def cstr (b : Buf) (i : Nat) : List Byte := (b.drop i).takeWhile (fun c => c ≠ 0#8)

/-! ## Lemmas -/

theorem isWhitespace_promote (sg : Bool) (c : Byte) : isWhitespace (promote sg c) = ws c := by
  have h : ∀ sg : Bool, ∀ n : Fin 256, isWhitespace (promote sg (BitVec.ofFin n)) =
      ws (BitVec.ofFin n) := by decide +kernel
  exact h sg c.toFin

theorem promote_inj (sg : Bool) {a b : Byte} (h : promote sg a = promote sg b) : a = b := by
  cases sg
  · simp [promote] at h; exact BitVec.eq_of_toNat_eq (by exact_mod_cast h)
  · simp [promote] at h; exact BitVec.eq_of_toInt_eq h

theorem scanWhile_spec {p : Byte → Bool} {y : Byte} {rest : Buf} (hy : p y = false) :
    ∀ (xs pre : Buf), (∀ x ∈ xs, p x = true) →
      scanWhile (pre ++ (xs ++ y :: rest)) p pre.length = some (pre.length + xs.length)
  | [], pre, _ => by
    unfold scanWhile
    simp [hy]
  | x :: xs, pre, h => by
    have ih := scanWhile_spec (rest := rest) hy xs (pre ++ [x])
      (fun z hz => h z (List.mem_cons_of_mem _ hz))
    unfold scanWhile
    have hx := h x List.mem_cons_self
    simp only [List.append_assoc, List.singleton_append, List.length_append,
      List.length_singleton] at ih
    simp [hx, ih]
    omega

theorem scanWhile_spec0 {p : Byte → Bool} {y : Byte} {rest : Buf} (hy : p y = false)
    (xs : Buf) (h : ∀ x ∈ xs, p x = true) :
    scanWhile (xs ++ y :: rest) p 0 = some xs.length := by
  simpa using scanWhile_spec (rest := rest) hy xs [] h

theorem ne0_of {s : List Byte} (h : 0#8 ∉ s) : ∀ x ∈ s, (decide (x ≠ 0#8)) = true := by
  intro x hx
  simp only [decide_eq_true_eq]
  rintro rfl
  exact h hx

theorem scanEnd {s : List Byte} (h : 0#8 ∉ s) (pre rest : Buf) :
    scanWhile (pre ++ (s ++ 0#8 :: rest)) (fun c => decide (c ≠ 0#8)) pre.length =
      some (pre.length + s.length) :=
  scanWhile_spec (by decide) s pre (ne0_of h)

theorem scanEnd0 {s : List Byte} (h : 0#8 ∉ s) (rest : Buf) :
    scanWhile (s ++ 0#8 :: rest) (fun c => decide (c ≠ 0#8)) 0 = some s.length :=
  scanWhile_spec0 (by decide) s (ne0_of h)

theorem strlen_spec {s : List Byte} (h : 0#8 ∉ s) (rest : Buf) :
    strlen (s ++ 0#8 :: rest) 0 = some s.length := by
  simp only [strlen]
  rw [scanEnd0 h]
  simp

theorem rd_mid (pre : Buf) (y : Byte) (rest : Buf) : rd (pre ++ y :: rest) pre.length = some y := by
  simp [rd]

theorem wr_mid (pre : Buf) (y v : Byte) (rest : Buf) :
    wr (pre ++ y :: rest) pre.length v = some (pre ++ v :: rest) := by
  simp [wr]

theorem cstr_mid {s : List Byte} (h : 0#8 ∉ s) (pre rest : Buf) :
    cstr (pre ++ (s ++ 0#8 :: rest)) pre.length = s := by
  simp only [cstr, List.drop_left']
  induction s with
  | nil => simp
  | cons a s ih =>
    simp only [List.mem_cons, not_or] at h
    have := ih h.2
    have ha : decide (a ≠ 0#8) = true := decide_eq_true (fun e => h.1 e.symm)
    simp only [List.cons_append, List.takeWhile_cons, ha, if_true, List.cons.injEq, true_and]
    simpa using this

/-- decomposition of a string in its whitespace prefix and the rest -/
theorem lstrip_decomp (s : List Byte) : ∃ w, s = w ++ lstrip s ∧ (∀ c ∈ w, ws c = true) ∧
    (∀ c t, lstrip s = c :: t → ws c = false) := by
  refine ⟨s.takeWhile ws, (List.takeWhile_append_dropWhile ..).symm, ?_, ?_⟩
  · intro c hc
    induction s with
    | nil => simp at hc
    | cons a s ih =>
      rw [List.takeWhile_cons] at hc
      split at hc
      · rcases List.mem_cons.1 hc with rfl | hc
        · assumption
        · exact ih hc
      · simp at hc
  · intro c t h
    induction s with
    | nil => simp [lstrip] at h
    | cons a s ih =>
      simp only [lstrip, List.dropWhile_cons] at h
      split at h
      · exact ih h
      · simp only [List.cons.injEq] at h
        rw [← h.1]; simp_all

theorem rstrip_decomp (s : List Byte) : ∃ w, s = rstrip s ++ w ∧ (∀ c ∈ w, ws c = true) ∧
    (∀ c t, rstrip s = t ++ [c] → ws c = false) := by
  obtain ⟨w, h, hw, hn⟩ := lstrip_decomp s.reverse
  refine ⟨w.reverse, ?_, ?_, ?_⟩
  · have := congrArg List.reverse h
    simpa [rstrip, lstrip] using this
  · intro c hc; exact hw c (by simpa using hc)
  · intro c t ht
    have : lstrip s.reverse = c :: t.reverse := by
      have := congrArg List.reverse ht
      simpa [rstrip, lstrip] using this
    exact hn c _ this

theorem lstrip_unique {s w t : List Byte} (h : s = w ++ t) (hw : ∀ c ∈ w, ws c = true)
    (hn : ∀ c u, t = c :: u → ws c = false) : lstrip s = t := by
  subst h
  induction w with
  | nil =>
    cases t with
    | nil => rfl
    | cons c u => simp [lstrip, hn c u rfl]
  | cons a w ih =>
    have := ih (fun c hc => hw c (List.mem_cons_of_mem _ hc))
    simp only [lstrip] at this
    simp [lstrip, hw a List.mem_cons_self, this]

theorem rstrip_unique {s w t : List Byte} (h : s = t ++ w) (hw : ∀ c ∈ w, ws c = true)
    (hn : ∀ c u, t = u ++ [c] → ws c = false) : rstrip s = t := by
  have := lstrip_unique (s := s.reverse) (w := w.reverse) (t := t.reverse) (by simp [h])
    (fun c hc => hw c (by simpa using hc)) (fun c u hu => hn c u.reverse (by
      have := congrArg List.reverse hu; simpa using this))
  simpa [rstrip, lstrip] using congrArg List.reverse this

theorem lstrip_idem (s : List Byte) : lstrip (lstrip s) = lstrip s := by
  obtain ⟨w, _, _, hn⟩ := lstrip_decomp s
  exact lstrip_unique (w := []) rfl (by simp) hn

theorem rstrip_idem (s : List Byte) : rstrip (rstrip s) = rstrip s := by
  obtain ⟨w, _, _, hn⟩ := rstrip_decomp s
  exact rstrip_unique (w := []) (by simp) (by simp) hn

theorem lstrip_mem {s : List Byte} {c : Byte} (h : c ∈ lstrip s) : c ∈ s := by
  obtain ⟨w, e, _⟩ := lstrip_decomp s
  rw [e]; exact List.mem_append_right _ h

theorem rstrip_mem {s : List Byte} {c : Byte} (h : c ∈ rstrip s) : c ∈ s := by
  obtain ⟨w, e, _⟩ := rstrip_decomp s
  rw [e]; exact List.mem_append_left _ h

/-- the right end of a left-stripped, right-stripped string is still stripped -/
theorem rstrip_lstrip_rstrip (s : List Byte) :
    rstrip (lstrip (rstrip s)) = lstrip (rstrip s) := by
  obtain ⟨w, e, _, _⟩ := lstrip_decomp (rstrip s)
  obtain ⟨_, _, _, hn⟩ := rstrip_decomp s
  refine rstrip_unique (w := []) (by simp) (by simp) ?_
  intro c u hu
  exact hn c (w ++ u) (by rw [e, hu]; simp)

theorem leftTrim_eq (sg : Bool) {s : List Byte} (h : 0#8 ∉ s) (rest : Buf) :
    leftTrim sg (s ++ 0#8 :: rest) =
      some (lstrip s ++ 0#8 :: (s ++ 0#8 :: rest).drop ((lstrip s).length + 1)) := by
  obtain ⟨w, e, hw, hn⟩ := lstrip_decomp s
  have h0 : 0#8 ∉ lstrip s := fun hm => h (lstrip_mem hm)
  generalize lstrip s = t at *
  subst e
  have h1 : scanWhile (w ++ t ++ 0#8 :: rest) (fun c => isWhitespace (promote sg c)) 0 =
      some w.length := by
    simp only [isWhitespace_promote, List.append_assoc]
    cases t with
    | nil => exact scanWhile_spec0 (by decide) w hw
    | cons c u => exact scanWhile_spec0 (rest := u ++ 0#8 :: rest) (hn c u rfl) w hw
  simp only [leftTrim, h1, Option.bind_eq_bind, Option.bind_some]
  rw [List.append_assoc, scanEnd h0]
  simp [memmove, List.take_append]
  exact ⟨by omega, List.take_of_length_le (by omega)⟩

theorem scanBack_eq (sg : Bool) (c : Byte) (hc : ws c = false) (rest : Buf) (k : Nat) (t : Buf) :
    ∀ w : Buf, (∀ x ∈ w, ws x = true) → k + 1 = (t ++ [c] ++ w).length →
      scanBack sg (t ++ [c] ++ w ++ rest) k = some t.length := by
  induction k generalizing rest with
  | zero =>
    intro w hw hl
    have : t = [] := by
      cases t with
      | nil => rfl
      | cons a t => simp at hl
    subst this
    simp [scanBack]
  | succ k ih =>
    intro w hw hl
    rcases List.eq_nil_or_concat w with rfl | ⟨w', x, rfl⟩
    · simp at hl
      have hr : rd (t ++ [c] ++ [] ++ rest) (k + 1) = some c := by
        have := rd_mid t c rest
        rw [← hl] at this
        simpa using this
      simp only [scanBack, hr, Option.bind_eq_bind, Option.bind_some, isWhitespace_promote, hc]
      simp [hl]
    · have hlen : (t ++ [c] ++ w').length = k + 1 := by
        simp at hl ⊢; omega
      have hr : rd (t ++ [c] ++ w'.concat x ++ rest) (k + 1) = some x := by
        have := rd_mid (t ++ [c] ++ w') x rest
        rw [hlen] at this
        simpa using this
      have hx : ws x = true := hw x (by simp)
      simp only [scanBack, hr, Option.bind_eq_bind, Option.bind_some, isWhitespace_promote, hx,
        if_true]
      have := ih (x :: rest) w' (fun y hy => hw y (by simp [hy])) (by simp at hl ⊢; omega)
      simpa using this

theorem scanBack_all (sg : Bool) (rest : Buf) (a : Byte) (k : Nat) :
    ∀ w : Buf, (∀ x ∈ w, ws x = true) → k = w.length →
      scanBack sg (a :: w ++ rest) k = some 0 := by
  induction k generalizing rest with
  | zero => intros; rfl
  | succ k ih =>
    intro w hw hl
    rcases List.eq_nil_or_concat w with rfl | ⟨w', x, rfl⟩
    · simp at hl
    · have hlen : (a :: w').length = k + 1 := by simp at hl ⊢; omega
      have hr : rd (a :: w'.concat x ++ rest) (k + 1) = some x := by
        have := rd_mid (a :: w') x rest
        rw [hlen] at this
        simpa using this
      have hx : ws x = true := hw x (by simp)
      simp only [scanBack, hr, Option.bind_eq_bind, Option.bind_some, isWhitespace_promote, hx,
        if_true]
      have := ih (x :: rest) w' (fun y hy => hw y (by simp [hy])) (by simp at hl ⊢; omega)
      simpa using this

theorem rightTrim_eq (sg : Bool) {s : List Byte} (h : 0#8 ∉ s) (rest : Buf) :
    rightTrim sg (s ++ 0#8 :: rest) =
      some (rstrip s ++ 0#8 :: (s ++ 0#8 :: rest).drop ((rstrip s).length + 1)) := by
  obtain ⟨w, e, hw, hn⟩ := rstrip_decomp s
  have h0 : 0#8 ∉ rstrip s := fun hm => h (rstrip_mem hm)
  simp only [rightTrim]
  rw [scanEnd0 h]
  generalize rstrip s = t at *
  subst e
  rcases List.eq_nil_or_concat t with rfl | ⟨t, c, rfl⟩
  · -- nothing but whitespace
    cases w with
    | nil => simp [scanBack, rd]
    | cons a w =>
      have hs := scanBack_all sg (0#8 :: rest) a w.length w
        (fun x hx => hw x (List.mem_cons_of_mem _ hx)) rfl
      have ha : ws a = true := hw a List.mem_cons_self
      have ha0 : a ≠ 0#8 := by rintro rfl; exact h (by simp)
      have e : (if ([] ++ a :: w).length ≠ 0 then ([] ++ a :: w).length - 1 else
          ([] ++ a :: w).length) = w.length := by simp
      simp only [Option.bind_eq_bind, Option.bind_some, e]
      simp only [List.nil_append]
      rw [hs]
      simp [rd, isWhitespace_promote, ha, ha0, wr]
  · have hc : ws c = false := hn c t (by simp)
    have hc0 : c ≠ 0#8 := by rintro rfl; exact h0 (by simp)
    have hs := scanBack_eq sg c hc (0#8 :: rest) (t.length + w.length) t w hw (by simp; omega)
    have e : (if (t.concat c ++ w).length ≠ 0 then (t.concat c ++ w).length - 1 else
        (t.concat c ++ w).length) = t.length + w.length := by simp
    simp only [Option.bind_eq_bind, Option.bind_some, e]
    have e2 : t.concat c ++ w ++ 0#8 :: rest = t ++ [c] ++ w ++ 0#8 :: rest := by simp
    rw [e2, hs]
    simp only [Option.bind_some]
    have hwr : wr (t ++ [c] ++ w ++ 0#8 :: rest) (t.length + 1) 0#8 =
        some (t.concat c ++ 0#8 :: (t ++ [c] ++ w ++ 0#8 :: rest).drop
          ((t.concat c).length + 1)) := by
      cases w with
      | nil =>
        have := wr_mid (t ++ [c]) 0#8 0#8 rest
        simp only [List.length_append, List.length_singleton] at this
        simp only [List.append_nil, this]
        have e : (t.concat c).length + 1 = ((t ++ [c]) ++ [0#8]).length := by simp
        have e' : t ++ [c] ++ 0#8 :: rest = ((t ++ [c]) ++ [0#8]) ++ rest := by simp
        rw [e, e', List.drop_left']
        · simp
        · rfl
      | cons a w =>
        have := wr_mid (t ++ [c]) a 0#8 (w ++ 0#8 :: rest)
        simp only [List.length_append, List.length_singleton] at this
        have e : (t.concat c).length + 1 = ((t ++ [c]) ++ [a]).length := by simp
        have e' : t ++ [c] ++ a :: w ++ 0#8 :: rest =
          ((t ++ [c]) ++ [a]) ++ (w ++ 0#8 :: rest) := by simp
        rw [e, e', List.drop_left' rfl]
        have e'' : t ++ [c] ++ [a] ++ (w ++ 0#8 :: rest) =
          t ++ [c] ++ a :: (w ++ 0#8 :: rest) := by simp
        rw [e'', this]
        simp
    split
    · rename_i ht
      have hr : rd (t ++ [c] ++ w ++ 0#8 :: rest) t.length = some c := by
        have := rd_mid t c (w ++ 0#8 :: rest)
        simpa using this
      simp only [hr, Option.bind_some, hc0, if_false, isWhitespace_promote, hc]
      simpa using hwr
    · simpa using hwr

/-! ## Iterators -/

/-- the maximal runs of characters that are not separators, in order -/
def pieces (p : Byte → Bool) (s : List Byte) : List (List Byte) :=
  (s.splitOnP p).filter (fun x => !x.isEmpty)

theorem pieces_skip {p : Byte → Bool} {w t : List Byte} (hw : ∀ c ∈ w, p c = true) :
    pieces p (w ++ t) = pieces p t := by
  induction w with
  | nil => rfl
  | cons a w ih =>
    have := ih (fun c hc => hw c (List.mem_cons_of_mem _ hc))
    have h := List.splitOnP_append_cons_of_forall_mem (p := p) (xs := []) (by simp) a
      (hw a List.mem_cons_self) (w ++ t)
    simp only [pieces, List.cons_append, List.nil_append] at *
    rw [h]
    simpa using this

theorem pieces_last {p : Byte → Bool} {x : List Byte} (hx : ∀ c ∈ x, p c = false) (hn : x ≠ []) :
    pieces p x = [x] := by
  simp only [pieces]
  rw [List.splitOnP_eq_singleton hx]
  simp [hn]

theorem pieces_cons {p : Byte → Bool} {x : List Byte} (hx : ∀ c ∈ x, p c = false) (hn : x ≠ [])
    {d : Byte} (hd : p d = true) (r : List Byte) :
    pieces p (x ++ d :: r) = x :: pieces p r := by
  simp only [pieces]
  rw [List.splitOnP_append_cons_of_forall_mem hx d hd]
  simp [hn]

/-- decomposition of a string at the end of a run -/
theorem span_decomp (q : Byte → Bool) (s : List Byte) : ∃ w t, s = w ++ t ∧ (∀ c ∈ w, q c = true) ∧
    (∀ c u, t = c :: u → q c = false) := by
  induction s with
  | nil => exact ⟨[], [], rfl, by simp, by simp⟩
  | cons a s ih =>
    obtain ⟨w, t, e, hw, ht⟩ := ih
    cases h : q a with
    | true =>
      refine ⟨a :: w, t, by simp [e], ?_, ht⟩
      intro c hc
      rcases List.mem_cons.1 hc with rfl | hc
      · exact h
      · exact hw c hc
    | false =>
      refine ⟨[], a :: s, rfl, by simp, ?_⟩
      intro c u hc
      simp only [List.cons.injEq] at hc
      rw [← hc.1]; exact h

variable (sg : Bool) (tok : Int → Bool)

theorem multisplit_end (pre w rest : Buf) (hw : ∀ c ∈ w, tok (promote sg c) = true)
    (h0 : 0#8 ∉ w) :
    multisplit sg tok (pre ++ (w ++ 0#8 :: rest)) pre.length =
      some ⟨ERROR_STRING_END_OF_INPUT, none, pre ++ (w ++ 0#8 :: rest), pre.length + w.length⟩ := by
  have h1 := scanWhile_spec (p := fun c => decide (c ≠ 0#8) && tok (promote sg c)) (y := 0#8)
    (rest := rest) (by simp) w pre (fun c hc => by
      have := ne0_of h0 c hc
      simp only [this, hw c hc, Bool.and_self])
  have h2 := rd_mid (pre ++ w) 0#8 rest
  simp only [List.append_assoc, List.length_append] at h2
  simp only [multisplit, h1, Option.bind_eq_bind, Option.bind_some, h2, if_true]
  rfl

theorem multisplit_last (pre w : Buf) (a : Byte) (x rest : Buf)
    (hw : ∀ c ∈ w, tok (promote sg c) = true)
    (hx : ∀ c ∈ a :: x, tok (promote sg c) = false) (h0 : 0#8 ∉ w ++ a :: x) :
    multisplit sg tok (pre ++ (w ++ (a :: x) ++ 0#8 :: rest)) pre.length =
      some ⟨SUCCESS, some (pre.length + w.length), pre ++ (w ++ (a :: x) ++ 0#8 :: rest),
        pre.length + w.length + (a :: x).length⟩ := by
  have ha0 : a ≠ 0#8 := by rintro rfl; exact h0 (by simp)
  have h1 := scanWhile_spec (p := fun c => decide (c ≠ 0#8) && tok (promote sg c)) (y := a)
    (rest := x ++ 0#8 :: rest) (by simp [hx a]) w pre (fun c hc => by
      have := ne0_of h0 c (List.mem_append_left _ hc)
      simp only [this, hw c hc, Bool.and_self])
  have h2 := rd_mid (pre ++ w) a (x ++ 0#8 :: rest)
  have h3 := scanWhile_spec (p := fun c => decide (c ≠ 0#8) && !tok (promote sg c)) (y := 0#8)
    (rest := rest) (by simp) x (pre ++ w ++ [a]) (fun c hc => by
      have := ne0_of h0 c (List.mem_append_right _ (List.mem_cons_of_mem _ hc))
      simp only [this, hx c (List.mem_cons_of_mem _ hc), Bool.not_false, Bool.and_self])
  have h4 := rd_mid (pre ++ w ++ a :: x) 0#8 rest
  simp only [List.append_assoc, List.length_append, List.cons_append, List.nil_append,
    List.length_cons, List.length_nil, Nat.zero_add, ← Nat.add_assoc] at h1 h2 h3 h4
  have e : pre.length + w.length + x.length + 1 = pre.length + w.length + 1 + x.length := by omega
  rw [e] at h4
  simp only [multisplit, h1, Option.bind_eq_bind, Option.bind_some, h2, if_false, ha0,
    List.append_assoc, List.cons_append, List.length_cons, h3, h4, ne_eq, not_true_eq_false]
  simp only [pure, Option.some.injEq, Piece.mk.injEq, true_and]
  omega

theorem multisplit_piece (pre w : Buf) (a : Byte) (x : Buf) (d : Byte) (rest : Buf)
    (hw : ∀ c ∈ w, tok (promote sg c) = true)
    (hx : ∀ c ∈ a :: x, tok (promote sg c) = false) (hd : tok (promote sg d) = true)
    (hd0 : d ≠ 0#8) (h0 : 0#8 ∉ w ++ a :: x) :
    multisplit sg tok (pre ++ (w ++ (a :: x) ++ d :: rest)) pre.length =
      some ⟨SUCCESS, some (pre.length + w.length), pre ++ (w ++ (a :: x) ++ 0#8 :: rest),
        pre.length + w.length + (a :: x).length + 1⟩ := by
  have ha0 : a ≠ 0#8 := by rintro rfl; exact h0 (by simp)
  have h1 := scanWhile_spec (p := fun c => decide (c ≠ 0#8) && tok (promote sg c)) (y := a)
    (rest := x ++ d :: rest) (by simp [hx a]) w pre (fun c hc => by
      have := ne0_of h0 c (List.mem_append_left _ hc)
      simp only [this, hw c hc, Bool.and_self])
  have h2 := rd_mid (pre ++ w) a (x ++ d :: rest)
  have h3 := scanWhile_spec (p := fun c => decide (c ≠ 0#8) && !tok (promote sg c)) (y := d)
    (rest := rest) (by simp [hd]) x (pre ++ w ++ [a]) (fun c hc => by
      have := ne0_of h0 c (List.mem_append_right _ (List.mem_cons_of_mem _ hc))
      simp only [this, hx c (List.mem_cons_of_mem _ hc), Bool.not_false, Bool.and_self])
  have h4 := rd_mid (pre ++ w ++ a :: x) d rest
  have h5 := wr_mid (pre ++ w ++ a :: x) d 0#8 rest
  simp only [List.append_assoc, List.length_append, List.cons_append, List.nil_append,
    List.length_cons, List.length_nil, Nat.zero_add, ← Nat.add_assoc] at h1 h2 h3 h4 h5
  have e : pre.length + w.length + x.length + 1 = pre.length + w.length + 1 + x.length := by omega
  rw [e] at h4 h5
  simp only [multisplit, h1, Option.bind_eq_bind, Option.bind_some, h2, if_false, ha0,
    List.append_assoc, List.cons_append, List.length_cons, h3, h4, ne_eq, hd0, not_false_eq_true,
    if_true, h5]
  simp only [pure, Option.some.injEq, Piece.mk.injEq, true_and]
  omega

theorem words_eq_multisplit : words sg = multisplit sg isWhitespace := rfl

/-- What a complete iteration over `t` (found after `pre`) gives. -/
theorem collect_multisplit (rest : Buf) (fuel : Nat) : ∀ (t pre : Buf), 0#8 ∉ t → t.length < fuel →
    ∃ (qs : List Nat) (t' : Buf),
      collect (multisplit sg tok) fuel (pre ++ (t ++ 0#8 :: rest)) pre.length =
        some (qs, ⟨ERROR_STRING_END_OF_INPUT, none, pre ++ (t' ++ 0#8 :: rest),
          pre.length + t.length⟩) ∧
      t'.length = t.length ∧
      qs.map (cstr (pre ++ (t' ++ 0#8 :: rest))) = pieces (fun c => tok (promote sg c)) t := by
  induction fuel with
  | zero => intro t pre _ h; omega
  | succ fuel ih =>
    intro t pre h0 hf
    obtain ⟨w, u, rfl, hw, hu⟩ := span_decomp (fun c => tok (promote sg c)) t
    cases u with
    | nil =>
      refine ⟨[], w, ?_, by simp, ?_⟩
      · simp only [List.append_nil] at h0 ⊢
        simp only [collect, multisplit_end sg tok pre w rest hw h0, Option.bind_eq_bind,
          Option.bind_some]
        rfl
      · rw [pieces_skip hw]; simp [pieces]
    | cons a u =>
      have ha := hu a u rfl
      obtain ⟨x, v, rfl, hx, hv⟩ := span_decomp (fun c => !tok (promote sg c)) u
      have hx' : ∀ c ∈ a :: x, tok (promote sg c) = false := by
        intro c hc
        rcases List.mem_cons.1 hc with rfl | hc
        · exact ha
        · simpa using hx c hc
      cases v with
      | nil =>
        simp only [List.append_nil] at h0 hf ⊢
        have hm := multisplit_last sg tok pre w a x rest hw hx' h0
        obtain ⟨qs, t', hc, hl, hp⟩ := ih [] (pre ++ (w ++ a :: x)) (by simp) (by simp at hf ⊢; omega)
        have ht' : t' = [] := by simpa using hl
        subst ht'
        refine ⟨(pre.length + w.length) :: qs, w ++ a :: x, ?_, by simp, ?_⟩
        · simp only [collect, hm, Option.bind_eq_bind, Option.bind_some]
          have e1 : pre ++ (w ++ a :: x ++ 0#8 :: rest) =
            pre ++ (w ++ a :: x) ++ ([] ++ 0#8 :: rest) := by simp
          have e2 : pre.length + w.length + (a :: x).length = (pre ++ (w ++ a :: x)).length := by
            simp; omega
          rw [e1, e2, hc]
          simp
        · rw [pieces_skip hw, pieces_last hx' (by simp)]
          have e1 : pre ++ (w ++ a :: x ++ 0#8 :: rest) =
            pre ++ (w ++ a :: x) ++ ([] ++ 0#8 :: rest) := by simp
          have e3 : pre ++ (w ++ a :: x ++ 0#8 :: rest) =
            (pre ++ w) ++ ((a :: x) ++ 0#8 :: rest) := by simp
          have hq : cstr ((pre ++ w) ++ ((a :: x) ++ 0#8 :: rest)) (pre ++ w).length = a :: x :=
            cstr_mid (fun h => h0 (List.mem_append_right _ h)) _ _
          rw [← e3, List.length_append] at hq
          rw [← e1] at hp
          rw [List.map_cons, hq, hp]
          rfl
      | cons d v =>
        have hd : tok (promote sg d) = true := by simpa using hv d v rfl
        have hd0 : d ≠ 0#8 := by rintro rfl; exact h0 (by simp)
        have h0x : 0#8 ∉ w ++ a :: x := fun h => h0 (by
          simp only [List.mem_append, List.mem_cons] at h ⊢
          rcases h with h | h | h <;> simp [h])
        have h0v : 0#8 ∉ v := fun h => h0 (by simp [h])
        have hm := multisplit_piece sg tok pre w a x d (v ++ 0#8 :: rest) hw hx' hd hd0 h0x
        obtain ⟨qs, t', hc, hl, hp⟩ := ih v (pre ++ (w ++ a :: x ++ [0#8])) h0v
          (by simp at hf ⊢; omega)
        refine ⟨(pre.length + w.length) :: qs, w ++ a :: x ++ 0#8 :: t', ?_, by simp [hl], ?_⟩
        · have e0 : pre ++ (w ++ a :: (x ++ d :: v) ++ 0#8 :: rest) =
            pre ++ (w ++ (a :: x) ++ d :: (v ++ 0#8 :: rest)) := by simp
          have e1 : pre ++ (w ++ a :: x ++ 0#8 :: (v ++ 0#8 :: rest)) =
            pre ++ (w ++ a :: x ++ [0#8]) ++ (v ++ 0#8 :: rest) := by simp
          have e2 : pre.length + w.length + (a :: x).length + 1 =
            (pre ++ (w ++ a :: x ++ [0#8])).length := by
            simp; omega
          rw [e0]
          simp only [collect, hm, Option.bind_eq_bind, Option.bind_some]
          rw [e1, e2, hc]
          simp [pure, Nat.add_assoc]
          omega
        · have e : w ++ a :: (x ++ d :: v) = w ++ ((a :: x) ++ d :: v) := by simp
          rw [e, pieces_skip hw, pieces_cons hx' (by simp) hd]
          have e1 : pre ++ (w ++ a :: x ++ 0#8 :: t' ++ 0#8 :: rest) =
            pre ++ (w ++ a :: x ++ [0#8]) ++ (t' ++ 0#8 :: rest) := by simp
          have e3 : pre ++ (w ++ a :: x ++ 0#8 :: t' ++ 0#8 :: rest) =
            (pre ++ w) ++ ((a :: x) ++ 0#8 :: (t' ++ 0#8 :: rest)) := by simp
          have hq : cstr ((pre ++ w) ++ ((a :: x) ++ 0#8 :: (t' ++ 0#8 :: rest)))
              (pre ++ w).length = a :: x :=
            cstr_mid (fun h => h0x (List.mem_append_right _ h)) _ _
          rw [← e3, List.length_append] at hq
          rw [← e1] at hp
          rw [List.map_cons, hq, hp]

end Rcpr.Str
