import Verif.StrProof

/-!
Properties C13, C14, C15, C16: the string utilities.

A NUL-terminated string in memory is a buffer `s ++ 0 :: rest` with `0 ∉ s`: `rest` is whatever
follows the terminator in the same object, possibly nothing. "No access outside the string and its
terminator" is the absence of undefined behaviour for `rest = []`.
-/
namespace Rcpr.Str

open Rcpr

/-! ## C13 -/

/-- C13 (left_trim): the buffer then holds the string without its leading whitespace; its length is
unchanged, and nothing beyond the original terminator changes. -/
theorem left_trim_strips (sg : Bool) (s : List Byte) (h : 0#8 ∉ s) (rest : Buf) :
    ∃ b' junk, leftTrim sg (s ++ 0#8 :: rest) = some b' ∧ b' = lstrip s ++ 0#8 :: (junk ++ rest) ∧
      junk.length = s.length - (lstrip s).length ∧ leftTrim sg b' = some b' := by
  obtain ⟨w, e, hw, hn⟩ := lstrip_decomp s
  have h0 : 0#8 ∉ lstrip s := fun hm => h (lstrip_mem hm)
  have hlen : w.length + (lstrip s).length = s.length := by
    have := congrArg List.length e; simp at this; omega
  have hd : (s ++ 0#8 :: rest).drop ((lstrip s).length + 1) =
      (s ++ [0#8]).drop ((lstrip s).length + 1) ++ rest := by
    have : s ++ 0#8 :: rest = (s ++ [0#8]) ++ rest := by simp
    rw [this, List.drop_append_of_le_length (by simp; omega)]
  refine ⟨_, (s ++ [0#8]).drop ((lstrip s).length + 1), leftTrim_eq sg h rest, by rw [hd],
    by simp, ?_⟩
  rw [leftTrim_eq sg h0, lstrip_idem]
  have e' : ∀ j : Buf, (lstrip s ++ 0#8 :: j).drop ((lstrip s).length + 1) = j := by
    intro j
    have : lstrip s ++ 0#8 :: j = (lstrip s ++ [0#8]) ++ j := by simp
    rw [this, List.drop_left' (by simp)]
  rw [e']

/-- C13 (right_trim): the buffer then holds the string without its trailing whitespace; its length
is unchanged, and nothing beyond the original terminator changes. -/
theorem right_trim_strips (sg : Bool) (s : List Byte) (h : 0#8 ∉ s) (rest : Buf) :
    ∃ b' junk, rightTrim sg (s ++ 0#8 :: rest) = some b' ∧ b' = rstrip s ++ 0#8 :: (junk ++ rest) ∧
      junk.length = s.length - (rstrip s).length ∧ rightTrim sg b' = some b' := by
  obtain ⟨w, e, hw, hn⟩ := rstrip_decomp s
  have h0 : 0#8 ∉ rstrip s := fun hm => h (rstrip_mem hm)
  have hlen : (rstrip s).length + w.length = s.length := by
    have := congrArg List.length e; simp at this; omega
  have hd : (s ++ 0#8 :: rest).drop ((rstrip s).length + 1) =
      (s ++ [0#8]).drop ((rstrip s).length + 1) ++ rest := by
    have : s ++ 0#8 :: rest = (s ++ [0#8]) ++ rest := by simp
    rw [this, List.drop_append_of_le_length (by simp; omega)]
  refine ⟨_, (s ++ [0#8]).drop ((rstrip s).length + 1), rightTrim_eq sg h rest, by rw [hd],
    by simp, ?_⟩
  rw [rightTrim_eq sg h0, rstrip_idem]
  have e' : ∀ j : Buf, (rstrip s ++ 0#8 :: j).drop ((rstrip s).length + 1) = j := by
    intro j
    have : rstrip s ++ 0#8 :: j = (rstrip s ++ [0#8]) ++ j := by simp
    rw [this, List.drop_left' (by simp)]
  rw [e']

/-- C13 (trim): both ends. -/
theorem trim_strips (sg : Bool) (s : List Byte) (h : 0#8 ∉ s) (rest : Buf) :
    ∃ b' junk, trim sg (s ++ 0#8 :: rest) = some b' ∧
      b' = lstrip (rstrip s) ++ 0#8 :: (junk ++ rest) ∧
      junk.length = s.length - (lstrip (rstrip s)).length ∧ trim sg b' = some b' := by
  obtain ⟨b1, j1, h1, e1, l1, _⟩ := right_trim_strips sg s h rest
  have hr : 0#8 ∉ rstrip s := fun hm => h (rstrip_mem hm)
  obtain ⟨b2, j2, h2, e2, l2, i2⟩ := left_trim_strips sg (rstrip s) hr (j1 ++ rest)
  have hl : 0#8 ∉ lstrip (rstrip s) := fun hm => hr (lstrip_mem hm)
  have len1 : (rstrip s).length ≤ s.length := by
    obtain ⟨w, e, _⟩ := rstrip_decomp s
    have := congrArg List.length e; simp at this; omega
  have len2 : (lstrip (rstrip s)).length ≤ (rstrip s).length := by
    obtain ⟨w, e, _⟩ := lstrip_decomp (rstrip s)
    have := congrArg List.length e; simp at this; omega
  refine ⟨b2, j2 ++ j1, ?_, by rw [e2]; simp, by simp; omega, ?_⟩
  · simp only [trim, h1, Option.bind_eq_bind, Option.bind_some]
    rw [e1]; exact h2
  · obtain ⟨b3, j3, h3, e3, l3, _⟩ := right_trim_strips sg _ hl (j2 ++ (j1 ++ rest))
    rw [rstrip_lstrip_rstrip] at e3 l3
    have : j3 = [] := by simpa using l3
    subst this
    have hb : b3 = b2 := by rw [e2, e3]; simp
    subst hb
    have h3' : rightTrim sg b3 = some b3 := by rw [← e2] at h3; exact h3
    simp only [trim, h3', Option.bind_eq_bind, Option.bind_some]
    exact i2

/-- what `lstrip` and `rstrip` mean: the maximal whitespace prefix or suffix goes -/
theorem strip_meaning (s : List Byte) :
    (∃ w, s = w ++ lstrip s ∧ (∀ c ∈ w, ws c = true) ∧ ∀ c t, lstrip s = c :: t → ws c = false) ∧
    (∃ w, s = rstrip s ++ w ∧ (∀ c ∈ w, ws c = true) ∧ ∀ c t, rstrip s = t ++ [c] → ws c = false) :=
  ⟨lstrip_decomp s, rstrip_decomp s⟩

/-- C13 (chomp): the last character goes, the empty string stays empty. -/
theorem chomp_removes_last (s : List Byte) (h : 0#8 ∉ s) (rest : Buf) :
    (s = [] → chomp (s ++ 0#8 :: rest) = some (s ++ 0#8 :: rest)) ∧
    (∀ t c, s = t ++ [c] → chomp (s ++ 0#8 :: rest) = some (t ++ 0#8 :: 0#8 :: rest)) := by
  constructor
  · rintro rfl; simp [chomp, rd]
  · rintro t c rfl
    have h1 := scanEnd0 h rest
    have h2 := wr_mid t c 0#8 (0#8 :: rest)
    have hr : ∃ a, rd (t ++ [c] ++ 0#8 :: rest) 0 = some a ∧ a ≠ 0#8 := by
      cases t with
      | nil => exact ⟨c, rfl, by rintro rfl; exact h (by simp)⟩
      | cons a t => exact ⟨a, rfl, by rintro rfl; exact h (by simp)⟩
    obtain ⟨a, hr, ha⟩ := hr
    simp only [chomp, hr, h1, Option.bind_eq_bind, Option.bind_some, ha, if_false]
    simpa using h2

-- "\t ab c \n" followed by a byte 7 that must not change
example : leftTrim true [9, 32, 97, 98, 32, 99, 32, 10, 0, 7] =
    some [97, 98, 32, 99, 32, 10, 0, 10, 0, 7] := by
  have := leftTrim_eq true (s := [9, 32, 97, 98, 32, 99, 32, 10]) (by decide) [7]
  exact this
example : lstrip (rstrip [9, 32, 97, 98, 32, 99, 32, 10]) = [97, 98, 32, 99] := by decide
example : (0#8 ∉ ([9, 32, 97, 98, 32, 99, 32, 10] : List Byte)) := by decide

/-! ## C14 -/

/-- C14 (multisplit): for every token predicate and string, calling the iterator until it stops
succeeding returns pointers at which the final buffer holds exactly the maximal separator-free runs
of the string, in order; it then reports end-of-input with a NULL sequence, and keeps doing so. The
buffer keeps its length and nothing from the terminator on changes. -/
theorem multisplit_yields_pieces (sg : Bool) (tok : Int → Bool) (s : List Byte) (h : 0#8 ∉ s)
    (rest : Buf) (fuel : Nat) (hf : s.length < fuel) :
    ∃ qs s' start, collect (multisplit sg tok) fuel (s ++ 0#8 :: rest) 0 =
        some (qs, ⟨ERROR_STRING_END_OF_INPUT, none, s' ++ 0#8 :: rest, start⟩) ∧
      s'.length = s.length ∧
      qs.map (cstr (s' ++ 0#8 :: rest)) = pieces (fun c => tok (promote sg c)) s ∧
      multisplit sg tok (s' ++ 0#8 :: rest) start =
        some ⟨ERROR_STRING_END_OF_INPUT, none, s' ++ 0#8 :: rest, start⟩ := by
  obtain ⟨qs, s', hc, hl, hp⟩ := collect_multisplit sg tok rest fuel s [] h hf
  simp only [List.nil_append, List.length_nil, Nat.zero_add] at hc hp
  refine ⟨qs, s', _, hc, hl, hp, ?_⟩
  have := multisplit_end sg tok s' [] rest (by simp) (by simp)
  simpa [hl] using this

/-- C14 (words): the same with whitespace as separators. -/
theorem words_yields_pieces (sg : Bool) (s : List Byte) (h : 0#8 ∉ s)
    (rest : Buf) (fuel : Nat) (hf : s.length < fuel) :
    ∃ qs s' start, collect (words sg) fuel (s ++ 0#8 :: rest) 0 =
        some (qs, ⟨ERROR_STRING_END_OF_INPUT, none, s' ++ 0#8 :: rest, start⟩) ∧
      s'.length = s.length ∧
      qs.map (cstr (s' ++ 0#8 :: rest)) = pieces ws s ∧
      words sg (s' ++ 0#8 :: rest) start =
        some ⟨ERROR_STRING_END_OF_INPUT, none, s' ++ 0#8 :: rest, start⟩ := by
  have e : (fun c => isWhitespace (promote sg c)) = ws := funext (isWhitespace_promote sg)
  have := multisplit_yields_pieces sg isWhitespace s h rest fuel hf
  rw [e] at this
  rw [words_eq_multisplit]
  exact this

/-- what `pieces` means: joined with separators they give the string back, none is empty, none
contains a separator -/
theorem pieces_meaning (p : Byte → Bool) (s : List Byte) :
    (pieces p s).flatten = s.filter (fun c => !p c) ∧
    (∀ x ∈ pieces p s, x ≠ [] ∧ ∀ c ∈ x, p c = false) ∧
    (∀ w t, s = w ++ t → (∀ c ∈ w, p c = true) → pieces p s = pieces p t) ∧
    (∀ x d t, s = x ++ d :: t → x ≠ [] → (∀ c ∈ x, p c = false) → p d = true →
      pieces p s = x :: pieces p t) := by
  have key : ∀ n, ∀ s : List Byte, s.length ≤ n → (pieces p s).flatten = s.filter (fun c => !p c) ∧
      (∀ x ∈ pieces p s, x ≠ [] ∧ ∀ c ∈ x, p c = false) := by
    intro n
    induction n with
    | zero =>
      intro s hs
      have : s = [] := by simpa using hs
      subst this; simp [pieces]
    | succ n ih =>
      intro s hs
      obtain ⟨w, u, rfl, hw, hu⟩ := span_decomp p s
      rw [pieces_skip hw]
      have fw : w.filter (fun c => !p c) = [] := by
        rw [List.filter_eq_nil_iff]; intro c hc; simp [hw c hc]
      rw [List.filter_append, fw, List.nil_append]
      cases u with
      | nil => simp [pieces]
      | cons a u =>
        obtain ⟨x, v, rfl, hx, hv⟩ := span_decomp (fun c => !p c) u
        have ha := hu a _ rfl
        have hx' : ∀ c ∈ a :: x, p c = false := by
          intro c hc
          rcases List.mem_cons.1 hc with rfl | hc
          · exact ha
          · simpa using hx c hc
        have fx : (a :: x).filter (fun c => !p c) = a :: x := by
          rw [List.filter_eq_self]; intro c hc; simp [hx' c hc]
        cases v with
        | nil =>
          simp only [List.append_nil]
          rw [pieces_last hx' (by simp), fx]
          exact ⟨by simp, by intro y hy; simp at hy; subst hy; exact ⟨by simp, hx'⟩⟩
        | cons d v =>
          have hd : p d = true := by simpa using hv d v rfl
          have e : a :: (x ++ d :: v) = (a :: x) ++ d :: v := by simp
          rw [e, pieces_cons hx' (by simp) hd]
          obtain ⟨i1, i2⟩ := ih v (by simp at hs; omega)
          refine ⟨?_, ?_⟩
          · rw [List.flatten_cons, i1, List.filter_append, fx]
            simp [hd]
          · intro y hy
            rcases List.mem_cons.1 hy with rfl | hy
            · exact ⟨by simp, hx'⟩
            · exact i2 y hy
  refine ⟨(key _ s (Nat.le_refl _)).1, (key _ s (Nat.le_refl _)).2, ?_, ?_⟩
  · rintro w t rfl hw; exact pieces_skip hw
  · rintro x d t rfl hn hx hd; exact pieces_cons hx hn hd t

-- " ab  c " has the words "ab" and "c"
example : pieces ws [32, 97, 98, 32, 32, 99, 32] = [[97, 98], [99]] := by decide +kernel
example : (0#8 ∉ ([32, 97, 98, 32, 32, 99, 32] : List Byte)) ∧
    ([32, 97, 98, 32, 32, 99, 32] : List Byte).length < 8 := by decide

/-- C14 (split): the halves around the first occurrence of the delimiter; otherwise end of input,
NULL pointers and an unchanged buffer. -/
theorem split_halves (sg : Bool) (s : List Byte) (h : 0#8 ∉ s) (rest : Buf) (d : Byte)
    (hd0 : d ≠ 0#8) :
    (∀ l r, s = l ++ d :: r → d ∉ l →
      ∃ b', split sg (s ++ 0#8 :: rest) (promote sg d) =
          some ⟨SUCCESS, some 0, some (l.length + 1), b'⟩ ∧
        cstr b' 0 = l ∧ cstr b' (l.length + 1) = r ∧ b' = l ++ 0#8 :: r ++ 0#8 :: rest) ∧
    (d ∉ s → split sg (s ++ 0#8 :: rest) (promote sg d) =
      some ⟨ERROR_STRING_END_OF_INPUT, none, none, s ++ 0#8 :: rest⟩) := by
  have hne : ∀ c : Byte, c ≠ d → (promote sg c != promote sg d) = true := by
    intro c hc
    simp only [bne_iff_ne, ne_eq]
    exact fun e => hc (promote_inj sg e)
  constructor
  · rintro l r rfl hl
    have h0l : 0#8 ∉ l := fun hm => h (by simp [hm])
    have h0r : 0#8 ∉ r := fun hm => h (by simp [hm])
    have h1 := scanWhile_spec0 (p := fun c => decide (c ≠ 0#8) && promote sg c != promote sg d)
      (y := d) (rest := r ++ 0#8 :: rest) (by simp) l (fun c hc => by
        have := ne0_of h0l c hc
        have := hne c (fun e => hl (e ▸ hc))
        simp_all)
    have h2 := rd_mid l d (r ++ 0#8 :: rest)
    have h3 := wr_mid l d 0#8 (r ++ 0#8 :: rest)
    refine ⟨l ++ 0#8 :: (r ++ 0#8 :: rest), ?_, ?_, ?_, by simp⟩
    · simp only [split, List.append_assoc, List.cons_append, h1, h2, h3, Option.bind_eq_bind,
        Option.bind_some, hd0, if_false]
      rfl
    · have := cstr_mid h0l [] (r ++ 0#8 :: rest)
      simpa using this
    · have := cstr_mid h0r (l ++ [0#8]) rest
      simpa using this
  · intro hds
    have h1 := scanWhile_spec0 (p := fun c => decide (c ≠ 0#8) && promote sg c != promote sg d)
      (y := 0#8) (rest := rest) (by simp) s (fun c hc => by
        have := ne0_of h c hc
        have := hne c (fun e => hds (e ▸ hc))
        simp_all)
    have h2 := rd_mid s 0#8 rest
    simp only [split, h1, h2, Option.bind_eq_bind, Option.bind_some, if_true]
    rfl

-- "a=b=c" cut at '='
example : ([97, 61, 98, 61, 99] : List Byte) = [97] ++ 61 :: [98, 61, 99] ∧
    (61#8 ∉ ([97] : List Byte)) ∧ 0#8 ∉ ([97, 61, 98, 61, 99] : List Byte) := by decide

/-! ## C15 -/

/-- C15: `starts_with` decides the prefix relation. -/
theorem starts_with_iff_prefix (s t : List Byte) (hs : 0#8 ∉ s) (ht : 0#8 ∉ t) (rs rt : Buf) :
    startsWith (some (s ++ 0#8 :: rs)) (some (t ++ 0#8 :: rt)) = some (decide (t <+: s)) := by
  simp only [startsWith, strlen_spec hs, strlen_spec ht, Option.bind_eq_bind, Option.bind_some]
  by_cases hl : s.length < t.length
  · have : ¬ t <+: s := fun hp => by have := hp.length_le; omega
    simp [hl, this]
  · have hm : memeq (s ++ 0#8 :: rs) (t ++ 0#8 :: rt) t.length =
        some (s.take t.length == t) := by
      simp only [memeq]
      rw [if_pos (by simp; omega)]
      rw [List.take_append_of_le_length (by omega), List.take_append_of_le_length (by omega),
        List.take_length]
    simp only [hl, if_false, hm, Option.bind_some]
    by_cases hp : t <+: s
    · have : s.take t.length = t := (List.prefix_iff_eq_take.1 hp).symm
      simp [hp, this]
    · have : s.take t.length ≠ t := fun e => hp (e ▸ List.take_prefix _ _)
      simp [hp, this]

/-- C15: a NULL substring is a prefix of everything, a NULL string has only the NULL prefix. -/
theorem starts_with_null (b : Option Buf) (t : Buf) :
    startsWith b none = some true ∧ startsWith none (some t) = some false := ⟨rfl, rfl⟩

example : ([97, 98] : List Byte) <+: [97, 98, 99] := by decide
example : ¬ ([97, 99] : List Byte) <+: [97, 98, 99] := by decide

/-- C15: `ends_with(s, c)` for a character `c` passed as `char`: true exactly when the string is
non-empty and its last character is `c`. -/
theorem ends_with_iff (sg : Bool) (s : List Byte) (hs : 0#8 ∉ s) (rest : Buf) (c : Byte) :
    endsWith sg (s ++ 0#8 :: rest) (promote sg c) = some (decide (s.getLast? = some c)) := by
  rcases List.eq_nil_or_concat s with rfl | ⟨t, x, rfl⟩
  · simp [endsWith, rd]
  · have h1 := scanEnd0 hs rest
    have hr : ∃ a, rd (t.concat x ++ 0#8 :: rest) 0 = some a ∧ a ≠ 0#8 := by
      cases t with
      | nil => exact ⟨x, rfl, by rintro rfl; exact hs (by simp)⟩
      | cons a t => exact ⟨a, rfl, by rintro rfl; exact hs (by simp)⟩
    obtain ⟨a, hr, ha⟩ := hr
    have h2 : rd (t.concat x ++ 0#8 :: rest) ((t.concat x).length - 1) = some x := by
      have := rd_mid t x (0#8 :: rest)
      simpa using this
    simp only [endsWith, hr, h1, h2, Option.bind_eq_bind, Option.bind_some, ha, if_false]
    by_cases hx : x = c
    · subst hx
      simp
    · have hp : promote sg x ≠ promote sg c := fun e => hx (promote_inj sg e)
      simp [hx, hp]

/-- C15, the documented contract: an ASCII code 1..127 passed as an `int`. -/
theorem ends_with_ascii (sg : Bool) (s : List Byte) (hs : 0#8 ∉ s) (rest : Buf) (n : Nat)
    (hn : 1 ≤ n ∧ n ≤ 127) :
    endsWith sg (s ++ 0#8 :: rest) (n : Int) =
      some (decide (s.getLast? = some (BitVec.ofNat 8 n))) := by
  have : promote sg (BitVec.ofNat 8 n) = (n : Int) := by
    have h : ∀ sg : Bool, ∀ n : Fin 128, promote sg (BitVec.ofNat 8 n) = (n.val : Int) := by
      decide +kernel
    exact h sg ⟨n, by omega⟩
  rw [← this]
  exact ends_with_iff sg s hs rest _

/-- Beyond ASCII the test depends on the signedness of `char`: with a signed `char`, the code 200
is never found, although the string ends with that byte. -/
theorem ends_with_non_ascii_signed :
    endsWith true [200#8, 0#8] 200 = some false ∧ endsWith false [200#8, 0#8] 200 = some true := by
  have h : scanWhile [200#8, 0#8] (fun c => decide (c ≠ 0#8)) 0 = some 1 :=
    scanEnd0 (s := [200#8]) (by decide) []
  constructor <;> simp [endsWith, rd] <;> rw [show scanWhile [200#8, 0#8] (fun c => !decide (c = 0#8)) 0 = some 1 by
    simpa using h] <;> decide

example : ([97, 98] : List Byte).getLast? = some 98 := rfl

/-! ## C16 -/

/-- An allocator that, when it succeeds, returns a block of the requested size with arbitrary
contents. -/
def GoodAlloc (alloc : Nat → Status × Option Buf) : Prop :=
  ∀ n, match alloc n with
    | (st, none) => st ≠ SUCCESS
    | (_, some blk) => blk.length = n

/-- C16 (strdup): an exact copy filling exactly a new block, or the allocator's error and NULL; a
NULL allocator or input is rejected. -/
theorem strdup_copies (alloc : Nat → Status × Option Buf) (ha : GoodAlloc alloc) (s : List Byte)
    (h : 0#8 ∉ s) (rest : Buf) :
    (∃ st, alloc (s.length + 1) = (st, none) ∧
      strdup (some alloc) (some (s ++ 0#8 :: rest)) = some (st, none)) ∨
    (∃ st blk, alloc (s.length + 1) = (st, some blk) ∧
      strdup (some alloc) (some (s ++ 0#8 :: rest)) = some (SUCCESS, some (s ++ [0#8]))) := by
  have hA := ha (s.length + 1)
  simp only [strdup, strlen_spec h, Option.bind_eq_bind, Option.bind_some]
  rcases he : alloc (s.length + 1) with ⟨st, _ | blk⟩
  · exact Or.inl ⟨st, rfl, rfl⟩
  · refine Or.inr ⟨st, blk, rfl, ?_⟩
    rw [he] at hA
    simp only at hA
    have hm : memcpy blk 0 (s ++ 0#8 :: rest) s.length = some (s ++ blk.drop s.length) := by
      simp [memcpy, hA]
    have hd : ∃ x, blk.drop s.length = [x] := by
      have : (blk.drop s.length).length = 1 := by simp [hA]
      exact List.length_eq_one_iff.1 this
    obtain ⟨x, hx⟩ := hd
    rw [hx] at hm
    simp only [hm, Option.bind_some, wr_mid]
    rfl

/-- C16 (strdup): parameter checks. -/
theorem strdup_invalid (alloc : Option (Nat → Status × Option Buf)) (input : Option Buf) :
    strdup none input = some (ERROR_STRING_INVALID_PARAMETER, none) ∧
    strdup alloc none = some (ERROR_STRING_INVALID_PARAMETER, none) := by
  constructor
  · rfl
  · cases alloc <;> rfl

/-- a string argument in memory -/
def asArg (a : List Byte × Buf) : Buf := a.1 ++ 0#8 :: a.2

theorem catSize_eq (args : List (List Byte × Buf)) (h : ∀ a ∈ args, 0#8 ∉ a.1) (n : Nat) :
    catSize (BitVec.ofNat 64 n) (args.map asArg) =
      some (BitVec.ofNat 64 (n + (args.map Prod.fst).flatten.length)) := by
  induction args generalizing n with
  | nil => simp [catSize]
  | cons a args ih =>
    have h1 := strlen_spec (h a List.mem_cons_self) a.2
    have h2 := ih (fun b hb => h b (List.mem_cons_of_mem _ hb)) (n + a.1.length)
    simp only [List.map_cons, catSize, asArg, h1, Option.bind_eq_bind, Option.bind_some]
    rw [← BitVec.ofNat_add]
    rw [show args.map asArg = args.map (fun a => a.1 ++ 0#8 :: a.2) from rfl] at h2
    rw [show args.map asArg = args.map (fun a => a.1 ++ 0#8 :: a.2) from rfl, h2]
    simp [Nat.add_assoc]

theorem catCopy_eq (args : List (List Byte × Buf)) (h : ∀ a ∈ args, 0#8 ∉ a.1) :
    ∀ (pre tl : Buf), (args.map Prod.fst).flatten.length ≤ tl.length →
    catCopy (pre ++ tl) pre.length (args.map asArg) =
      some (pre ++ (args.map Prod.fst).flatten ++ tl.drop (args.map Prod.fst).flatten.length,
        pre.length + (args.map Prod.fst).flatten.length) := by
  induction args with
  | nil => simp [catCopy]
  | cons a args ih =>
    intro pre tl hl
    have h1 := strlen_spec (h a List.mem_cons_self) a.2
    simp only [List.map_cons, List.flatten_cons, List.length_append] at hl ⊢
    have hm : memcpy (pre ++ tl) pre.length (asArg a) a.1.length =
        some ((pre ++ a.1) ++ tl.drop a.1.length) := by
      unfold memcpy
      rw [if_pos (by simp [asArg]; omega)]
      simp [List.drop_append, asArg]
    have h2 := ih (fun b hb => h b (List.mem_cons_of_mem _ hb)) (pre ++ a.1)
      (tl.drop a.1.length) (by rw [List.length_drop]; omega)
    simp only [List.length_append] at h2
    simp only [catCopy, hm, Option.bind_eq_bind]
    rw [show strlen (asArg a) 0 = some a.1.length from h1]
    simp only [Option.bind_some, hm, h2]
    simp [Nat.add_assoc]

/-- C16 (vstrcat and strcat): any number of strings whose total length with terminator fits
`size_t`: exactly the concatenation with one terminator, filling the new block, or the
allocator's error. -/
theorem vstrcat_concatenates (alloc : Nat → Status × Option Buf) (ha : GoodAlloc alloc)
    (args : List (List Byte × Buf)) (h : ∀ a ∈ args, 0#8 ∉ a.1)
    (hfit : (args.map Prod.fst).flatten.length + 1 < 2 ^ 64) :
    let s := (args.map Prod.fst).flatten
    (∃ st, alloc (s.length + 1) = (st, none) ∧
      vstrcat alloc (args.map asArg) = some (st, none)) ∨
    (∃ st blk, alloc (s.length + 1) = (st, some blk) ∧
      vstrcat alloc (args.map asArg) = some (SUCCESS, some (s ++ [0#8]))) := by
  intro s
  have h1 := catSize_eq args h 1
  have hsz : (BitVec.ofNat 64 (1 + s.length)).toNat = s.length + 1 := by
    simp only [BitVec.toNat_ofNat]
    have : s.length + 1 < 2 ^ 64 := hfit
    rw [Nat.mod_eq_of_lt (by omega)]; omega
  have hA := ha (s.length + 1)
  simp only [vstrcat, h1, Option.bind_eq_bind, Option.bind_some]
  rw [show BitVec.ofNat 64 (1 + (args.map Prod.fst).flatten.length) = BitVec.ofNat 64 (1 + s.length)
    from rfl, hsz]
  rcases he : alloc (s.length + 1) with ⟨st, _ | blk⟩
  · exact Or.inl ⟨st, rfl, rfl⟩
  · refine Or.inr ⟨st, blk, rfl, ?_⟩
    rw [he] at hA
    simp only at hA
    have h2 := catCopy_eq args h [] blk (by show s.length ≤ _; omega)
    simp only [List.nil_append, List.length_nil, Nat.zero_add] at h2
    have hd : ∃ x, blk.drop s.length = [x] := by
      have : (blk.drop s.length).length = 1 := by simp [hA]
      exact List.length_eq_one_iff.1 this
    obtain ⟨x, hx⟩ := hd
    rw [show blk.drop (args.map Prod.fst).flatten.length = [x] from hx] at h2
    simp only [h2, Option.bind_some, wr_mid]
    rfl

-- an allocator that always succeeds, and "ab" ++ "" ++ "c"
example : GoodAlloc (fun n => (SUCCESS, some (List.replicate n 170#8))) := by
  intro n; simp
example : ∀ a ∈ ([([97, 98], []), ([], [1]), ([99], [])] : List (List Byte × Buf)), 0#8 ∉ a.1 := by
  decide

end Rcpr.Str
