import Verif.MandelFile

/-! Property C99: the files that the mandelbrot example writes are images. -/
namespace Rcpr.MandelFile

/-! ### Specification -/

/-- white space between the words of an image file -/
def blank (c : Char) : Bool := c = ' ' ∨ c = '\n' ∨ c = '\t' ∨ c = '\r'

/-- the words of a text; `cur` is the word that has been begun -/
def words (cur : List Char) : List Char → List (List Char)
  | [] => if cur = [] then [] else [cur]
  | c :: cs =>
    if blank c then (if cur = [] then words [] cs else cur :: words [] cs)
    else words (cur ++ [c]) cs

/-- the number that a word is, in decimal -/
def number (w : List Char) : Option Nat :=
  if w ≠ [] ∧ ∀ c ∈ w, 48 ≤ c.toNat ∧ c.toNat < 58 then some (w.foldl (fun a c => 10 * a + (c.toNat - 48)) 0) else none

/-- the numbers that some words are -/
def numbers : List (List Char) → Option (List Nat)
  | [] => some []
  | w :: ws => (number w).bind fun n => (numbers ws).map (n :: ·)

/-- A plain PPM file: the word P3, width, height, the greatest value of a sample, and for each pixel three samples, none greater than that. -/
structure Image where
  width : Nat
  height : Nat
  max : Nat
  samples : List Nat
  deriving DecidableEq

def readImage (text : List Char) : Option Image :=
  match words [] text with
  | ['P', '3'] :: ws =>
    match numbers ws with
    | some (w :: h :: m :: s) => if s.length = 3 * (w * h) ∧ ∀ x ∈ s, x ≤ m then some ⟨w, h, m, s⟩ else none
    | _ => none
  | _ => none

/-- the shade of a point that is left after `n` rounds -/
def shade (n : Nat) : Nat := if n < 1000 then n % 256 else 0

/-- `n` is the number of rounds for which the point stays inside, but at most 1000 -/
def Rounds (inside : Nat → Bool) (n : Nat) : Prop :=
  (∀ k, k < n → inside k = true) ∧ n ≤ 1000 ∧ (n < 1000 → inside n = false)

/-! ### Helper lemmas -/

theorem digit_val {n : Nat} (h : n < 10) : (digit n).toNat = 48 + n := by
  have : ∀ n : Fin 10, (digit n.1).toNat = 48 + n.1 := by decide
  exact this ⟨n, h⟩

theorem digit_blank {n : Nat} (h : n < 10) : blank (digit n) = false := by
  have : ∀ n : Fin 10, blank (digit n.1) = false := by decide
  exact this ⟨n, h⟩

/-- what is needed of a decimal -/
structure Decimal (w : List Char) (n : Nat) : Prop where
  ne : w ≠ []
  dig : ∀ c ∈ w, 48 ≤ c.toNat ∧ c.toNat < 58
  solid : ∀ c ∈ w, blank c = false
  val : w.foldl (fun a c => 10 * a + (c.toNat - 48)) 0 = n

theorem decF_ok : ∀ (f n : Nat), n ≤ f → Decimal (decF f n) n
  | 0, n, h => by
    have : n = 0 := by omega
    subst this
    exact ⟨by simp [decF], by decide, by decide, by decide⟩
  | f + 1, n, h => by
    unfold decF
    split
    · rename_i hn
      have v := digit_val hn
      refine ⟨by simp, ?_, ?_, ?_⟩
      · intro c hc; rw [List.mem_singleton.1 hc, v]; omega
      · intro c hc; rw [List.mem_singleton.1 hc]; exact digit_blank hn
      · simp only [List.foldl_cons, List.foldl_nil, v]; omega
    · rename_i hn
      obtain ⟨_, i2, i3, i4⟩ := decF_ok f (n / 10) (by omega)
      have hm : n % 10 < 10 := Nat.mod_lt _ (by decide)
      have v := digit_val hm
      refine ⟨by simp, ?_, ?_, ?_⟩
      · intro c hc
        rcases List.mem_append.1 hc with hc | hc
        · exact i2 c hc
        · rw [List.mem_singleton.1 hc, v]; omega
      · intro c hc
        rcases List.mem_append.1 hc with hc | hc
        · exact i3 c hc
        · rw [List.mem_singleton.1 hc]; exact digit_blank hm
      · rw [List.foldl_append, i4]
        simp only [List.foldl_cons, List.foldl_nil, v]; omega

theorem dec_ok (n : Nat) : Decimal (dec n) n := decF_ok n n (Nat.le_refl n)

theorem number_dec {w : List Char} {n : Nat} (h : Decimal w n) : number w = some n := by
  unfold number
  rw [if_pos ⟨h.ne, h.dig⟩, h.val]

theorem words_step : ∀ (w cur : List Char) (c : Char) (rest : List Char), (∀ x ∈ w, blank x = false) → blank c = true → cur ++ w ≠ [] →
    words cur (w ++ c :: rest) = (cur ++ w) :: words [] rest
  | [], cur, c, rest, _, hc, hn => by
    rw [List.append_nil] at hn ⊢
    simp [words, hc, hn]
  | x :: w, cur, c, rest, hw, hc, _ => by
    have hx : blank x = false := hw x (by simp)
    rw [List.cons_append]
    simp only [words, hx, Bool.false_eq_true, if_false]
    rw [words_step w (cur ++ [x]) c rest (fun y hy => hw y (by simp [hy])) hc (by simp)]
    simp

theorem words_dec {n : Nat} {c : Char} {rest : List Char} (hc : blank c = true) : words [] (dec n ++ c :: rest) = dec n :: words [] rest := by
  have := words_step (dec n) [] c rest (dec_ok n).solid hc (by simpa using (dec_ok n).ne)
  simpa using this

theorem words_sample (c : Int) (rest : List Char) :
    words [] (sample c ++ rest) = ['0'] :: ['0'] :: dec (asUnsigned c) :: words [] rest := by
  have e : sample c ++ rest = ['0'] ++ ' ' :: (['0'] ++ ' ' :: (dec (asUnsigned c) ++ ' ' :: rest)) := by simp [sample]
  rw [e, words_step _ _ _ _ (by decide) (by decide) (by decide), words_step _ _ _ _ (by decide) (by decide) (by decide), words_dec (by decide)]
  rfl

theorem words_line : ∀ (cs : List Int) (rest : List Char),
    words [] (cs.flatMap sample ++ '\n' :: rest) = cs.flatMap (fun c => [['0'], ['0'], dec (asUnsigned c)]) ++ words [] rest
  | [], rest => by simp [words, blank]
  | c :: cs, rest => by
    rw [List.flatMap_cons, List.append_assoc, words_sample, words_line cs rest]
    rfl

theorem words_lines : ∀ (rows : List (List Int)),
    words [] ((rows.map some).flatMap line) = rows.flatten.flatMap (fun c => [['0'], ['0'], dec (asUnsigned c)])
  | [] => rfl
  | r :: rows => by
    rw [List.map_cons, List.flatMap_cons, line, List.append_assoc, List.singleton_append, words_line, words_lines rows]
    simp

theorem numbers_pixels : ∀ (cs : List Int),
    numbers (cs.flatMap fun c => [['0'], ['0'], dec (asUnsigned c)]) = some (cs.flatMap fun c => [0, 0, asUnsigned c])
  | [] => rfl
  | c :: cs => by
    rw [List.flatMap_cons, List.flatMap_cons]
    have h0 : number ['0'] = some 0 := by decide
    simp [numbers, h0, number_dec (dec_ok _), numbers_pixels cs]

/-- the samples of a frame -/
def vals (rows : List (List Int)) : List Nat := rows.flatten.flatMap fun c => [0, 0, asUnsigned c]

theorem read_file (w h : Nat) (rows : List (List Int)) :
    readImage (file w h (rows.map some)) =
      if (vals rows).length = 3 * (w * h) ∧ ∀ x ∈ vals rows, x ≤ 255 then some ⟨w, h, 255, vals rows⟩ else none := by
  have e : file w h (rows.map some) = ['P', '3'] ++ '\n' :: (dec w ++ ' ' :: (dec h ++ '\n' :: (['2', '5', '5'] ++ '\n' :: (rows.map some).flatMap line))) := by
    simp [file, header]
  have hw : words [] (file w h (rows.map some)) =
      ['P', '3'] :: dec w :: dec h :: ['2', '5', '5'] :: rows.flatten.flatMap (fun c => [['0'], ['0'], dec (asUnsigned c)]) := by
    rw [e, words_step _ _ _ _ (by decide) (by decide) (by decide), words_dec (by decide), words_dec (by decide),
      words_step _ _ _ _ (by decide) (by decide) (by decide), words_lines]
    rfl
  have h255 : number ['2', '5', '5'] = some 255 := by decide
  unfold readImage
  rw [hw]
  simp only [numbers, number_dec (dec_ok _), h255, numbers_pixels, Option.bind_some, Option.map_some]
  rfl

theorem roundsFrom_ok (inside : Nat → Bool) : ∀ (n k : Nat), n + k = 1000 → (∀ i, i < k → inside i = true) → Rounds inside (roundsFrom inside n k)
  | 0, k, h, hk => ⟨hk, by simp only [roundsFrom]; omega, fun x => by simp only [roundsFrom] at x; omega⟩
  | n + 1, k, h, hk => by
    unfold roundsFrom
    split
    · rename_i hi
      refine roundsFrom_ok inside n (k + 1) (by omega) fun i hi' => ?_
      by_cases e : i = k
      · rw [e]; exact hi.1
      · exact hk i (by omega)
    · rename_i hi
      refine ⟨hk, by omega, fun x => ?_⟩
      simp only [maxRounds] at hi
      cases hx : inside k
      · rfl
      · exact absurd ⟨hx, x⟩ hi

theorem vals_length : ∀ (cs : List Int), (cs.flatMap fun c => [0, 0, asUnsigned c]).length = 3 * cs.length
  | [] => rfl
  | c :: cs => by rw [List.flatMap_cons, List.length_append, vals_length cs]; simp; omega

theorem flatten_length {α : Type} : ∀ (rows : List (List α)) (w : Nat), (∀ r ∈ rows, r.length = w) → rows.flatten.length = w * rows.length
  | [], w, _ => by simp
  | r :: rows, w, h => by
    rw [List.flatten_cons, List.length_append, flatten_length rows w (fun r hr => h r (by simp [hr])), h r (by simp), List.length_cons, Nat.mul_succ]
    omega

theorem flatMap_same {α β : Type} {f g : α → List β} : ∀ {l : List α}, (∀ a ∈ l, f a = g a) → l.flatMap f = l.flatMap g
  | [], _ => rfl
  | a :: l, h => by
    rw [List.flatMap_cons, List.flatMap_cons, h a (by simp), flatMap_same fun b hb => h b (by simp [hb])]

theorem drawn_flatten (signed : Bool) (rows : List (List (Nat → Bool))) : (rows.map (drawn signed)).flatten = rows.flatten.map (pixel signed) := by
  rw [List.map_flatten]
  rfl

/-- what is printed for a pixel -/
theorem printed (signed : Bool) (inside : Nat → Bool) :
    asUnsigned (pixel signed inside) =
      if signed = true ∧ 128 ≤ shade (rounds inside) then 2 ^ 32 - 256 + shade (rounds inside) else shade (rounds inside) := by
  unfold pixel shade asUnsigned toChar
  simp only [maxRounds, Nat.mod_mod]
  cases signed <;> grind

theorem rounds_unique {inside : Nat → Bool} {n m : Nat} (h : Rounds inside n) (h' : Rounds inside m) : n = m := by
  obtain ⟨a, b, c⟩ := h
  obtain ⟨a', b', c'⟩ := h'
  rcases Nat.lt_trichotomy n m with x | x | x
  · have := a' n x; have := c (by omega); grind
  · exact x
  · have := a m x; have := c' (by omega); grind

theorem shade_lt (n : Nat) : shade n < 256 := by
  unfold shade; split <;> omega

theorem decF_length : ∀ (d f n : Nat), n ≤ f → n < 10 ^ (d + 1) → (decF f n).length ≤ d + 1
  | d, 0, n, _, _ => by simp [decF]
  | d, f + 1, n, h, hd => by
    unfold decF
    split
    · simp
    · rename_i hn
      match d, hd with
      | 0, hd => omega
      | d + 1, hd =>
        have := decF_length d f (n / 10) (by omega) (by rw [Nat.pow_succ] at hd; omega)
        simp only [List.length_append, List.length_singleton]; omega

theorem padded_ok (i : Nat) (h : i < 2 ^ 64) : (padded i).length ≤ 20 ∧ (padded i).foldl (fun a c => 10 * a + (c.toNat - 48)) 0 = i := by
  have hl : (dec i).length ≤ 20 := decF_length 19 i i (Nat.le_refl i) (by omega)
  have hz : ∀ n : Nat, (List.replicate n '0').foldl (fun a c => 10 * a + (c.toNat - 48)) 0 = 0 := by
    intro n
    induction n with
    | zero => rfl
    | succ n ih => rw [List.replicate_succ, List.foldl_cons]; exact ih
  unfold padded
  constructor
  · rw [List.length_append, List.length_replicate]; omega
  · rw [List.foldl_append, hz, (dec_ok i).val]

/-! ### Theorems -/

/-- The worker counts the rounds. -/
theorem rounds_counts (inside : Nat → Bool) : Rounds inside (rounds inside) := roundsFrom_ok inside 1000 0 rfl nofun

/-- Where `char` is not signed, or no shade is above 127, the file of a complete frame is an image of the size asked for, in which
each pixel is blue with the shade of its point. -/
theorem frame_is_image_partial (signed : Bool) (w h : Nat) (rows : List (List (Nat → Bool))) (hh : rows.length = h) (hw : ∀ r ∈ rows, r.length = w)
    (hs : signed = true → ∀ r ∈ rows, ∀ inside ∈ r, ∀ n, Rounds inside n → shade n < 128) :
    readImage (file w h ((rows.map (drawn signed)).map some)) =
      some ⟨w, h, 255, rows.flatten.flatMap fun inside => [0, 0, shade (rounds inside)]⟩ := by
  have hp : ∀ inside ∈ rows.flatten, asUnsigned (pixel signed inside) = shade (rounds inside) := by
    intro inside hi
    obtain ⟨r, hr, hi⟩ := List.mem_flatten.1 hi
    rw [printed]
    refine if_neg fun x => ?_
    have := hs x.1 r hr inside hi _ (rounds_counts inside)
    omega
  have hv : vals (rows.map (drawn signed)) = rows.flatten.flatMap fun inside => [0, 0, shade (rounds inside)] := by
    unfold vals
    rw [drawn_flatten, List.flatMap_map]
    exact flatMap_same fun inside hi => by rw [hp inside hi]
  rw [read_file, hv, if_pos]
  constructor
  · rw [← hv, vals, vals_length, drawn_flatten, List.length_map, flatten_length rows w hw, hh]
  · intro x hx
    obtain ⟨inside, _, hx⟩ := List.mem_flatMap.1 hx
    have := shade_lt (rounds inside)
    simp only [List.mem_cons, List.not_mem_nil, or_false] at hx
    omega

/-- Where `char` is signed, a frame with one pixel of a shade above 127 is not an image: the file has a sample near 2^32. -/
theorem frame_is_image_violated (w h : Nat) (rows : List (List (Nat → Bool))) (r : List (Nat → Bool)) (hr : r ∈ rows) (inside : Nat → Bool)
    (hi : inside ∈ r) (n : Nat) (hn : Rounds inside n) (hd : 128 ≤ shade n) :
    readImage (file w h ((rows.map (drawn true)).map some)) = none := by
  rw [read_file, if_neg]
  rintro ⟨_, hx⟩
  have hm : asUnsigned (pixel true inside) ∈ vals (rows.map (drawn true)) := by
    unfold vals
    rw [drawn_flatten]
    exact List.mem_flatMap.2 ⟨_, List.mem_map.2 ⟨inside, List.mem_flatten.2 ⟨r, hr, hi⟩, rfl⟩, by simp⟩
  have := hx _ hm
  rw [printed, rounds_unique (rounds_counts inside) hn, if_pos ⟨rfl, hd⟩] at this
  omega

/-- Different frames go to different files, with the prefix of the code and every other one that is not too long. -/
theorem names_distinct (pre : List Char) (hp : pre.length ≤ 999) (i j : Nat) (hi : i < 2 ^ 64) (hj : j < 2 ^ 64) (h : name pre i = name pre j) : i = j := by
  obtain ⟨li, vi⟩ := padded_ok i hi
  obtain ⟨lj, vj⟩ := padded_ok j hj
  have hg : ".pgm".toList.length = 4 := by decide
  unfold name at h
  rw [List.take_of_length_le (by simp only [List.length_append, hg]; omega), List.take_of_length_le (by simp only [List.length_append, hg]; omega)] at h
  have := List.append_cancel_right (List.append_cancel_left h)
  rw [← vi, ← vj, this]

/-! ### Cases that meet the hypotheses -/

/-- a point that is left after `n` rounds -/
def leaves (n : Nat) : Nat → Bool := fun k => decide (k < n)

theorem leaves_rounds {n : Nat} (h : n ≤ 1000) : Rounds (leaves n) n := by
  refine ⟨fun k hk => by simp [leaves, hk], h, fun _ => by simp [leaves]⟩

/-- Two lines of two pixels, after 1, 5 and 300 rounds, and one that stays: on every platform. -/
example : readImage (file 2 2 (([[leaves 1, leaves 5], [leaves 300, fun _ => true]].map (drawn true)).map some)) =
    some ⟨2, 2, 255, [0, 0, 1, 0, 0, 5, 0, 0, 44, 0, 0, 0]⟩ := by decide +kernel

/-- One pixel of shade 200. -/
example : String.ofList (file 1 1 (([[leaves 200]].map (drawn true)).map some)) = "P3\n1 1\n255\n0 0 4294967240 \n" ∧
    readImage (file 1 1 (([[leaves 200]].map (drawn true)).map some)) = none ∧
    readImage (file 1 1 (([[leaves 200]].map (drawn false)).map some)) = some ⟨1, 1, 255, [0, 0, 200]⟩ := by decide +kernel

example : readImage (file 1 1 (([[leaves 200]].map (drawn true)).map some)) = none :=
  frame_is_image_violated 1 1 _ [leaves 200] (by simp) (leaves 200) (by simp) 200 (leaves_rounds (by omega)) (by decide)

example : String.ofList (name "mandelzoom_".toList 17) = "mandelzoom_0000000017.pgm" := by decide +kernel

end Rcpr.MandelFile
