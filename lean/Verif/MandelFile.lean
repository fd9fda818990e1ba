/-!
What the mandelbrot example writes to a file (examples/mandelbrot/src/draw_line.c:81-105, main.c:196-217), character by character.

Simplifications: `long double` arithmetic is not modelled; what it decides, whether a point is still inside after so many rounds, is a
parameter for each pixel. `int` has 32 bits, `size_t` and `unsigned long` 64. Whether `char` is signed is a parameter (it is on x86, not on
ARM); a conversion to a signed `char` keeps the low eight bits, and `%u` given a negative `int` prints it modulo 2^32, as all platforms that the
library supports do (C leaves the first to the implementation and says nothing of the second). Which lines there are in the array when main
writes it is the subject of `Mandel`.
-/
namespace Rcpr.MandelFile

/-- `max_iteration` (draw_line.c:89) -/
def maxRounds : Nat := 1000

/-- The loop over the rounds (draw_line.c:91-97); `inside k` says whether `x*x + y*y <= 2*2` after `k` rounds. -/
def roundsFrom (inside : Nat → Bool) : Nat → Nat → Nat
  | 0, k => k
  | n + 1, k => if inside k ∧ k < maxRounds then roundsFrom inside n (k + 1) else k

/-- `iteration` after the loop (draw_line.c:88-97). As many rounds as the loop can make are given. -/
def rounds (inside : Nat → Bool) : Nat := roundsFrom inside maxRounds 0

/-- Conversion to `char`. As in draw_line.c:102. -/
def toChar (signed : Bool) (n : Nat) : Int := if signed ∧ 128 ≤ n % 256 then (n % 256 : Int) - 256 else (n % 256 : Int)

/-- The value of a pixel (draw_line.c:99-105). -/
def pixel (signed : Bool) (inside : Nat → Bool) : Int :=
  let iteration := rounds inside
  if iteration < maxRounds then toChar signed (iteration % 256) else 0

/-- A digit. Not in the code: part of `printf`. -/
def digit (n : Nat) : Char := Char.ofNat (48 + n)

/-- Not in the code: part of `printf`, for at most `fuel + 1` digits. -/
def decF : Nat → Nat → List Char
  | 0, n => [digit (n % 10)]
  | f + 1, n => if n < 10 then [digit n] else decF f (n / 10) ++ [digit (n % 10)]

/-- What `%lu` and `%u` print. Not in the code: part of `printf`. -/
def dec (n : Nat) : List Char := decF n n

/-- The argument of `%u`: a `char` promoted to `int` (main.c:207). -/
def asUnsigned (c : Int) : Nat := (c % 2 ^ 32).toNat

/-- The header (main.c:200). -/
def header (w h : Nat) : List Char := "P3\n".toList ++ (dec w ++ ' ' :: (dec h ++ "\n255\n".toList))

/-- A pixel (main.c:207). -/
def sample (c : Int) : List Char := "0 0 ".toList ++ (dec (asUnsigned c) ++ [' '])

/-- A line of the array; NULL is left out (main.c:203-215). -/
def line : Option (List Int) → List Char
  | some cs => cs.flatMap sample ++ ['\n']
  | none => []

/-- The file (main.c:200-217). -/
def file (w h : Nat) (array : List (Option (List Int))) : List Char := header w h ++ array.flatMap line

/-- What a worker stores for a line (draw_line.c:81-106). -/
def drawn (signed : Bool) (row : List (Nat → Bool)) : List Int := row.map (pixel signed)

/-- `%010lu`. Not in the code: part of `printf`. -/
def padded (i : Nat) : List Char := List.replicate (10 - (dec i).length) '0' ++ dec i

/-- The name of the file of frame `i`: `snprintf` to 1024 characters, the terminator included (main.c:196-197). -/
def name (pre : List Char) (i : Nat) : List Char := (pre ++ (padded i ++ ".pgm".toList)).take 1023

end Rcpr.MandelFile
