import Verif.Status

/-!
Model of the control macros (include/rcpr/control.h:22-54): `CONTROL_PREAMBLE`, `TRY_OR_FAIL` and `CLEANUP_OR_CASCADE`. A
function that is written with them is a text of instructions with labels; the operations are numbered, and what they
return is a parameter.
-/
namespace Rcpr.Control

open Rcpr

/-- What a line of such a function is: one of the two macros (control.h:35-41, 48-54), a `goto`, nothing that matters
here, or `return retval`. A label is the number of a line. -/
inductive Ins
  | tryOrFail (op label : Nat)
  | cleanup (op : Nat)
  | goto (label : Nat)
  | skip
  | ret
  deriving DecidableEq

/-- What the operations return: the ones that are tried, and the ones that clean up.
Not in the code: the operations. -/
structure Ops where
  tries : Nat → Status
  cleans : Nat → Status

/-- Which operation was called. Not in the code: a record for the specification. -/
inductive Ev
  | tried (op : Nat)
  | cleaned (op : Nat)
  deriving DecidableEq

/-- The line, and the variable `retval`, which is `none` as long as nothing was assigned (control.h:26-29);
`release_retval` is only read after it was assigned on the line before. The calls are a record. -/
structure St where
  pc : Nat
  retval : Option Status
  log : List Ev

/-- One line (control.h:35-41 and 48-54); `none` at the return. -/
def step (text : Nat → Ins) (o : Ops) (s : St) : Option St :=
  match text s.pc with
  | .tryOrFail i l =>
    some ⟨if SUCCESS ≠ o.tries i then l else s.pc + 1, some (o.tries i), s.log ++ [.tried i]⟩
  | .cleanup i =>
    some ⟨s.pc + 1, if SUCCESS ≠ o.cleans i then some (o.cleans i) else s.retval, s.log ++ [.cleaned i]⟩
  | .goto l => some { s with pc := l }
  | .skip => some { s with pc := s.pc + 1 }
  | .ret => none

/-- A call, for at most so many lines: what it returns, and what it has called. Not in the code: execution. -/
def run (text : Nat → Ins) (o : Ops) : Nat → St → Option (Option Status × List Ev)
  | 0, _ => none
  | n + 1, s =>
    match step text o s with
    | none => some (s.retval, s.log)
    | some s' => run text o n s'

/-- The start of a call, after `CONTROL_PREAMBLE` (control.h:26-29). -/
def start : St := ⟨0, none, []⟩

/-- A function that tries `n` operations, of which each but the last has a label for the case that the next one fails,
and cleans up in the opposite order. With `keep` it leaves what it has made
to the caller if all goes well (`goto done`), else it cleans up in all cases. Not in the code: the pattern for which the
macros were made. -/
def pattern (n : Nat) (keep : Bool) (p : Nat) : Ins :=
  if p < n then .tryOrFail p (2 * n + 1 - p)
  else if p = n then if keep then .goto (2 * n + 1) else .skip
  else if p ≤ 2 * n then .cleanup (2 * n - p)
  else .ret

end Rcpr.Control
