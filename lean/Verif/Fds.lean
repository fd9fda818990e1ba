import Verif.Status

/-!
Model of the descriptor functions of `src/socket_utilities`.

The descriptor table of the process maps descriptor numbers to open files. The kernel's `dup2(a, b)`
fails when `a` is not open or when `b` is not below the descriptor limit `lim`; otherwise `b` refers
to the file of `a` (nothing happens when `a = b`). `close` of a descriptor that is not open has no
effect; its result is ignored by the code. Other threads do not change the table meanwhile.
A C `int` is an unbounded integer here; descriptor numbers are far below its limit.
-/
namespace Rcpr.Fds

open Rcpr

/-- descriptor table; files are named by numbers.
Not in the code: the descriptors of the process, kept by the kernel. -/
abbrev Tbl := Int → Option Nat

/-- Not in the code: a change of one descriptor by the kernel. -/
def upd (t : Tbl) (a : Int) (v : Option Nat) : Tbl := fun x => if x = a then v else t x

/-- `dup2`; `none` is the result -1. The system call, as used in src/socket_utilities/vsocket_utility_setfds.c. -/
def dup2 (lim : Int) (t : Tbl) (a b : Int) : Option Tbl :=
  match t a with
  | none => none
  | some f => if b < 0 ∨ b ≥ lim then none else some (upd t b (some f))

/-- `close`.
The system call, as used in src/socket_utilities/vsocket_utility_setfds.c and the files below; its result is not looked at. -/
def close (t : Tbl) (a : Int) : Tbl := upd t a none

/-- `vsocket_utility_setfds` (src/socket_utilities/vsocket_utility_setfds.c:30-75), called by
`socket_utility_setfds` (socket_utility_setfds.c:28-39) with the same arguments. Reading an argument
that was not passed is undefined. -/
def setfds (lim : Int) : Tbl → Int → Int → List Int → Option (Tbl × Status)
  | t, curr, mapped, args =>
    if curr ≥ 0 ∧ mapped ≥ 0 then
      match dup2 lim t curr mapped with
      | none => some (t, ERROR_SOCKET_UTILITIES_DUP2_FAILURE)
      | some t =>
        let t := close t curr
        match args with
        | [] => none
        | curr :: args =>
          if curr < 0 then some (t, SUCCESS)
          else
            match args with
            | [] => none
            | mapped :: args =>
              if mapped < 0 then some (t, ERROR_GENERAL_INVALID_ARGUMENTS)
              else setfds lim t curr mapped args
    else some (t, ERROR_GENERAL_INVALID_ARGUMENTS)

/-- the loop of `vsocket_utility_move_descriptors`
(src/socket_utilities/vsocket_utility_move_descriptors.c:44-73). The pointers point to different
variables; `cells` are the values of the variables not yet handled. -/
def moveLoop (lim : Int) : Tbl → Int → List Int → Tbl × List Int × Status
  | t, _, [] => (t, [], SUCCESS)
  | t, threshold, old :: cells =>
    if old < 0 then (t, old :: cells, ERROR_GENERAL_INVALID_ARGUMENTS)
    else
      match dup2 lim t old threshold with
      | none => (t, old :: cells, ERROR_SOCKET_UTILITIES_DUP2_FAILURE)
      | some t =>
        let r := moveLoop lim (close t old) (threshold + 1) cells
        (r.1, threshold :: r.2.1, r.2.2)

/-- `vsocket_utility_move_descriptors` (src/socket_utilities/vsocket_utility_move_descriptors.c:29-79),
called by `socket_utility_move_descriptors` with the same arguments: table, variables, status. -/
def moveDescriptors (lim : Int) (t : Tbl) (threshold : Int) (cells : List Int) : Tbl × List Int × Status :=
  if threshold < 0 then (t, cells, ERROR_GENERAL_INVALID_ARGUMENTS)
  else moveLoop lim t threshold cells

/-- the loop `for (i = first; i < first + n; ++i) close(i)`
(src/socket_utilities/socket_utility_close_other_fds.c:24-33) -/
def closeRange : Nat → Tbl → Int → Tbl
  | 0, t, _ => t
  | n + 1, t, i => closeRange n (close t i) (i + 1)

/-- `socket_utility_close_other_fds` (src/socket_utilities/socket_utility_close_other_fds.c:24-33);
`setSize` is the C library's `FD_SETSIZE`. -/
def closeOtherFds (setSize : Int) (t : Tbl) (fd : Int) : Tbl × Status :=
  (closeRange (setSize - (fd + 1)).toNat t (fd + 1), SUCCESS)

/-- `socket_utility_close_standard_fds` (src/socket_utilities/socket_utility_close_standard_fds.c:21-29) -/
def closeStandardFds (t : Tbl) : Tbl × Status := (close (close (close t 0) 1) 2, SUCCESS)

/-! ### Specification -/

/-- arguments of `setfds` after the first pair: the remaining pairs and the end mark.
Not in the code: how a caller passes pairs to src/socket_utilities/socket_utility_setfds.c:28-39. -/
def pack : List (Int × Int) → List Int
  | [] => [-1]
  | p :: ps => p.1 :: p.2 :: pack ps

/-- The table after moving each source to its target: targets refer to the files of their sources
before the call, sources that are not targets are closed, all other descriptors are unchanged.
Not in the code: part of the specification. -/
def Moved (t t' : Tbl) (ps : List (Int × Int)) : Prop :=
  (∀ p ∈ ps, t' p.2 = t p.1) ∧
  (∀ p ∈ ps, (∀ q ∈ ps, q.2 ≠ p.1) → t' p.1 = none) ∧
  (∀ x, (∀ p ∈ ps, x ≠ p.1 ∧ x ≠ p.2) → t' x = t x)

end Rcpr.Fds
