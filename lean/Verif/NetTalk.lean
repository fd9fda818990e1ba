import Verif.Net
import Verif.Psock

/-!
Fibers that talk in boxed values: the boxed reads and writes of `Verif.Psock` run as programs of `Verif.Net`, over
`psock_wrap_async_read` and `psock_wrap_async_write`.

A program of `Verif.Net` tells, from the results of the calls that returned, the next call. Here it is found by running the code of the
fiber from its beginning with these results; where they run out is the call the fiber is in. The code is cut off there by giving it a
status that is not success; all that is kept of this run is the call.
Simplification: allocations succeed, as in `Verif.Net`.
-/
namespace Rcpr.Net

open Rcpr Psock

/-- The results not used yet, and the call that has not returned yet. Not in the code: the stack of the fiber. -/
structure Play where
  left : List (List Byte)
  want : Option Op

/-- The status that cuts off the run. Not in the code: the call has not returned. -/
def WAITING : Status := 1#32

/-- The read method of an async psock: the result of `psock_wrap_async_read` (psock_wrap_async_read.c:38-116), if it returned. -/
def rd (p : Nat) : Reader Play := fun s n _ =>
  match s.want, s.left with
  | none, r :: l => some (⟨l, none⟩, SUCCESS, r)
  | none, [] => some (⟨[], some (.read p n)⟩, WAITING, [])
  | some _, _ => some (s, WAITING, [])

/-- The write method of an async psock: the result of `psock_wrap_async_write` (psock_wrap_async_write.c:39-106), if it returned; `*size` is
left as it was. -/
def wr (p : Nat) : Writer Play := fun s d =>
  match s.want, s.left with
  | none, _ :: l => some (⟨l, none⟩, SUCCESS, d.length)
  | none, [] => some (⟨[], some (.write p d)⟩, WAITING, 0)
  | some _, _ => some (s, WAITING, 0)

/-- `fiber_scheduler_add` (src/fiber/common/fiber_scheduler_add.c) and `fiber_scheduler_run`
(src/fiber/common/fiber_scheduler_run.c), if they returned. -/
def other (op : Op) (s : Play) : Play × Status :=
  match s.want, s.left with
  | none, _ :: l => (⟨l, none⟩, SUCCESS)
  | none, [] => (⟨[], some op⟩, WAITING)
  | some _, _ => (s, WAITING)

/-- What the code of a fiber does: boxed writes (src/psock/psock_write_boxed_int64.c and the others), boxed reads
(src/psock/psock_read_boxed_int64.c and the others) after which it may go on as the value tells, adding fibers, and yielding. -/
inductive Sess
  | stop
  | send (p : Nat) (v : Val) (k : Sess)
  | recv (p : Nat) (t : Ty) (k : Val → Sess)
  | add (g : Nat) (k : Sess)
  | pause (k : Sess)

/-- What was done, with the value that was read. Not in the code: what the user sees of the calls of src/psock/psock_write_boxed_int64.c,
src/psock/psock_read_boxed_int64.c and the others. -/
inductive Act
  | send (p : Nat) (v : Val)
  | recv (p : Nat) (v : Val)
  | add (g : Nat)
  | pause
  deriving DecidableEq

/-- The code, run with the results there are: what is left, the status it came to, and what it did. It stops at the first call that
fails. `none` is undefined behaviour, and the use of a value that was not set.
Not in the code: the code of the user, calling src/psock/psock_write_boxed_int64.c, src/psock/psock_read_boxed_int64.c and the others. -/
def Sess.run (e : Endian) : Sess → Play → Option (Play × Status × List Act)
  | .stop, s => some (s, SUCCESS, [])
  | .send p v k, s =>
    match writeBoxed e (wr p) s v with
    | none => none
    | some (s, st) => if st ≠ SUCCESS then some (s, st, []) else (k.run e s).map fun r => (r.1, r.2.1, .send p v :: r.2.2)
  | .recv p t k, s =>
    match readBoxed e (rd p) s SUCCESS SUCCESS t with
    | none => none
    | some (s, st, r) =>
      if st ≠ SUCCESS then some (s, st, [])
      else match r with
        | none => none
        | some v => ((k v).run e s).map fun r => (r.1, r.2.1, .recv p v :: r.2.2)
  | .add g k, s =>
    let r := other (.spawn g) s
    if r.2 ≠ SUCCESS then some (r.1, r.2, []) else (k.run e r.1).map fun r => (r.1, r.2.1, .add g :: r.2.2)
  | .pause k, s =>
    let r := other .pause s
    if r.2 ≠ SUCCESS then some (r.1, r.2, []) else (k.run e r.1).map fun r => (r.1, r.2.1, .pause :: r.2.2)

/-- The call the fiber is in, as a program of `Verif.Net`; see the head of this file.
Not in the code: the code of the user. -/
def Sess.prog (e : Endian) (k : Sess) (h : List (List Byte)) : Option Op := (k.run e ⟨h, none⟩).bind fun r => r.1.want

end Rcpr.Net
