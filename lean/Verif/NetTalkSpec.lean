import Verif.NetTalk
import Verif.NetSpec
import Verif.PsockSpec

/-! What it means that fibers keep to a conversation, and how long it is. -/
namespace Rcpr.Net

open Rcpr Psock

/-- The code does this, if it receives the values that are in it. -/
inductive Plays : Sess → List Act → Prop
  | stop : Plays .stop []
  | send (p : Nat) (v : Val) {k : Sess} {l : List Act} : Plays k l → Plays (.send p v k) (.send p v :: l)
  | recv (p : Nat) (v : Val) {k : Val → Sess} {l : List Act} : Plays (k v) l → Plays (.recv p v.ty k) (.recv p v :: l)
  | add (g : Nat) {k : Sess} {l : List Act} : Plays k l → Plays (.add g k) (.add g :: l)
  | pause {k : Sess} {l : List Act} : Plays k l → Plays (.pause k) (.pause :: l)

/-- A conversation: value `v` goes over socket `p`; fiber `f` adds fiber `g`; fiber `f` yields. -/
inductive Ev
  | msg (p : Nat) (v : Val)
  | add (f g : Nat)
  | pause (f : Nat)

/-- The part of fiber `f` in it. -/
def Ev.part (S : Setup) (P : Plan) (f : Nat) : Ev → List Act
  | .msg p v => if f = P.wtr p then [.send p v] else if f = P.rdr (S.peer p) then [.recv (S.peer p) v] else []
  | .add g h => if f = g then [.add h] else []
  | .pause g => if f = g then [.pause] else []

def lines (S : Setup) (P : Plan) (f : Nat) (C : List Ev) : List Act := C.flatMap (Ev.part S P f)

/-- The fibers that take part. -/
def Ev.who (S : Setup) (P : Plan) : Ev → List Nat
  | .msg p _ => [P.wtr p, P.rdr (S.peer p)]
  | .add f _ => [f]
  | .pause f => [f]

/-- The code of each fiber is such that with the others it makes the conversation `C`: its own part is what it does if it receives what is in
it. Values are valid; nobody talks to themselves; a fiber takes part after it was added. -/
structure Cast (S : Setup) (P : Plan) (e : Endian) (code : Nat → Sess) (C : List Ev) : Prop where
  prog : ∀ f, S.prog f = (code f).prog e
  plays : ∀ f, Plays (code f) (lines S P f C)
  valid : ∀ p v, Ev.msg p v ∈ C → v.Valid
  apart : ∀ p v, Ev.msg p v ∈ C → P.wtr p ≠ P.rdr (S.peer p)
  born : ∀ C₁ x C₂, C = C₁ ++ x :: C₂ → ∀ f ∈ x.who S P, f = S.main ∨ ∃ g, Ev.add g f ∈ C₁

/-- How much of it there is: the bytes of a value are written and read, in up to three calls each. -/
def Ev.cost : Ev → Nat
  | .msg _ v => 2 * ((encode v).length + 3)
  | _ => 1

def cost (C : List Ev) : Nat := (C.map Ev.cost).sum

/-- The number of calls of the transport for a value of each type. -/
def rounds : Ty → Nat
  | .int _ => 2
  | .bool => 2
  | .string => 3
  | .data => 3

/-- The sockets a code uses, whatever it receives, are those of fiber `f`, and it adds the fibers it is to add, with the calls it is to add them:
`n` calls were made before. -/
def Within (S : Setup) (P : Plan) (f : Nat) : Nat → Sess → Prop
  | _, .stop => True
  | n, .send p v k => P.wtr p = f ∧ Within S P f (n + rounds v.ty) k
  | n, .recv p t k => P.rdr p = f ∧ ∀ v, Within S P f (n + rounds t) (k v)
  | n, .add g k => (P.site g = (f, n) ∧ g ≠ S.main ∧ g ≠ S.idle ∧ g ≠ 0) ∧ Within S P f (n + 1) k
  | n, .pause k => Within S P f (n + 1) k

end Rcpr.Net
