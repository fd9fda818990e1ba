import Verif.Net

/-! What the programs of fibers over sockets promise, and what is said of what they see. -/
namespace Rcpr.Net

open Rcpr Epoll Io

/-- How the programs share the sockets: `rdr p` is the only one to read from `p`, `wtr p` to write to it; fiber `g` is added by
one call only, `site g` (the fiber and the number of calls it made before). -/
structure Plan where
  rdr : Nat → Nat
  wtr : Nat → Nat
  site : Nat → Nat × Nat

/-- The programs keep to it. The sockets are connected in pairs; a socket reported writable can be written to. -/
structure Legal (S : Setup) (P : Plan) : Prop where
  main : S.main ≠ 0 ∧ S.main ≠ S.idle
  idle : S.idle ≠ 0
  read : ∀ f h p n, S.prog f h = some (.read p n) → P.rdr p = f
  write : ∀ f h p d, S.prog f h = some (.write p d) → P.wtr p = f
  spawn : ∀ f h g, S.prog f h = some (.spawn g) → P.site g = (f, h.length) ∧ g ≠ S.main ∧ g ≠ S.idle ∧ g ≠ 0
  peer : ∀ p, S.peer (S.peer p) = p
  low : ∀ p, S.low p ≤ S.cap p

/-- The operation moves bytes on this side of this socket. -/
def Op.on (sd : Side) (p : Nat) : Option Op → Bool
  | some (.read q _) => sd == .rd && q == p
  | some (.write q _) => sd == .wr && q == p
  | _ => false

/-- One more thing seen, with the bytes moved so far on one side of one socket. -/
def scanStep (S : Setup) (f : Nat) (sd : Side) (p : Nat) (t : (List (List Byte) × List Byte) × List Byte) (a : Atom) : (List (List Byte) × List Byte) × List Byte :=
  match a with
  | .byte b => ((t.1.1, t.1.2 ++ [b]), if Op.on sd p (S.prog f t.1.1) then t.2 ++ [b] else t.2)
  | .done => ((t.1.1 ++ [t.1.2], []), t.2)

/-- The bytes that fiber `f` moved on one side of one socket. -/
def carried (S : Setup) (f : Nat) (sd : Side) (p : Nat) (l : List Atom) : List Byte := (l.foldl (scanStep S f sd p) (([], []), [])).2

/-- What each fiber has seen. -/
abbrev Seen := Nat → List Atom

/-- Fiber `f`, having seen `l`, has added fiber `g`. -/
def Spawned (S : Setup) (f : Nat) (l : List Atom) (g : Nat) : Prop := ∃ i, i < (results l).length ∧ S.prog f ((results l).take i) = some (.spawn g)

def Live (S : Setup) (A : Seen) (f : Nat) : Prop := f = S.main ∨ ∃ g, Spawned S g (A g) f

/-- The bytes read from socket `p`, and those written to its other end. -/
def recv (S : Setup) (P : Plan) (A : Seen) (p : Nat) : List Byte := carried S (P.rdr p) .rd p (A (P.rdr p))
def sent (S : Setup) (P : Plan) (A : Seen) (p : Nat) : List Byte := carried S (P.wtr (S.peer p)) .wr (S.peer p) (A (P.wtr (S.peer p)))

/-- The fiber is in a call that has to move more bytes on this side of this socket. -/
def Waits (S : Setup) (A : Seen) (f : Nat) : Side → Nat → Prop
  | .rd, p => ∃ n, S.prog f (results (A f)) = some (.read p n) ∧ (part (A f)).length < n
  | .wr, p => ∃ d, S.prog f (results (A f)) = some (.write p d) ∧ (part (A f)).length < d.length

/-- The fiber made all the calls of its program. -/
def Ended (S : Setup) (A : Seen) (f : Nat) : Prop := S.prog f (results (A f)) = none

/-- The kernel reports this side of this socket. -/
def Reported (S : Setup) (buf : Nat → List Byte) : Side → Nat → Prop
  | .rd, p => buf p ≠ []
  | .wr, p => (buf (S.peer p)).length < S.low (S.peer p)

/-- The bytes moved and calls returned that these fibers saw. -/
def total (A : Seen) (all : List Nat) : Nat := (all.map fun f => (A f).length).sum

/-- The fibers there can be. -/
structure Among (S : Setup) (all : List Nat) : Prop where
  nodup : all.Nodup
  main : S.main ∈ all
  spawn : ∀ f h g, S.prog f h = some (.spawn g) → g ∈ all

/-- Only the kernel differs, not the programs. -/
structure Same (S S' : Setup) : Prop where
  main : S'.main = S.main
  idle : S'.idle = S.idle
  prog : S'.prog = S.prog
  peer : S'.peer = S.peer

end Rcpr.Net
