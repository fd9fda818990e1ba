import Verif.EchoStop

/-! What is said of the echo server as a whole. -/
namespace Rcpr.EchoStop

/-- The first value of the signal thread is not there when the main fiber reads for the first time, and whenever
`epoll_wait` reports the signal it reports it last. -/
structure Calm (S : Ids) (s : Srv) (c : Choice) : Prop where
  late : c = .value → s.pc S.main ≠ .new
  last : ∀ fs, c = .poll fs → S.main ∈ fs → fs.getLast? = some S.main

/-- The environment chooses as it likes. -/
def Any (_ : Srv) (_ : Choice) : Prop := True

/-- The main fiber has begun `send_.._request_to_all` and does not run. -/
def Asking (S : Ids) (s : Srv) : Prop := s.pc S.main = .ask ∧ s.cur ≠ S.main

/-- `n` moves while the main fiber does not run. -/
inductive Aside (S : Ids) (P : Srv → Choice → Prop) : Nat → Srv → Srv → Prop
  | refl (s : Srv) : Aside S P 0 s s
  | step {n : Nat} {s s' s'' : Srv} (c : Choice) : Aside S P n s s' → s'.cur ≠ S.main → P s' c → move S s' c = some s'' →
      Aside S P (n + 1) s s''

/-- `n` moves. -/
inductive Steps (S : Ids) (P : Srv → Choice → Prop) : Nat → Srv → Srv → Prop
  | refl (s : Srv) : Steps S P 0 s s
  | step {n : Nat} {s s' s'' : Srv} (c : Choice) : Steps S P n s s' → P s' c → move S s' c = some s'' → Steps S P (n + 1) s s''

/-- The moves of a list of choices, each of which must satisfy `P`. -/
def plays (S : Ids) (P : Srv → Choice → Prop) [∀ s c, Decidable (P s c)] : List Choice → Srv → Option Srv
  | [], s => some s
  | c :: cs, s => if P s c then (move S s c).bind (plays S P cs) else none

instance (s : Srv) (c : Choice) : Decidable (Any s c) := inferInstanceAs (Decidable True)

instance (S : Ids) (s : Srv) (c : Choice) : Decidable (Calm S s c) :=
  match c with
  | .value => decidable_of_iff (s.pc S.main ≠ .new) ⟨fun h => ⟨fun _ => h, nofun⟩, fun h => h.late rfl⟩
  | .poll fs => decidable_of_iff (S.main ∈ fs → fs.getLast? = some S.main)
      ⟨fun h => ⟨nofun, fun _ e => by cases e; exact h⟩, fun h => h.last fs rfl⟩
  | .dry | .full | .conn _ | .fail | .go => .isTrue ⟨nofun, nofun⟩

end Rcpr.EchoStop
