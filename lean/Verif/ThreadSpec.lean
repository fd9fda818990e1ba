import Verif.Thread

/-!
What the threads of a program have to keep to (C73).
-/
namespace Rcpr.Thread

open Rcpr

/-- The threads released in a sequence of events. -/
def released : List Event → List Nat
  | [] => []
  | .release _ j :: es => j :: released es
  | _ :: es => released es

/-- What the documentation asks of the program: each thread is released once, and threads do not wait for each
other in a circle: there is an order in which every thread is above those that release it. -/
structure Orderly (rank : Nat → Nat) (es : List Event) : Prop where
  once : (released es).Nodup
  above : ∀ b j, .release b j ∈ es → rank b < rank j

end Rcpr.Thread
