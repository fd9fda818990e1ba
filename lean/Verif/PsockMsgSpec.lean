import Verif.PsockMsg

/-! Specification of accepting connections and passing descriptors. -/
namespace Rcpr.Msg

open Rcpr

/-- Which open file each descriptor of the process stands for. -/
abbrev View := Nat → Option Nat

/-- `d` was not in use, and is now a descriptor for `f`; no other descriptor changed. -/
def Gains (v : View) (d f : Nat) (v' : View) : Prop :=
  v d = none ∧ v' d = some f ∧ ∀ i, i ≠ d → v' i = v i

/-- A process with at most `n` descriptors. `Trace n v os ms cs sent set v'`: the outcomes `os` of calls are
explained by taking the messages `ms` and the connections `cs`, each once and in this order, sending the
messages `sent` and setting the options `set`, while the descriptors change from `v` to `v'`. -/
inductive Trace (n : Nat) :
    View → List (Cmd × Out) → List (List Nat) → List Nat → List (List Nat) → List Nat → View → Prop
  | nil {v} : Trace n v [] [] [] [] [] v
  /-- a descriptor was received: it is new, and stands for the file that was sent -/
  | got {v v' v'' os ms cs sent set f d} : Gains v d f v' → Trace n v' os ms cs sent set v'' →
      Trace n v ((.read, (SUCCESS, some (Int.ofNat d))) :: os) ([f] :: ms) cs sent set v''
  /-- a message without descriptor, or no descriptor was free -/
  | empty {v v'' os ms cs sent set m} : (m = [] ∨ ∀ i, i < n → v i ≠ none) → Trace n v os ms cs sent set v'' →
      Trace n v ((.read, (ERROR_PSOCK_READ_GENERAL, some (-1))) :: os) (m :: ms) cs sent set v''
  /-- any other failure takes nothing, and changes no descriptor -/
  | noRead {v v'' os ms cs sent set st x} : st ≠ SUCCESS → (x = none ∨ x = some (-1)) →
      Trace n v os ms cs sent set v'' → Trace n v ((.read, (st, x)) :: os) ms cs sent set v''
  | wrote {v v'' os ms cs sent set d f} : v d = some f → Trace n v os ms cs sent set v'' →
      Trace n v ((.write d, (SUCCESS, none)) :: os) ms cs ([f] :: sent) set v''
  | noWrite {v v'' os ms cs sent set d st} : st ≠ SUCCESS → Trace n v os ms cs sent set v'' →
      Trace n v ((.write d, (st, none)) :: os) ms cs sent set v''
  | accepted {v v' v'' os ms cs sent set f d} : Gains v d f v' → Trace n v' os ms cs sent set v'' →
      Trace n v ((.accept, (SUCCESS, some (Int.ofNat d))) :: os) ms (f :: cs) sent set v''
  | noAccept {v v'' os ms cs sent set st} : st ≠ SUCCESS → Trace n v os ms cs sent set v'' →
      Trace n v ((.accept, (st, none)) :: os) ms cs sent set v''
  | opt {v v'' os ms cs sent set o} : Trace n v os ms cs sent set v'' →
      Trace n v ((.opt o, (SUCCESS, none)) :: os) ms cs sent (o :: set) v''
  | noOpt {v v'' os ms cs sent set o st} : st ≠ SUCCESS → Trace n v os ms cs sent set v'' →
      Trace n v ((.opt o, (st, none)) :: os) ms cs sent set v''
  | close {v v' v'' os ms cs sent set d} : v' d = none → (∀ i, i ≠ d → v' i = v i) →
      Trace n v' os ms cs sent set v'' → Trace n v ((.close d, (SUCCESS, none)) :: os) ms cs sent set v''
  | arrive {v v'' os ms cs sent set a b} : Trace n v os ms cs sent set v'' →
      Trace n v ((.arrive a b, (SUCCESS, none)) :: os) ms cs sent set v''

/-- The file a descriptor stands for in a table. -/
def file (t : List (Option Nat)) (d : Nat) : Option Nat := (t[d]?).join

/-- A psock for a descriptor of type `ty`, asynchronous when `mode` is not `none`. -/
def sock (mode : Option Nat) (ty : Nat) : Sock K :=
  match mode with
  | none => descriptor ty
  | some fuel => asyncDescriptor fuel ty

end Rcpr.Msg
