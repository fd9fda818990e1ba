import Verif.RBTree

/-!
What a user expects of the red-black tree, without trees: a list of values sorted by key, in which insertion
places a value after those with the same key.
-/
namespace Rcpr.RB.Spec

open Rcpr Rcpr.RB

section
variable {K : Type} (o : Order K)

/-- Sorted by key; equal keys may follow each other. -/
def Sorted (l : List Nat) : Prop := l.Pairwise fun a b => o.cmp (o.key a) (o.key b) ≠ .gt

/-- The value has the key looked for. -/
def Match (k : K) (v : Nat) : Prop := o.cmp k (o.key v) = .eq

/-- Insertion before the first value with a greater key. -/
def insert (v : Nat) : List Nat → List Nat
  | [] => [v]
  | u :: l => if o.cmp (o.key v) (o.key u) = .lt then v :: u :: l else u :: insert v l

/-- Calls of the interface. The addresses and statuses are the answers of the allocator. -/
inductive Op (K : Type)
  | insert (v a : Nat) (st : Status)
  | find (k : K)
  | delete (k : K) (take : Bool)
  | clear

/-- What a call returns: a status and a value (0: none). -/
abbrev Out := Status × Nat

/-- What the caller sees: the values stored and those whose release method has been called. -/
structure View where
  items : List Nat
  released : List Nat

/-- The calls and what they may return. Where several values have the key, delete and find choose one. -/
inductive Step (e : Env) : View → Op K → Out → View → Prop
  | insert {s v a} : Step e s (.insert v a SUCCESS) (SUCCESS, 0) { s with items := insert o v s.items }
  | insertFail {s v a st} : st ≠ SUCCESS → Step e s (.insert v a st) (st, 0) s
  | find {s k v} : v ∈ s.items → Match o k v → Step e s (.find k) (SUCCESS, v) s
  | findNone {s k} : (∀ v ∈ s.items, ¬ Match o k v) → Step e s (.find k) (ERROR_RBTREE_NOT_FOUND, 0) s
  | take {A B log k v a} : Match o k v →
      Step e ⟨A ++ v :: B, log⟩ (.delete k true) (e.reclaim a, v) ⟨A ++ B, log⟩
  | delete {A B log k v a} : Match o k v →
      Step e ⟨A ++ v :: B, log⟩ (.delete k false)
        (if e.release v ≠ SUCCESS then e.release v else e.reclaim a, 0) ⟨A ++ B, log ++ [v]⟩
  | deleteNone {s k t} : (∀ v ∈ s.items, ¬ Match o k v) → Step e s (.delete k t) (ERROR_RBTREE_NOT_FOUND, 0) s
  | clear {s p st} : List.Perm p s.items →
      (st = SUCCESS → ∀ v ∈ s.items, e.release v = SUCCESS) →
      (st ≠ SUCCESS → (∃ v ∈ s.items, st = e.release v) ∨ ∃ a, st = e.reclaim a) →
      ((∀ v ∈ s.items, e.release v = SUCCESS) → (∀ a, e.reclaim a = SUCCESS) → st = SUCCESS) →
      Step e s .clear (st, 0) ⟨[], s.released ++ p⟩

/-- Histories as the specification allows them. -/
inductive Run (e : Env) : View → List (Op K × Out) → View → Prop
  | nil {s} : Run e s [] s
  | snoc {s s' s'' h op out} : Run e s h s' → Step o e s' op out s'' → Run e s (h ++ [(op, out)]) s''

end

/-! ### Shape, as seen in memory -/

/-- The nodes that can be reached from the root. -/
inductive InTree (s : St) : Nat → Prop
  | root : s.tree.root ≠ s.tree.nil → InTree s s.tree.root
  | left {a n} : InTree s a → s.heap a = some n → n.left ≠ s.tree.nil → InTree s n.left
  | right {a n} : InTree s a → s.heap a = some n → n.right ≠ s.tree.nil → InTree s n.right

def IsRed (s : St) (a : Nat) : Prop := ∃ n, s.heap a = some n ∧ n.red = true

/-- A way down from `a` to the sentinel that meets `n` black nodes. -/
inductive Down (s : St) : Nat → Nat → Prop
  | nil : Down s s.tree.nil 0
  | left {a nd n} : a ≠ s.tree.nil → s.heap a = some nd → Down s nd.left n → Down s a (n + if nd.red then 0 else 1)
  | right {a nd n} : a ≠ s.tree.nil → s.heap a = some nd → Down s nd.right n → Down s a (n + if nd.red then 0 else 1)

/-- The red-black conditions. -/
structure RedBlack (s : St) : Prop where
  root : ¬ IsRed s s.tree.root
  red : ∀ {a n}, InTree s a → s.heap a = some n → n.red = true → ¬ IsRed s n.left ∧ ¬ IsRed s n.right
  black : ∃ n, ∀ m, Down s s.tree.root m → m = n

/-- A node with one child only has a red one: then the fix-up after a deletion has nothing to do. -/
def OnlyChildRed (s : St) : Prop := ∀ {a n}, InTree s a → s.heap a = some n →
  (n.left = s.tree.nil → n.right ≠ s.tree.nil → IsRed s n.right) ∧
  (n.right = s.tree.nil → n.left ≠ s.tree.nil → IsRed s n.left)

/-- The node at the end of the left edge from `a`. -/
inductive Least (s : St) : Nat → Nat → Prop
  | here {a n} : s.heap a = some n → n.left = s.tree.nil → Least s a a
  | left {a n y} : s.heap a = some n → n.left ≠ s.tree.nil → Least s n.left y → Least s a y

/-- A node whose deletion takes no black node off any path: a node with at most one child which is red or has
a red child, or a node with two children for which this holds of the next node in order. -/
def Spare (s : St) (a : Nat) : Prop := ∃ n, s.heap a = some n ∧
  (n.left = s.tree.nil ∨ n.right = s.tree.nil → n.red = true ∨ IsRed s n.left ∨ IsRed s n.right) ∧
  (n.left ≠ s.tree.nil → n.right ≠ s.tree.nil →
    ∃ y ny, Least s n.right y ∧ s.heap y = some ny ∧ (ny.red = true ∨ IsRed s ny.right))

end Rcpr.RB.Spec

namespace Rcpr.RB

open Spec in
/-- A call of the interface, dispatched to its function. -/
def call {K : Type} (o : Order K) (e : Env) (s : St) : Op K → Option (Out × St)
  | .insert v a st => (RB.insert o s v a st).map fun (r, s) => ((r, 0), s)
  | .find k => (RB.find o s k).map fun r => (r, s)
  | .delete k take => (RB.delete o e s k take).map fun (r, v, s) => ((r, v), s)
  | .clear => (RB.clear e s).map fun (r, s) => ((r, 0), s)

open Spec in
/-- Calls in sequence, with what they return. -/
def calls {K : Type} (o : Order K) (e : Env) : St → List (Op K) → Option (List Out × St)
  | s, [] => some ([], s)
  | s, op :: ops => (call o e s op).bind fun (out, s) => (calls o e s ops).map fun (outs, s) => (out :: outs, s)

/-- A user's loop over the elements: `for (x = start; x != nil; x = next(x))`, collecting the values. -/
def walk (next : Nat → Option Nat) (h : Heap) (nil : Nat) : Nat → Nat → Option (List Nat)
  | 0, _ => none
  | n + 1, x =>
    if x = nil then some []
    else (h x).bind fun nx => (next x).bind fun y => (walk next h nil n y).map (nx.value :: ·)

section
variable {K : Type}

/-- What the caller and the allocator promise: values are not NULL, new memory is not in use. -/
def Legal (s : St) : Spec.Op K → Prop
  | .insert v a st => v ≠ 0 ∧ (st = SUCCESS → s.heap a = none)
  | _ => True

def isDelete : Spec.Op K → Bool
  | .delete _ _ => true
  | _ => false

def isClear : Spec.Op K → Bool
  | .clear => true
  | _ => false

/-- A delete has been called since the last clear. -/
def pending (h : List (Spec.Op K × Spec.Out)) : Bool :=
  h.foldl (fun p x => if isDelete x.1 then true else if isClear x.1 then false else p) false

/-- Histories of a tree: calls made one after the other since creation. `P` restricts which calls are made
in which situation. -/
inductive Hist (o : Order K) (e : Env) (N : Nat) (P : List (Spec.Op K × Spec.Out) → St → Spec.Op K → Prop) :
    List (Spec.Op K × Spec.Out) → St → Prop
  | nil : Hist o e N P [] (create N)
  | snoc {h s op out s'} : Hist o e N P h s → Legal s op → P h s op → call o e s op = some (out, s') →
      Hist o e N P (h ++ [(op, out)]) s'

/-- Deletes happen only while every only child is red. -/
def Quiet (_ : List (Spec.Op K × Spec.Out)) (s : St) (op : Spec.Op K) : Prop := isDelete op = true → Spec.OnlyChildRed s

/-- At most one delete between clears. -/
def OneDelete (h : List (Spec.Op K × Spec.Out)) (_ : St) (op : Spec.Op K) : Prop := isDelete op = true → pending h = false

/-- No delete at all. -/
def NoDelete (_ : List (Spec.Op K × Spec.Out)) (_ : St) (op : Spec.Op K) : Prop := isDelete op = false

/-- Deletes concern spare nodes, or the last one. -/
def Mild (o : Order K) (_ : List (Spec.Op K × Spec.Out)) (s : St) : Spec.Op K → Prop
  | .delete k _ => s.tree.count = 1 ∨
      ∀ {a n}, Spec.InTree s a → s.heap a = some n → Spec.Match o k n.value → Spec.Spare s a
  | _ => True

/-- A value is inserted only while there are fewer than `m`. -/
def AtMost (m : Nat) (_ : List (Spec.Op K × Spec.Out)) (s : St) (op : Spec.Op K) : Prop :=
  ∀ {u a}, op = .insert u a SUCCESS → s.tree.count < m

/-- A value that is deleted has a smaller key than all others. -/
def First (o : Order K) (_ : List (Spec.Op K × Spec.Out)) (s : St) : Spec.Op K → Prop
  | .delete k _ => ∀ {a b n m}, Spec.InTree s a → s.heap a = some n → Spec.Match o k n.value →
      Spec.InTree s b → s.heap b = some m → b ≠ a → o.cmp k (o.key m.value) = .lt
  | _ => True

/-- A value that is deleted has a greater key than all others. -/
def Last (o : Order K) (_ : List (Spec.Op K × Spec.Out)) (s : St) : Spec.Op K → Prop
  | .delete k _ => ∀ {a b n m}, Spec.InTree s a → s.heap a = some n → Spec.Match o k n.value →
      Spec.InTree s b → s.heap b = some m → b ≠ a → o.cmp k (o.key m.value) = .gt
  | _ => True

/-- A value that is inserted has no smaller key than any other; a value that is deleted has a greater key than all others. -/
def Stack (o : Order K) (h : List (Spec.Op K × Spec.Out)) (s : St) : Spec.Op K → Prop
  | .insert u _ _ => ∀ {b m}, Spec.InTree s b → s.heap b = some m → o.cmp (o.key u) (o.key m.value) ≠ .lt
  | .delete k take => Last o h s (.delete k take)
  | _ => True

/-- No restriction. -/
def Free (_ : List (Spec.Op K × Spec.Out)) (_ : St) (_ : Spec.Op K) : Prop := True

end

end Rcpr.RB
