import Verif.RBNodeProof
import Verif.Props.RBSmall
import Verif.Props.RBMin
import Verif.Props.RBStack

/-!
Property C93: a user who moves through a tree with `rbtree_root_node`, `rbtree_left_node`, `rbtree_right_node`,
`rbtree_parent_node` and `rbtree_node_value` sees the tree that the calls have made. Missing from the theorems with
the suffix: histories in which the fix-up loop of the deletion has run, as for C07 and C09.
-/
namespace Rcpr.RB

open Rcpr Spec

/-- What a user relies on who goes from node to node: from the root, left before right, one finds the values in
order, and `rbtree_count` is their number; up and down are opposites, and the root has nothing above it; from every
node one comes up to the root, by way of at most `m` nodes. -/
structure Navigable (s : St) (items : List Nat) (m : Nat) : Prop where
  list : collect s.heap s.tree (m + 1) (rootNode s.tree) = some items
  count : treeCount s.tree = items.length
  top : rootNode s.tree ≠ nilOf s.tree → parentNode s.heap (rootNode s.tree) = some (nilOf s.tree)
  down : ∀ a, InTree s a → ∃ l r, leftNode s.heap a = some l ∧ rightNode s.heap a = some r ∧
    (l ≠ nilOf s.tree → parentNode s.heap l = some a) ∧ (r ≠ nilOf s.tree → parentNode s.heap r = some a)
  up : ∀ a, InTree s a → ∃ path, climb s.heap s.tree (m + 1) a = some path ∧ path.length ≤ m ∧ path.head? = some a ∧
    path.getLast? = some (rootNode s.tree)

section
variable {K : Type} (o : Order K) [Std.TransCmp o.cmp]

private theorem navigable_inv {s : St} {X : T} {v : View} (i : Inv o s X v) {m : Nat} (hm : X.height ≤ m) : Navigable s v.items m := by
  have w := i.holds.here
  have hroot : s.tree.root = X.root s.tree.nil := w.root
  have hN : s.tree.nil ∉ X.addrs := by
    intro h
    have := w.nd
    simp [Ctx.addrs, h] at this
  refine ⟨?_, ?_, ?_, ?_, ?_⟩
  · rw [← i.items]
    have := collect_rep (n := m + 1) w.sub hN (by omega)
    rw [← hroot] at this
    exact this
  · rw [← i.items, List.length_map, size_io]
    exact i.holds.count
  · intro hne
    cases X with
    | nil => exact absurd hroot hne
    | node c l a v' r =>
      have := w.sub.1
      show parentNode s.heap s.tree.root = _
      rw [hroot]
      show parentNode s.heap a = _
      simp only [parentNode, this]
      rfl
  · intro a ha
    have hm := inTree_addrs w ha
    obtain ⟨n, hn⟩ := w.sub.alloc a hm
    refine ⟨n.left, n.right, by simp [leftNode, hn], by simp [rightNode, hn], ?_⟩
    exact child_parent w.sub a hm n hn
  · intro a ha
    have hm' := inTree_addrs w ha
    have h1 : climb s.heap s.tree 1 s.tree.nil = some [] := by simp [climb, nilOf]
    obtain ⟨Q, q1, q2, q3, q4⟩ := climb_rep w.sub hN h1 a hm'
    refine ⟨Q, ?_, by omega, q2, ?_⟩
    · have := climb_mono (m := m + 1) q1 (by omega)
      rw [List.append_nil] at this
      exact this
    · rw [q4]; exact congrArg some hroot.symm

private theorem tall {s : St} {X : T} {v : View} (i : Inv o s X v) : Navigable s v.items s.tree.count :=
  navigable_inv o i (by rw [i.holds.count]; exact height_le_size)

/-- C93, for histories in which at each delete every only child is red. -/
theorem rbtree_navigable_partial {e : Env} {N : Nat} {h : List (Op K × Out)} {s : St} (H : Hist o e N Quiet h s) :
    ∃ v, Run o e ⟨[], []⟩ h v ∧ Sorted o v.items ∧ Navigable s v.items s.tree.count := by
  obtain ⟨X, v, i, r, -⟩ := quiet_inv o H
  exact ⟨v, r, i.sorted, tall o i⟩

/-- C93, for histories with at most one delete between clears. -/
theorem rbtree_navigable_one_delete_partial {e : Env} {N : Nat} {h : List (Op K × Out)} {s : St} (H : Hist o e N OneDelete h s) :
    ∃ v, Run o e ⟨[], []⟩ h v ∧ Sorted o v.items ∧ Navigable s v.items s.tree.count := by
  obtain ⟨X, v, i, r, -⟩ := once_inv o H
  exact ⟨v, r, i.sorted, tall o i⟩

/-- C93, for histories with at most four values at a time. -/
theorem rbtree_navigable_four_partial {e : Env} {N : Nat} {h : List (Op K × Out)} {s : St} (H : Hist o e N (AtMost 4) h s) :
    ∃ v, Run o e ⟨[], []⟩ h v ∧ Sorted o v.items ∧ Navigable s v.items s.tree.count := by
  obtain ⟨X, v, i, r, -⟩ := four_inv o H
  exact ⟨v, r, i.sorted, tall o i⟩

/-- C93, for histories in which only the least value is deleted. -/
theorem rbtree_navigable_first_partial {e : Env} {N : Nat} {h : List (Op K × Out)} {s : St} (H : Hist o e N (First o) h s) :
    ∃ v, Run o e ⟨[], []⟩ h v ∧ Sorted o v.items ∧ Navigable s v.items s.tree.count := by
  obtain ⟨X, v, i, r, -⟩ := first_inv o H
  exact ⟨v, r, i.sorted, tall o i⟩

/-- C93, for a tree used as a stack. -/
theorem rbtree_navigable_stack_partial {e : Env} {N : Nat} {h : List (Op K × Out)} {s : St} (H : Hist o e N (Stack o) h s) :
    ∃ v, Run o e ⟨[], []⟩ h v ∧ Sorted o v.items ∧ Navigable s v.items s.tree.count := by
  obtain ⟨X, v, i, r, -⟩ := stack_inv o H
  exact ⟨v, r, i.sorted, tall o i⟩

/-- C93, in trees that stay balanced: the ways are short. -/
theorem rbtree_navigable_short_partial {e : Env} {N : Nat} {h : List (Op K × Out)} {s : St} (H : Hist o e N (Mild o) h s) :
    ∃ v, Run o e ⟨[], []⟩ h v ∧ Sorted o v.items ∧ Navigable s v.items (2 * Nat.log2 (v.items.length + 1)) := by
  obtain ⟨⟨X, v, i, r, -, b, hb⟩, -⟩ := mild_inv o H
  refine ⟨v, r, i.sorted, navigable_inv o i ?_⟩
  have := height_log i.fit hb
  rwa [← size_io, ← List.length_map (f := Prod.snd), i.items] at this

end

/-- C93 fails: after seven inserts and four deletes, all successful, a user who lists a tree of three values finds none. -/
theorem rbtree_navigable_violated : ∃ h s, Hist natOrder allWell 0 Free h s ∧ treeCount s.tree = 3 ∧
    collect s.heap s.tree (treeCount s.tree + 1) (rootNode s.tree) = some [] := by
  have hc : (calls natOrder allWell (create 0) lossOps).map (fun r => (treeCount r.2.tree,
      collect r.2.heap r.2.tree (treeCount r.2.tree + 1) (rootNode r.2.tree))) = some (3, some []) := by decide +kernel
  cases hr : calls natOrder allWell (create 0) lossOps with
  | none => rw [hr] at hc; cases hc
  | some x =>
    obtain ⟨outs, s⟩ := x
    rw [hr] at hc
    simp only [Option.map_some, Option.some.injEq, Prod.mk.injEq] at hc
    exact ⟨_, s, hist_free (by decide +kernel) hr, hc.1, hc.2⟩

-- Six values: the list, and the way up from the least.
example : (calls natOrder allWell (create 0) [ins 5, ins 2, ins 9, ins 1, ins 7, ins 4]).map (fun r =>
    (collect r.2.heap r.2.tree 5 (rootNode r.2.tree), climb r.2.heap r.2.tree 5 101)) =
      some (some [1, 2, 4, 5, 7, 9], some [101, 102, 105]) := by decide +kernel

end Rcpr.RB
