import Verif.RBSmall
import Verif.Props.RBTree

/-!
The red-black tree while it holds at most four values (C07, C09, C11). Deletes are not restricted here: the fix-up
loop runs and does no harm. With five values it does
(`rbtree_map_five_violated`). Missing, as for the other theorems with the suffix: larger trees.
-/
namespace Rcpr.RB

open Rcpr Spec

section
variable {K : Type} (o : Order K) [Std.TransCmp o.cmp]

theorem four_inv {e : Env} {N : Nat} {h : List (Op K × Out)} {s : St} (H : Hist o e N (AtMost 4) h s) :
    ∃ X v, Inv o s X v ∧ Run o e ⟨[], []⟩ h v ∧ Clean s ∧ X.shape ∈ smallShapes := by
  induction H with
  | nil => exact ⟨.nil, _, create_inv o, .nil, ⟨0, by simp [create, nilNode]⟩, by decide⟩
  | @snoc h s op out s' _ hL hP hc ih =>
    obtain ⟨X, v, i, r, c, hsm⟩ := ih
    obtain ⟨out', s'', X', v', e1, e2, e3, e4, e5⟩ := call_small o (e := e) i c hsm hL fun _ _ => hP
    rw [hc] at e1
    obtain ⟨rfl, rfl⟩ := Prod.mk.inj (Option.some.inj e1)
    exact ⟨X', v', e3, .snoc r e2, e4, e5⟩

/-- Every history in which the tree never holds more than four values, with any deletes in any order: what the
calls returned is what a sorted list allows, the count is its length, and every further call is defined. -/
theorem rbtree_map_four_partial {e : Env} {N : Nat} {h : List (Op K × Out)} {s : St} (H : Hist o e N (AtMost 4) h s) :
    ∃ v, Run o e ⟨[], []⟩ h v ∧ Sorted o v.items ∧ s.tree.count = v.items.length ∧ v.items.length ≤ 4 ∧ s.released = v.released ∧
      ∀ op, Legal s op → AtMost 4 h s op → ∃ out s', call o e s op = some (out, s') := by
  obtain ⟨X, v, i, r, c, hsm⟩ := four_inv o H
  have hcnt := inv_count o i
  refine ⟨v, r, i.sorted, hcnt, ?_, i.log, fun op hL hP => ?_⟩
  · rw [← hcnt, i.holds.count, ← shape_size]; exact smallShapes_size _ hsm
  · obtain ⟨out, s', _, _, e1, -⟩ := call_small o (e := e) i c hsm hL fun _ _ => hP
    exact ⟨out, s', e1⟩

/-- In these histories the traversals list the values in order and in the opposite order. -/
theorem rbtree_walk_four_partial {e : Env} {N : Nat} {h : List (Op K × Out)} {s : St} (H : Hist o e N (AtMost 4) h s) :
    ∃ v, Run o e ⟨[], []⟩ h v ∧ Sorted o v.items ∧
      ((minimum s.heap s.tree.nil (s.tree.count + 1) s.tree.root).bind fun x =>
        walk (successor (s.tree.count + 1) s.heap s.tree.nil) s.heap s.tree.nil (s.tree.count + 1) x) = some v.items ∧
      ((maximum s.heap s.tree.nil (s.tree.count + 1) s.tree.root).bind fun x =>
        walk (predecessor (s.tree.count + 1) s.heap s.tree.nil) s.heap s.tree.nil (s.tree.count + 1) x) = some v.items.reverse := by
  obtain ⟨X, v, i, r, c, -⟩ := four_inv o H
  exact ⟨v, r, i.sorted, walk_inv o i c⟩

/-- In these histories clearing releases every stored value once, whatever fails, and leaves the tree empty. -/
theorem rbtree_clear_four_partial {e : Env} {N : Nat} {h : List (Op K × Out)} {s : St} (H : Hist o e N (AtMost 4) h s) :
    ∃ v st s' p, Run o e ⟨[], []⟩ h v ∧ clear e s = some (st, s') ∧ s'.released = s.released ++ p ∧ p.Perm v.items ∧
      s'.tree.root = s'.tree.nil ∧ s'.tree.count = 0 ∧
      (st = SUCCESS → ∀ u ∈ v.items, e.release u = SUCCESS) ∧
      (st ≠ SUCCESS → (∃ u ∈ v.items, st = e.release u) ∨ ∃ a, InTree s a ∧ st = e.reclaim a) ∧
      (∀ u ∈ v.items, e.release u ≠ SUCCESS → st ≠ SUCCESS) ∧
      (∀ a, InTree s a → (s'.heap a = none ↔ (∃ n, s.heap a = some n ∧ e.release n.value = SUCCESS) ∧ e.reclaim a = SUCCESS)) := by
  obtain ⟨X, v, i, r, -⟩ := four_inv o H
  obtain ⟨st, s', p, h⟩ := clear_inv o (e := e) i
  exact ⟨v, st, s', p, r, h⟩

/-- The same for releasing the tree. -/
theorem rbtree_release_four_partial {e : Env} {N : Nat} {h : List (Op K × Out)} {s : St} (st : Status) (H : Hist o e N (AtMost 4) h s) :
    ∃ v r h' p, Run o e ⟨[], []⟩ h v ∧ treeRelease e st s = some (r, h', s.released ++ p) ∧ p.Perm v.items ∧
      (r = SUCCESS → st = SUCCESS ∧ ∀ u ∈ v.items, e.release u = SUCCESS) ∧
      (r ≠ SUCCESS → r = st ∨ (∃ u ∈ v.items, r = e.release u) ∨ ∃ a, InTree s a ∧ r = e.reclaim a) ∧
      (∀ a, InTree s a → (∃ n, s.heap a = some n ∧ e.release n.value = SUCCESS) → e.reclaim a = SUCCESS → h' a = none) := by
  obtain ⟨X, v, i, r, -⟩ := four_inv o H
  obtain ⟨q, h', p, h⟩ := release_inv o (e := e) st i
  exact ⟨v, q, h', p, r, h⟩

end

section examples

private def fewB (m : Nat) (s : St) : Op Nat → Bool
  | .insert _ _ st => st ≠ SUCCESS || s.tree.count < m
  | _ => true

private theorem fewB_iff {m : Nat} {h : List (Op Nat × Out)} {s : St} {op : Op Nat} (hf : fewB m s op = true) : AtMost m h s op := by
  rintro u a rfl
  simpa [fewB] using hf

/-- Seven deletes, most of them of black nodes, with at most four values. -/
def fourOps : List (Op Nat) :=
  [ins 1, ins 2, ins 3, ins 4, .delete 4 false, .delete 2 false, ins 5, ins 6, .delete 3 true, .delete 6 false, ins 7, ins 2, .find 7,
    .delete 1 false, .delete 5 false, ins 3, .delete 7 false, .find 3]

example : ∃ h s, Hist natOrder allWell 0 (AtMost 4) h s ∧ h.map Prod.fst = fourOps ∧ s.tree.count = 2 ∧
    h.getLast? = some (.find 3, (SUCCESS, 3)) := by
  have hc : (calls natOrder allWell (create 0) fourOps).map (fun r => (r.1, r.2.tree.count)) =
    some ([(SUCCESS, 0), (SUCCESS, 0), (SUCCESS, 0), (SUCCESS, 0), (SUCCESS, 0), (SUCCESS, 0), (SUCCESS, 0), (SUCCESS, 0), (SUCCESS, 3),
      (SUCCESS, 0), (SUCCESS, 0), (SUCCESS, 0), (SUCCESS, 7), (SUCCESS, 0), (SUCCESS, 0), (SUCCESS, 0), (SUCCESS, 0), (SUCCESS, 3)], 2) := by
    decide +kernel
  cases hr : calls natOrder allWell (create 0) fourOps with
  | none => rw [hr] at hc; cases hc
  | some x =>
    obtain ⟨outs, s⟩ := x
    rw [hr] at hc
    simp only [Option.map_some, Option.some.injEq, Prod.mk.injEq] at hc
    obtain ⟨rfl, hc⟩ := hc
    exact ⟨_, s, hist_calls (P := AtMost 4) (c := fun _ s op => fewB 4 s op) (fun _ _ _ => fewB_iff) .nil (by decide +kernel) hr,
      by simp [fourOps], hc, by simp [fourOps]⟩

/-- Values inserted in ascending order, never more than five at a time. -/
def fiveOps : List (Op Nat) :=
  [ins 1, ins 2, ins 3, ins 4, .delete 4 false, .delete 2 false, ins 5, ins 6, ins 7, .delete 3 false, .delete 6 false, .delete 5 false]

/-- Four is the largest number: with up to five values, all calls succeed, two values should be left, and neither is
found. The values come in ascending order, as in the trees of mailboxes and barriers. -/
theorem rbtree_map_five_violated : ∃ h s, Hist natOrder allWell 0 (AtMost 5) h s ∧ h.map Prod.fst = fiveOps ∧
    (∀ x ∈ h, x.2.1 = SUCCESS) ∧ find natOrder s 1 = some (ERROR_RBTREE_NOT_FOUND, 0) ∧
    find natOrder s 7 = some (ERROR_RBTREE_NOT_FOUND, 0) ∧ s.tree.count = 2 ∧ s.released = [4, 2, 3, 6, 5] := by
  have hc : (calls natOrder allWell (create 0) fiveOps).map (fun r => (r.1, [find natOrder r.2 1, find natOrder r.2 7], r.2.tree.count, r.2.released)) =
      some (List.replicate 12 (SUCCESS, 0), [some (ERROR_RBTREE_NOT_FOUND, 0), some (ERROR_RBTREE_NOT_FOUND, 0)], 2, [4, 2, 3, 6, 5]) := by
    decide +kernel
  cases hr : calls natOrder allWell (create 0) fiveOps with
  | none => rw [hr] at hc; cases hc
  | some x =>
    obtain ⟨outs, s⟩ := x
    rw [hr] at hc
    simp only [Option.map_some, Option.some.injEq, Prod.mk.injEq, List.cons.injEq, and_true] at hc
    obtain ⟨rfl, ⟨h1, h2⟩, h3, h4⟩ := hc
    exact ⟨_, s, hist_calls (P := AtMost 5) (c := fun _ s op => fewB 5 s op) (fun _ _ _ => fewB_iff) .nil (by decide +kernel) hr,
      by simp [fiveOps, List.replicate], by decide, h1, h2, h3, h4⟩

end examples

end Rcpr.RB
