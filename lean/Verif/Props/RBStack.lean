import Verif.RBStack
import Verif.Props.RBMin

/-!
The red-black tree as a stack (C07, C09, C11): each value goes in above all others, and only the greatest is deleted. There may
be any number of values, and the fix-up loop runs. When values are put in elsewhere, deleting the greatest is not
safe (`rbtree_map_last_violated`). Missing, as for the other theorems with the suffix: other inserts and deletes.
-/
namespace Rcpr.RB

open Rcpr Spec

section
variable {K : Type} (o : Order K) [Std.TransCmp o.cmp]

theorem stack_inv {e : Env} {N : Nat} {h : List (Op K × Out)} {s : St} (H : Hist o e N (Stack o) h s) :
    ∃ X v, Inv o s X v ∧ Run o e ⟨[], []⟩ h v ∧ Clean s ∧ X.stacked := by
  induction H with
  | nil => exact ⟨.nil, _, create_inv o, .nil, ⟨0, by simp [create, nilNode]⟩, trivial⟩
  | @snoc h s op out s' _ hL hP hc ih =>
    obtain ⟨X, v, i, r, c, hr⟩ := ih
    obtain ⟨out', s'', X', v', e1, e2, e3, e4, e5⟩ := call_stack o (e := e) i c hr hL hP
    rw [hc] at e1
    obtain ⟨rfl, rfl⟩ := Prod.mk.inj (Option.some.inj e1)
    exact ⟨X', v', e3, .snoc r e2, e4, e5⟩

/-- Every history in which a value goes in above all others and only the one with the greatest key is deleted: what the calls returned is what a sorted list
allows, the count is its length, and every further call of this kind is defined. -/
theorem rbtree_map_stack_partial {e : Env} {N : Nat} {h : List (Op K × Out)} {s : St} (H : Hist o e N (Stack o) h s) :
    ∃ v, Run o e ⟨[], []⟩ h v ∧ Sorted o v.items ∧ s.tree.count = v.items.length ∧ s.released = v.released ∧
      ∀ op, Legal s op → Stack o h s op → ∃ out s', call o e s op = some (out, s') := by
  obtain ⟨X, v, i, r, c, hr⟩ := stack_inv o H
  refine ⟨v, r, i.sorted, inv_count o i, i.log, fun op hL hP => ?_⟩
  obtain ⟨out, s', _, _, e1, -⟩ := call_stack o (e := e) i c hr hL hP
  exact ⟨out, s', e1⟩

/-- In these histories the traversals list the values in order and in the opposite order. -/
theorem rbtree_walk_stack_partial {e : Env} {N : Nat} {h : List (Op K × Out)} {s : St} (H : Hist o e N (Stack o) h s) :
    ∃ v, Run o e ⟨[], []⟩ h v ∧ Sorted o v.items ∧
      ((minimum s.heap s.tree.nil (s.tree.count + 1) s.tree.root).bind fun x =>
        walk (successor (s.tree.count + 1) s.heap s.tree.nil) s.heap s.tree.nil (s.tree.count + 1) x) = some v.items ∧
      ((maximum s.heap s.tree.nil (s.tree.count + 1) s.tree.root).bind fun x =>
        walk (predecessor (s.tree.count + 1) s.heap s.tree.nil) s.heap s.tree.nil (s.tree.count + 1) x) = some v.items.reverse := by
  obtain ⟨X, v, i, r, c, -⟩ := stack_inv o H
  exact ⟨v, r, i.sorted, walk_inv o i c⟩

/-- In these histories clearing releases every stored value once, whatever fails, and leaves the tree empty. -/
theorem rbtree_clear_stack_partial {e : Env} {N : Nat} {h : List (Op K × Out)} {s : St} (H : Hist o e N (Stack o) h s) :
    ∃ v st s' p, Run o e ⟨[], []⟩ h v ∧ clear e s = some (st, s') ∧ s'.released = s.released ++ p ∧ p.Perm v.items ∧
      s'.tree.root = s'.tree.nil ∧ s'.tree.count = 0 ∧
      (st = SUCCESS → ∀ u ∈ v.items, e.release u = SUCCESS) ∧
      (st ≠ SUCCESS → (∃ u ∈ v.items, st = e.release u) ∨ ∃ a, InTree s a ∧ st = e.reclaim a) ∧
      (∀ u ∈ v.items, e.release u ≠ SUCCESS → st ≠ SUCCESS) ∧
      (∀ a, InTree s a → (s'.heap a = none ↔ (∃ n, s.heap a = some n ∧ e.release n.value = SUCCESS) ∧ e.reclaim a = SUCCESS)) := by
  obtain ⟨X, v, i, r, -⟩ := stack_inv o H
  obtain ⟨st, s', p, h⟩ := clear_inv o (e := e) i
  exact ⟨v, st, s', p, r, h⟩

/-- The same for releasing the tree. -/
theorem rbtree_release_stack_partial {e : Env} {N : Nat} {h : List (Op K × Out)} {s : St} (st : Status) (H : Hist o e N (Stack o) h s) :
    ∃ v r h' p, Run o e ⟨[], []⟩ h v ∧ treeRelease e st s = some (r, h', s.released ++ p) ∧ p.Perm v.items ∧
      (r = SUCCESS → st = SUCCESS ∧ ∀ u ∈ v.items, e.release u = SUCCESS) ∧
      (r ≠ SUCCESS → r = st ∨ (∃ u ∈ v.items, r = e.release u) ∨ ∃ a, InTree s a ∧ r = e.reclaim a) ∧
      (∀ a, InTree s a → (∃ n, s.heap a = some n ∧ e.release n.value = SUCCESS) → e.reclaim a = SUCCESS → h' a = none) := by
  obtain ⟨X, v, i, r, -⟩ := stack_inv o H
  obtain ⟨q, h', p, h⟩ := release_inv o (e := e) st i
  exact ⟨v, q, h', p, r, h⟩

end

section examples

/-- A check of the memory: the key of an inserted value is smaller than none; a deleted one is greater than all others. -/
def stackB (s : St) : Op Nat → Bool
  | .insert u _ _ => match readT s.heap s.tree.nil (s.tree.count + 1) s.tree.nil s.tree.root with
    | some X => (s.tree.nil :: X.addrs).Nodup && X.io.all fun x => natOrder.cmp (natOrder.key u) (natOrder.key x.2) != .lt
    | none => false
  | op => endB .gt s op

theorem stackB_iff {h : List (Op Nat × Out)} {s : St} {op : Op Nat} (hf : stackB s op = true) : Stack natOrder h s op := by
  cases op with
  | insert u a st =>
    intro b m hb hm
    simp only [stackB] at hf
    split at hf
    · next X hX =>
      simp only [Bool.and_eq_true, decide_eq_true_eq, List.all_eq_true, bne_iff_ne] at hf
      obtain ⟨hd, hf⟩ := hf
      obtain ⟨p1, p2, p3⟩ := readT_rep hX
      have w : At s.tree.nil s.heap s.tree.root [] X := ⟨trivial, p1, p2.symm, by simpa [Ctx.addrs] using hd⟩
      obtain ⟨k, c, l, v, r, rfl⟩ := inTree_split w hb
      have w' := at_plug.2 w
      rw [List.append_nil] at w'
      have := w'.sub.1
      rw [hm] at this
      obtain rfl := Option.some.inj this
      exact hf (b, v) (by rw [plug_io]; simp [T.io])
    · cases hf
  | delete k t => exact lastB_iff (h := h) (op := .delete k t) hf
  | _ => trivial

/-- Ten values put in and six taken out at the upper end, then more of both; one call deletes nothing. -/
def stackOps : List (Op Nat) :=
  [ins 1, ins 2, ins 3, ins 4, ins 5, ins 6, ins 7, ins 8, ins 9, ins 10, .delete 10 false, .delete 9 true, .delete 8 false, .delete 7 false,
    .delete 6 false, .delete 9 false, .delete 5 false, ins 8, ins 11, .find 4, .delete 11 false, .delete 8 false, .delete 4 false, .delete 3 false,
    ins 6, .find 2]

example : ∃ h s, Hist natOrder allWell 0 (Stack natOrder) h s ∧ h.map Prod.fst = stackOps ∧ s.tree.count = 3 ∧
    h.getLast? = some (.find 2, (SUCCESS, 2)) := by
  have hc : (calls natOrder allWell (create 0) stackOps).map (fun r => (r.1, r.2.tree.count)) =
    some (List.replicate 11 (SUCCESS, 0) ++ [(SUCCESS, 9), (SUCCESS, 0), (SUCCESS, 0), (SUCCESS, 0), (ERROR_RBTREE_NOT_FOUND, 0), (SUCCESS, 0),
      (SUCCESS, 0), (SUCCESS, 0), (SUCCESS, 4), (SUCCESS, 0), (SUCCESS, 0), (SUCCESS, 0), (SUCCESS, 0), (SUCCESS, 0), (SUCCESS, 2)], 3) := by
    decide +kernel
  cases hr : calls natOrder allWell (create 0) stackOps with
  | none => rw [hr] at hc; cases hc
  | some x =>
    obtain ⟨outs, s⟩ := x
    rw [hr] at hc
    simp only [Option.map_some, Option.some.injEq, Prod.mk.injEq] at hc
    obtain ⟨rfl, hc⟩ := hc
    exact ⟨_, s, hist_calls (P := Stack natOrder) (c := fun _ s op => stackB s op) (fun _ _ _ => stackB_iff) .nil (by decide +kernel) hr,
      by simp [stackOps, List.replicate], hc, by simp [stackOps, List.replicate]⟩

end examples

end Rcpr.RB
