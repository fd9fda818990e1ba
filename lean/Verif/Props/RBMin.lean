import Verif.RBMin
import Verif.Props.RBTree

/-!
The red-black tree as a queue by key (C07, C09, C11): values are inserted in any order, and only the least is deleted.
There may be any number of values, and the fix-up loop runs. Deleting the greatest is not safe
(`rbtree_map_last_violated`). Missing, as for the other theorems with the suffix: other deletes.
-/
namespace Rcpr.RB

open Rcpr Spec

section
variable {K : Type} (o : Order K) [Std.TransCmp o.cmp]

theorem first_inv {e : Env} {N : Nat} {h : List (Op K × Out)} {s : St} (H : Hist o e N (First o) h s) :
    ∃ X v, Inv o s X v ∧ Run o e ⟨[], []⟩ h v ∧ Clean s ∧ Rises X := by
  induction H with
  | nil => exact ⟨.nil, _, create_inv o, .nil, ⟨0, by simp [create, nilNode]⟩, by simp [Rises, T.lv]⟩
  | @snoc h s op out s' _ hL hP hc ih =>
    obtain ⟨X, v, i, r, c, hr⟩ := ih
    obtain ⟨out', s'', X', v', e1, e2, e3, e4, e5⟩ := call_min o (e := e) i c hr hL hP
    rw [hc] at e1
    obtain ⟨rfl, rfl⟩ := Prod.mk.inj (Option.some.inj e1)
    exact ⟨X', v', e3, .snoc r e2, e4, e5⟩

/-- Every history in which only the value with the least key is deleted: what the calls returned is what a sorted list
allows, the count is its length, and every further call of this kind is defined. -/
theorem rbtree_map_first_partial {e : Env} {N : Nat} {h : List (Op K × Out)} {s : St} (H : Hist o e N (First o) h s) :
    ∃ v, Run o e ⟨[], []⟩ h v ∧ Sorted o v.items ∧ s.tree.count = v.items.length ∧ s.released = v.released ∧
      ∀ op, Legal s op → First o h s op → ∃ out s', call o e s op = some (out, s') := by
  obtain ⟨X, v, i, r, c, hr⟩ := first_inv o H
  refine ⟨v, r, i.sorted, inv_count o i, i.log, fun op hL hP => ?_⟩
  obtain ⟨out, s', _, _, e1, -⟩ := call_min o (e := e) i c hr hL hP
  exact ⟨out, s', e1⟩

/-- In these histories the traversals list the values in order and in the opposite order. -/
theorem rbtree_walk_first_partial {e : Env} {N : Nat} {h : List (Op K × Out)} {s : St} (H : Hist o e N (First o) h s) :
    ∃ v, Run o e ⟨[], []⟩ h v ∧ Sorted o v.items ∧
      ((minimum s.heap s.tree.nil (s.tree.count + 1) s.tree.root).bind fun x =>
        walk (successor (s.tree.count + 1) s.heap s.tree.nil) s.heap s.tree.nil (s.tree.count + 1) x) = some v.items ∧
      ((maximum s.heap s.tree.nil (s.tree.count + 1) s.tree.root).bind fun x =>
        walk (predecessor (s.tree.count + 1) s.heap s.tree.nil) s.heap s.tree.nil (s.tree.count + 1) x) = some v.items.reverse := by
  obtain ⟨X, v, i, r, c, -⟩ := first_inv o H
  exact ⟨v, r, i.sorted, walk_inv o i c⟩

/-- In these histories clearing releases every stored value once, whatever fails, and leaves the tree empty. -/
theorem rbtree_clear_first_partial {e : Env} {N : Nat} {h : List (Op K × Out)} {s : St} (H : Hist o e N (First o) h s) :
    ∃ v st s' p, Run o e ⟨[], []⟩ h v ∧ clear e s = some (st, s') ∧ s'.released = s.released ++ p ∧ p.Perm v.items ∧
      s'.tree.root = s'.tree.nil ∧ s'.tree.count = 0 ∧
      (st = SUCCESS → ∀ u ∈ v.items, e.release u = SUCCESS) ∧
      (st ≠ SUCCESS → (∃ u ∈ v.items, st = e.release u) ∨ ∃ a, InTree s a ∧ st = e.reclaim a) ∧
      (∀ u ∈ v.items, e.release u ≠ SUCCESS → st ≠ SUCCESS) ∧
      (∀ a, InTree s a → (s'.heap a = none ↔ (∃ n, s.heap a = some n ∧ e.release n.value = SUCCESS) ∧ e.reclaim a = SUCCESS)) := by
  obtain ⟨X, v, i, r, -⟩ := first_inv o H
  obtain ⟨st, s', p, h⟩ := clear_inv o (e := e) i
  exact ⟨v, st, s', p, r, h⟩

/-- The same for releasing the tree. -/
theorem rbtree_release_first_partial {e : Env} {N : Nat} {h : List (Op K × Out)} {s : St} (st : Status) (H : Hist o e N (First o) h s) :
    ∃ v r h' p, Run o e ⟨[], []⟩ h v ∧ treeRelease e st s = some (r, h', s.released ++ p) ∧ p.Perm v.items ∧
      (r = SUCCESS → st = SUCCESS ∧ ∀ u ∈ v.items, e.release u = SUCCESS) ∧
      (r ≠ SUCCESS → r = st ∨ (∃ u ∈ v.items, r = e.release u) ∨ ∃ a, InTree s a ∧ r = e.reclaim a) ∧
      (∀ a, InTree s a → (∃ n, s.heap a = some n ∧ e.release n.value = SUCCESS) → e.reclaim a = SUCCESS → h' a = none) := by
  obtain ⟨X, v, i, r, -⟩ := first_inv o H
  obtain ⟨q, h', p, h⟩ := release_inv o (e := e) st i
  exact ⟨v, q, h', p, r, h⟩

end

section examples

/-- A check of the memory: a value with key `k` compares as `c` with all others. -/
def endB (c : Ordering) (s : St) : Op Nat → Bool
  | .delete k _ => match readT s.heap s.tree.nil (s.tree.count + 1) s.tree.nil s.tree.root with
    | some X => (s.tree.nil :: X.addrs).Nodup && X.io.all fun x => natOrder.cmp k (natOrder.key x.2) != .eq ||
        X.io.all fun y => y.1 == x.1 || natOrder.cmp k (natOrder.key y.2) == c
    | none => false
  | _ => true

theorem endB_iff {c : Ordering} {s : St} {k : Nat} {t : Bool} (hf : endB c s (.delete k t) = true) {a b : Nat} {n m : Node} (ha : InTree s a)
    (hn : s.heap a = some n) (hm : Match natOrder k n.value) (hb : InTree s b) (hm' : s.heap b = some m) (hne : b ≠ a) :
    natOrder.cmp k (natOrder.key m.value) = c := by
  simp only [endB] at hf
  split at hf
  · next X hX =>
    simp only [Bool.and_eq_true, decide_eq_true_eq, List.all_eq_true, Bool.or_eq_true, bne_iff_ne, beq_iff_eq] at hf
    obtain ⟨hd, hf⟩ := hf
    obtain ⟨p1, p2, p3⟩ := readT_rep hX
    have w : At s.tree.nil s.heap s.tree.root [] X := ⟨trivial, p1, p2.symm, by simpa [Ctx.addrs] using hd⟩
    have mem : ∀ {a n}, InTree s a → s.heap a = some n → (a, n.value) ∈ X.io := by
      intro a n hi hn
      obtain ⟨k, c, l, v, r, rfl⟩ := inTree_split w hi
      have w' := at_plug.2 w
      rw [List.append_nil] at w'
      have := w'.sub.1
      rw [hn] at this
      obtain rfl := Option.some.inj this
      rw [plug_io]; simp [T.io]
    rcases hf _ (mem ha hn) with h | h
    · exact absurd hm h
    · exact (h _ (mem hb hm')).resolve_left hne
  · cases hf

theorem firstB_iff {h : List (Op Nat × Out)} {s : St} {op : Op Nat} (hf : endB .lt s op = true) : First natOrder h s op := by
  cases op with
  | delete k t => exact endB_iff hf
  | _ => trivial

theorem lastB_iff {h : List (Op Nat × Out)} {s : St} {op : Op Nat} (hf : endB .gt s op = true) : Last natOrder h s op := by
  cases op with
  | delete k t => exact endB_iff hf
  | _ => trivial

/-- Twelve values put in, in mixed order; the least deleted nine times, with more put in between. -/
def firstOps : List (Op Nat) :=
  [ins 5, ins 1, ins 9, ins 3, ins 7, ins 2, ins 8, ins 6, ins 4, ins 10, .delete 1 false, .delete 2 false, .delete 3 true, ins 12, .delete 4 false,
    .delete 5 false, ins 11, .delete 3 false, .delete 6 false, .delete 7 false, .find 11, .delete 8 false, .delete 9 false, .find 12]

example : ∃ h s, Hist natOrder allWell 0 (First natOrder) h s ∧ h.map Prod.fst = firstOps ∧ s.tree.count = 3 ∧
    h.getLast? = some (.find 12, (SUCCESS, 12)) := by
  have hc : (calls natOrder allWell (create 0) firstOps).map (fun r => (r.1, r.2.tree.count)) =
    some (List.replicate 12 (SUCCESS, 0) ++ [(SUCCESS, 3), (SUCCESS, 0), (SUCCESS, 0), (SUCCESS, 0), (SUCCESS, 0), (ERROR_RBTREE_NOT_FOUND, 0),
      (SUCCESS, 0), (SUCCESS, 0), (SUCCESS, 11), (SUCCESS, 0), (SUCCESS, 0), (SUCCESS, 12)], 3) := by
    decide +kernel
  cases hr : calls natOrder allWell (create 0) firstOps with
  | none => rw [hr] at hc; cases hc
  | some x =>
    obtain ⟨outs, s⟩ := x
    rw [hr] at hc
    simp only [Option.map_some, Option.some.injEq, Prod.mk.injEq] at hc
    obtain ⟨rfl, hc⟩ := hc
    exact ⟨_, s, hist_calls (P := First natOrder) (c := fun _ s op => endB .lt s op) (fun _ _ _ => firstB_iff) .nil (by decide +kernel) hr,
      by simp [firstOps, List.replicate], hc, by simp [firstOps, List.replicate]⟩

/-- Values put in in mixed order; only the greatest is deleted. -/
def lastOps : List (Op Nat) :=
  [ins 1, ins 2, ins 3, ins 5, ins 4, ins 41, ins 40, ins 42, ins 9, ins 18, ins 35, ins 17, ins 28, ins 21, ins 43, ins 44, ins 45, ins 46,
    ins 23, ins 14, ins 29, ins 30, ins 26, ins 34, ins 20, ins 11, ins 6, ins 8, ins 7, ins 25, ins 39, ins 19, ins 38, ins 27, .delete 46
    false, .delete 45 false, ins 10, ins 13, .delete 44 false, .delete 43 false, ins 22, .delete 42 false, ins 12, .delete 41 false, .delete
    40 false, .delete 39 false, .delete 38 false, ins 24, .delete 35 false, .delete 34 false, .delete 30 false, ins 15, .delete 29 false,
    .delete 28 false, .delete 27 false, .delete 26 false, ins 36, ins 37, .delete 37 false, .delete 36 false, ins 16, ins 31, ins 32, ins
    33, .delete 33 false, .delete 32 false, .delete 31 false, .delete 25 false, .delete 24 false, .delete 23 false, .delete 22 false,
    .delete 21 false, .delete 20 false]

/-- The other end is not safe: only the greatest value is ever deleted, all calls succeed, and three values that were
never deleted are not found. -/
theorem rbtree_map_last_violated : ∃ h s, Hist natOrder allWell 0 (Last natOrder) h s ∧ h.map Prod.fst = lastOps ∧
    (∀ x ∈ h, x.2.1 = SUCCESS) ∧ s.tree.count = 19 ∧
    ∀ k ∈ [17, 18, 19], .delete k false ∉ lastOps ∧ find natOrder s k = some (ERROR_RBTREE_NOT_FOUND, 0) := by
  have hc : (calls natOrder allWell (create 0) lastOps).map (fun r => (r.1, [find natOrder r.2 17, find natOrder r.2 18, find natOrder r.2 19],
      r.2.tree.count)) = some (List.replicate 73 (SUCCESS, 0), List.replicate 3 (some (ERROR_RBTREE_NOT_FOUND, 0)), 19) := by
    decide +kernel
  cases hr : calls natOrder allWell (create 0) lastOps with
  | none => rw [hr] at hc; cases hc
  | some x =>
    obtain ⟨outs, s⟩ := x
    rw [hr] at hc
    simp only [Option.map_some, Option.some.injEq, Prod.mk.injEq, List.replicate, List.cons.injEq, and_true] at hc
    obtain ⟨rfl, ⟨h1, h2, h3⟩, h4⟩ := hc
    refine ⟨_, s, hist_calls (P := Last natOrder) (c := fun _ s op => endB .gt s op) (fun _ _ _ => lastB_iff) .nil (by decide +kernel) hr,
      by simp [lastOps], by decide +kernel, h4, ?_⟩
    intro k hk
    simp only [List.mem_cons, List.not_mem_nil, or_false] at hk
    rcases hk with rfl | rfl | rfl
    · exact ⟨by simp [lastOps, ins], h1⟩
    · exact ⟨by simp [lastOps, ins], h2⟩
    · exact ⟨by simp [lastOps, ins], h3⟩

end examples

end Rcpr.RB
