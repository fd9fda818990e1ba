import Verif.RBShape
import Verif.RBWalk
import Verif.RBRun

/-!
Traversal, clearing and releasing of a tree state that satisfies the invariant, whatever its history.
-/
namespace Rcpr.RB

open Rcpr Spec

section
variable {K : Type} (o : Order K)

theorem walk_ord {d : Dir} {s : St} {X : T} (w : At s.tree.nil s.heap s.tree.root [] X) (n : Nat) (hn : X.size < n) :
    ∀ (B A : List (Nat × Nat)) (m : Nat), X.ord d = A ++ B → B.length < m →
      walk (succD d n s.heap s.tree.nil) s.heap s.tree.nil m (first s.tree.nil B) = some (B.map Prod.snd)
  | [], A, m + 1, _, _ => by simp [walk, first]
  | (a, v) :: B, A, m + 1, hX, hm => by
    obtain ⟨e1, nd, e2, e3⟩ := walk_step hn w hX
    have haN : a ≠ s.tree.nil := by
      refine w.nin (.inl ?_)
      have : (a, v) ∈ X.ord d := by rw [hX]; simp
      rw [mem_addrs_io]
      cases d
      · exact List.mem_map_of_mem (f := Prod.fst) this
      · exact List.mem_map_of_mem (f := Prod.fst) (List.mem_reverse.1 this)
    have := walk_ord w n hn B (A ++ [(a, v)]) m (by rw [hX]; simp) (by simp at hm; omega)
    rw [walk, first, if_neg haN, e2, Option.bind_some, e1, Option.bind_some, this]
    simp [e3]

theorem start_ord {d : Dir} {s : St} {X : T} (w : At s.tree.nil s.heap s.tree.root [] X) (c : Clean s) (n : Nat) (hn : X.size < n) :
    minD d s.heap s.tree.nil n s.tree.root = some (first s.tree.nil (X.ord d)) := by
  have hroot : s.tree.root = X.root s.tree.nil := w.root
  by_cases hX : X = .nil
  · subst hX
    obtain ⟨n', hc⟩ := c
    obtain ⟨m, rfl⟩ : ∃ m, n = m + 1 := ⟨n - 1, by omega⟩
    rw [hroot, root_nil, minD, hc, ord_nil]
    cases d <;> simp [nilNode, Node.child, first]
  · rw [hroot]
    exact minD_at hX hn w

variable [Std.TransCmp o.cmp]

theorem inv_count {s : St} {X : T} {v : View} (i : Inv o s X v) : s.tree.count = v.items.length := by
  rw [i.holds.count, ← io_length, ← i.items, List.length_map]

theorem walk_inv {s : St} {X : T} {v : View} (i : Inv o s X v) (c : Clean s) :
      ((minimum s.heap s.tree.nil (s.tree.count + 1) s.tree.root).bind fun x =>
        walk (successor (s.tree.count + 1) s.heap s.tree.nil) s.heap s.tree.nil (s.tree.count + 1) x) = some v.items ∧
      ((maximum s.heap s.tree.nil (s.tree.count + 1) s.tree.root).bind fun x =>
        walk (predecessor (s.tree.count + 1) s.heap s.tree.nil) s.heap s.tree.nil (s.tree.count + 1) x) = some v.items.reverse := by
  have hc := i.holds.count
  have hlen : X.io.length = X.size := io_length
  refine ⟨?_, ?_⟩
  · rw [← minD_l, start_ord i.holds.here c _ (by omega), Option.bind_some,
      show successor (s.tree.count + 1) s.heap s.tree.nil = succD .l (s.tree.count + 1) s.heap s.tree.nil from funext fun _ => succD_l.symm,
      walk_ord (d := .l) i.holds.here (s.tree.count + 1) (by omega) (X.ord .l) [] (s.tree.count + 1) rfl (by show X.io.length < _; omega), ← i.items]; rfl
  · rw [← minD_r, start_ord i.holds.here c _ (by omega), Option.bind_some,
      show predecessor (s.tree.count + 1) s.heap s.tree.nil = succD .r (s.tree.count + 1) s.heap s.tree.nil from funext fun _ => succD_r.symm,
      walk_ord (d := .r) i.holds.here (s.tree.count + 1) (by omega) (X.ord .r) [] (s.tree.count + 1) rfl (by show X.io.reverse.length < _; rw [List.length_reverse]; omega), ← i.items,
      ← List.map_reverse]; rfl

theorem clear_inv {e : Env} {s : St} {X : T} {v : View} (i : Inv o s X v) :
    ∃ st s' p, clear e s = some (st, s') ∧ s'.released = s.released ++ p ∧ p.Perm v.items ∧
      s'.tree.root = s'.tree.nil ∧ s'.tree.count = 0 ∧
      (st = SUCCESS → ∀ u ∈ v.items, e.release u = SUCCESS) ∧
      (st ≠ SUCCESS → (∃ u ∈ v.items, st = e.release u) ∨ ∃ a, InTree s a ∧ st = e.reclaim a) ∧
      (∀ u ∈ v.items, e.release u ≠ SUCCESS → st ≠ SUCCESS) ∧
      (∀ a, InTree s a → (s'.heap a = none ↔ (∃ n, s.heap a = some n ∧ e.release n.value = SUCCESS) ∧ e.reclaim a = SUCCESS)) := by
  obtain ⟨st, s', p, e1, e2, e3, e4, e5, e6, e7, e8, -, -⟩ := clear_ok o (e := e) i
  have hin : ∀ x ∈ X.io, InTree s x.1 ∧ ∃ n, s.heap x.1 = some n ∧ n.value = x.2 := by
    intro x hx
    obtain ⟨A, B, hAB⟩ := List.append_of_mem hx
    obtain ⟨k, cc, l, r', q1, -, -⟩ := split_at hAB
    have wX := i.holds.here
    have hroot : s.tree.root = X.root s.tree.nil := wX.root
    have hw : ∀ (k : Ctx) (t : T), At s.tree.nil s.heap s.tree.root k t → t ≠ .nil → InTree s (t.root s.tree.nil) := by
      intro k
      induction k with
      | nil =>
        intro t w ht
        have : s.tree.root = t.root s.tree.nil := w.root
        rw [← this]; exact .root (by rw [this]; exact root_ne w ht)
      | cons f k ih =>
        intro t w ht
        have := ih _ (at_fill.1 w) (by simp [Frame.fill, br_ne_nil])
        rw [Frame.fill, br_root] at this
        have hup := w.up
        obtain ⟨d, c, a, v, s0⟩ := f
        cases d
        · exact .left this hup (root_ne w ht)
        · exact .right this hup (root_ne w ht)
    rw [← q1] at wX
    have w' := at_plug.2 wX
    exact ⟨hw _ _ w' (by simp), _, w'.sub.1, rfl⟩
  have hmem : ∀ u ∈ v.items, ∃ a, (a, u) ∈ X.io := by
    intro u hu
    rw [← i.items] at hu
    obtain ⟨x, hx, rfl⟩ := List.mem_map.1 hu
    exact ⟨x.1, hx⟩
  refine ⟨st, s', p, e1, e2, e3, by rw [e8], by rw [e8], ?_, ?_, ?_, ?_⟩
  · intro hst u hu
    obtain ⟨a, ha⟩ := hmem u hu
    exact (e5 hst _ ha).1
  · intro hst
    obtain ⟨x, hx, h⟩ := e6 hst
    rcases h with h | h
    · exact .inl ⟨x.2, by rw [← i.items]; exact List.mem_map_of_mem hx, h⟩
    · exact .inr ⟨x.1, (hin x hx).1, h⟩
  · intro u hu hne hst
    obtain ⟨a, ha⟩ := hmem u hu
    exact hne (e5 hst _ ha).1
  · intro a ha
    obtain ⟨k, cc, l, u, r', q⟩ := inTree_split i.holds.here ha
    have hx : (a, u) ∈ X.io := by rw [← q, plug_io]; simp [T.io]
    obtain ⟨n, hn, hv⟩ := (hin _ hx).2
    rw [e7 _ hx]
    constructor
    · rintro ⟨h1, h2⟩; exact ⟨⟨n, hn, by rw [hv]; exact h1⟩, h2⟩
    · rintro ⟨⟨n', hn', h1⟩, h2⟩
      rw [hn] at hn'; obtain rfl := Option.some.inj hn'
      exact ⟨by rw [← hv]; exact h1, h2⟩

theorem release_inv {e : Env} {s : St} {X : T} {v : View} (st : Status) (i : Inv o s X v) :
    ∃ r h' p, treeRelease e st s = some (r, h', s.released ++ p) ∧ p.Perm v.items ∧
      (r = SUCCESS → st = SUCCESS ∧ ∀ u ∈ v.items, e.release u = SUCCESS) ∧
      (r ≠ SUCCESS → r = st ∨ (∃ u ∈ v.items, r = e.release u) ∨ ∃ a, InTree s a ∧ r = e.reclaim a) ∧
      (∀ a, InTree s a → (∃ n, s.heap a = some n ∧ e.release n.value = SUCCESS) → e.reclaim a = SUCCESS → h' a = none) := by
  obtain ⟨sd, s', p, e1, e2, e3, -, -, e5, e6, e7, e8⟩ := clear_inv o (e := e) i
  unfold clear at e1
  cases hd : (if s.tree.root ≠ s.tree.nil then deleteNodes e s.tree.nil (s.tree.count + 2) s.heap s.released s.tree.root
      else some (SUCCESS, s.heap, s.released)) with
  | none => rw [hd] at e1; cases e1
  | some x =>
    obtain ⟨sd', h1, log⟩ := x
    rw [hd] at e1
    simp only [Option.bind_eq_bind, Option.bind_some] at e1
    cases hr : resetNil h1 { s.tree with root := s.tree.nil, count := 0 } with
    | none => rw [hr] at e1; cases e1
    | some h2 =>
      rw [hr] at e1
      simp only [Option.bind_some, Option.some.injEq, Prod.mk.injEq] at e1
      obtain ⟨rfl, rfl⟩ := e1
      simp only at e2 e8
      subst e2
      refine ⟨if sd' ≠ SUCCESS then sd' else st, h1, p, ?_, e3, ?_, ?_, ?_⟩
      · unfold treeRelease; rw [hd]; rfl
      · intro hs
        by_cases hsd : sd' = SUCCESS
        · rw [if_neg (by simp [hsd])] at hs; exact ⟨hs, e5 hsd⟩
        · rw [if_pos hsd] at hs; exact absurd hs hsd
      · intro hs
        by_cases hsd : sd' = SUCCESS
        · rw [if_neg (by simp [hsd])]; exact .inl rfl
        · rw [if_pos hsd]; exact .inr (e6 hsd)
      · intro a ha hn hre
        have := (e8 a ha).2 ⟨hn, hre⟩
        unfold resetNil at hr
        cases hz : h1 s.tree.nil with
        | none => simp [hz] at hr
        | some n =>
          simp only [hz, Option.bind_eq_bind, Option.bind_some, Option.some.injEq] at hr
          rw [← hr] at this
          unfold put at this
          split at this
          · cases this
          · exact this

end

end Rcpr.RB
