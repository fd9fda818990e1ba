import Verif.RBUse
import Verif.RBGone

/-!
Properties of the red-black tree: C07, C08, C09, C10, C11 and the part of C44 about it.

The deletion of the code loses elements once its fix-up loop runs (`rbtree_map_violated`). The theorems with
the suffix `_partial` hold for histories in which it does not run: either because at most one element is
deleted between two clears, or because at each deletion every only child is red. Missing from them: histories
with several deletions in which the loop runs and happens to do no harm. Balance (C08) is kept exactly as long
as no deletion takes a black node off a path (`rbtree_balanced_spare_partial`, `rbtree_unbalanced_violated`).
-/
namespace Rcpr.RB

open Rcpr Spec

section
variable {K : Type} (o : Order K)

/-! ### From histories to the invariant -/

variable [Std.TransCmp o.cmp]

theorem quiet_inv {e : Env} {N : Nat} {h : List (Op K × Out)} {s : St} (H : Hist o e N Quiet h s) :
    ∃ X v, Inv o s X v ∧ Run o e ⟨[], []⟩ h v ∧ Clean s := by
  induction H with
  | nil => exact ⟨.nil, _, create_inv o, .nil, ⟨0, by simp [create, nilNode]⟩⟩
  | @snoc h s op out s' _ hL hP hc ih =>
    obtain ⟨X, v, i, r, c⟩ := ih
    obtain ⟨n, hn, hr⟩ := i.holds.nil
    have hroot : s.tree.root = X.root s.tree.nil := i.holds.here.root
    obtain ⟨out', s'', X', v', e1, e2, e3, -, -, e4⟩ := call_ok o (e := e) i hL fun hd =>
      oneRed_of (hP hd) hn hr i.holds.here fun hX => by
        rw [← hroot]; exact .root (by rw [hroot]; exact root_ne i.holds.here hX)
    rw [hc] at e1
    obtain ⟨rfl, rfl⟩ := Prod.mk.inj (Option.some.inj e1)
    exact ⟨X', v', e3, .snoc r e2, e4 c⟩

private theorem pending_snoc {h : List (Op K × Out)} {op : Op K} {out : Out} :
    pending (h ++ [(op, out)]) = if isDelete op then true else if isClear op then false else pending h := by
  simp [pending]

theorem once_inv {e : Env} {N : Nat} {h : List (Op K × Out)} {s : St} (H : Hist o e N OneDelete h s) :
    ∃ X v, Inv o s X v ∧ Run o e ⟨[], []⟩ h v ∧ Clean s ∧ (pending h = false → ∃ b, Bal b X) := by
  induction H with
  | nil => exact ⟨.nil, _, create_inv o, .nil, ⟨0, by simp [create, nilNode]⟩, fun _ => ⟨0, rfl⟩⟩
  | @snoc h s op out s' _ hL hP hc ih =>
    obtain ⟨X, v, i, r, c, hb⟩ := ih
    obtain ⟨out', s'', X', v', e1, e2, e3, e5, e6, e4⟩ := call_ok o (e := e) i hL fun hd => by
      obtain ⟨b, h⟩ := hb (hP hd); exact bal_oneRed h
    rw [hc] at e1
    obtain ⟨rfl, rfl⟩ := Prod.mk.inj (Option.some.inj e1)
    refine ⟨X', v', e3, .snoc r e2, e4 c, fun hp => ?_⟩
    rw [pending_snoc] at hp
    cases hd : isDelete op with
    | true => rw [hd] at hp; cases hp
    | false =>
      cases hcl : isClear op with
      | true => exact e6 hcl
      | false =>
        rw [hd, hcl] at hp
        exact e5 hd (hb hp)

/-- A tree state and its shape, at the node the key leads to. -/
private theorem spare_at {s : St} {X : T} {v : View} (i : Inv o s X v) {kk : Ctx} {c : Bool} {L R : T} {a u : Nat}
    (hX : X = plug kk (.node c L a u R)) :
    InTree s a ∧ (∃ n, s.heap a = some n ∧ n.value = u) ∧ (Spare s a ↔ spareT (.node c L a u R)) := by
  obtain ⟨wX, ⟨n0, hn, hr⟩, -⟩ := i.holds
  have w : At s.tree.nil s.heap s.tree.root kk (.node c L a u R) := by
    rw [hX] at wX; have := at_plug.2 wX; rwa [List.append_nil] at this
  have hw : ∀ (k : Ctx) (t : T), At s.tree.nil s.heap s.tree.root k t → t ≠ .nil → InTree s (t.root s.tree.nil) := by
    intro k
    induction k with
    | nil =>
      intro t w ht
      have : s.tree.root = t.root s.tree.nil := w.root
      rw [← this]; exact .root (by rw [this]; exact root_ne w ht)
    | cons f k ih =>
      intro t w ht
      have := ih _ (at_fill.1 w) (by simp [Frame.fill, br_ne_nil])
      rw [Frame.fill, br_root] at this
      have hup := w.up
      obtain ⟨d, c, a, v, s0⟩ := f
      cases d
      · exact .left this hup (root_ne w ht)
      · exact .right this hup (root_ne w ht)
  exact ⟨hw _ _ w (by simp), ⟨_, w.sub.1, rfl⟩, spare_iff hn hr w⟩

theorem mild_inv {e : Env} {N : Nat} {h : List (Op K × Out)} {s : St} (H : Hist o e N (Mild o) h s) :
    (∃ X v, Inv o s X v ∧ Run o e ⟨[], []⟩ h v ∧ Clean s ∧ ∃ b, Bal b X) ∧ Hist o e N Quiet h s := by
  induction H with
  | nil => exact ⟨⟨.nil, _, create_inv o, .nil, ⟨0, by simp [create, nilNode]⟩, ⟨0, rfl⟩⟩, .nil⟩
  | @snoc h s op out s' _ hL hP hc ih =>
    obtain ⟨⟨X, v, i, r, c, b, hb⟩, hq⟩ := ih
    refine ⟨?_, .snoc hq hL (fun _ => onlyChildRed_of i.holds (bal_oneRed hb)) hc⟩
    cases hd : isDelete op with
    | false =>
      obtain ⟨out', s'', X', v', e1, e2, e3, e5, -, e4⟩ := call_ok o (e := e) i hL fun hd' => by rw [hd] at hd'; cases hd'
      rw [hc] at e1
      obtain ⟨rfl, rfl⟩ := Prod.mk.inj (Option.some.inj e1)
      exact ⟨X', v', e3, .snoc r e2, e4 c, e5 hd ⟨b, hb⟩⟩
    | true =>
      cases op with
      | delete k take =>
        obtain ⟨st, val, s'', X', v', e1, e2, e3, -, e4, e5⟩ := delete_ok o (e := e) (k := k) (take := take) i (bal_oneRed hb)
        rw [call, e1] at hc
        obtain ⟨rfl, rfl⟩ := Prod.mk.inj (Option.some.inj hc)
        refine ⟨X', v', e3, .snoc r e2, e4 c, ?_⟩
        by_cases hz : X'.size = 0
        · cases X' with
          | nil => exact ⟨0, rfl⟩
          | node => simp [T.size] at hz
        · refine ⟨b, (e5 b hb).1 fun kk c L a u R hX hm => ?_⟩
          obtain ⟨q1, ⟨n, q2, q3⟩, q4⟩ := spare_at o i hX
          refine q4.1 ?_
          rcases hP with h1 | h1
          · -- the last element: nothing is left
            exfalso
            have hx := i.holds.count
            have hx' := e3.holds.count
            have hi := i.items
            have hi' := e3.items
            have l1 : v.items.length = 1 := by rw [← hi, List.length_map, io_length, ← hx, h1]
            have l2 : v'.items.length = X'.size := by rw [← hi', List.length_map, io_length]
            have hmem : u ∈ v.items := by rw [← hi, hX, plug_io]; simp [T.io]
            cases e2 with
            | @take A B =>
              simp only [List.length_append, List.length_cons] at l1 l2; omega
            | @delete A B =>
              simp only [List.length_append, List.length_cons] at l1 l2; omega
            | deleteNone hno => exact hno u hmem hm
          · exact h1 q1 q2 (by rw [q3]; exact hm)
      | insert => cases hd
      | find => cases hd
      | clear => cases hd

private theorem none_once {e : Env} {N : Nat} {h : List (Op K × Out)} {s : St} (H : Hist o e N NoDelete h s) :
    Hist o e N OneDelete h s ∧ pending h = false := by
  induction H with
  | nil => exact ⟨.nil, rfl⟩
  | @snoc h s op out s' _ hL hP hc ih =>
    refine ⟨.snoc ih.1 hL (fun _ => ih.2) hc, ?_⟩
    rw [pending_snoc, show isDelete op = false from hP]
    simp [ih.2]

/-! ### C07: an ordered map -/

/-- Every history in which deletes meet only red only children: what the calls returned is what a sorted
list allows, the count is its length, and every further call is defined. -/
theorem rbtree_map_partial {e : Env} {N : Nat} {h : List (Op K × Out)} {s : St} (H : Hist o e N Quiet h s) :
    ∃ v, Run o e ⟨[], []⟩ h v ∧ Sorted o v.items ∧ s.tree.count = v.items.length ∧ s.released = v.released ∧
      ∀ op, Legal s op → Quiet h s op → ∃ out s', call o e s op = some (out, s') := by
  obtain ⟨X, v, i, r, c⟩ := quiet_inv o H
  refine ⟨v, r, i.sorted, inv_count o i, i.log, fun op hL hQ => ?_⟩
  obtain ⟨n, hn, hr⟩ := i.holds.nil
  have hroot : s.tree.root = X.root s.tree.nil := i.holds.here.root
  obtain ⟨out, s', _, _, e1, -⟩ := call_ok o (e := e) i hL fun hd =>
    oneRed_of (hQ hd) hn hr i.holds.here fun hX => by
      rw [← hroot]; exact .root (by rw [hroot]; exact root_ne i.holds.here hX)
  exact ⟨out, s', e1⟩

/-- The same for every history with at most one delete between clears; nothing is assumed about the shape. -/
theorem rbtree_map_one_delete_partial {e : Env} {N : Nat} {h : List (Op K × Out)} {s : St} (H : Hist o e N OneDelete h s) :
    ∃ v, Run o e ⟨[], []⟩ h v ∧ Sorted o v.items ∧ s.tree.count = v.items.length ∧ s.released = v.released ∧
      ∀ op, Legal s op → OneDelete h s op → ∃ out s', call o e s op = some (out, s') := by
  obtain ⟨X, v, i, r, c, hb⟩ := once_inv o H
  refine ⟨v, r, i.sorted, inv_count o i, i.log, fun op hL hQ => ?_⟩
  obtain ⟨out, s', _, _, e1, -⟩ := call_ok o (e := e) i hL fun hd => by
    obtain ⟨b, h⟩ := hb (hQ hd); exact bal_oneRed h
  exact ⟨out, s', e1⟩

/-- Without deletes between clears: a key is found exactly if a value with it was inserted, and what is
found is such a value. -/
theorem rbtree_find_insert {e : Env} {N : Nat} {h : List (Op K × Out)} {s : St} (H : Hist o e N NoDelete h s)
    (hc : ∀ x ∈ h, isClear x.1 = false) (k : K) :
    ∃ st u, find o s k = some (st, u) ∧
      ((st = SUCCESS ∧ Match o k u ∧ ∃ a, (Op.insert u a SUCCESS, (SUCCESS, 0)) ∈ h) ∨
       (st = ERROR_RBTREE_NOT_FOUND ∧ ∀ w a, (Op.insert w a SUCCESS, (SUCCESS, 0)) ∈ h → ¬ Match o k w)) := by
  obtain ⟨X, v, i, r, -, -⟩ := once_inv o (none_once o H).1
  have hnd : ∀ x ∈ h, isDelete x.1 = false := by
    clear hc r i
    induction H with
    | nil => simp
    | snoc _ _ hP _ ih =>
      intro x hx
      rcases List.mem_append.1 hx with hx | hx
      · exact ih x hx
      · rw [List.mem_singleton] at hx; subst hx; exact hP
  have hmem : ∀ w, w ∈ v.items ↔ ∃ a, (Op.insert w a SUCCESS, ((SUCCESS, 0) : Out)) ∈ h := by
    clear i H
    have insert_mem : ∀ {u w : Nat} {l : List Nat}, w ∈ Spec.insert o u l ↔ w = u ∨ w ∈ l := by
      intro u w l
      induction l with
      | nil => simp [Spec.insert]
      | cons y l ih =>
        rw [Spec.insert]
        split
        · simp
        · simp only [List.mem_cons, ih]
          constructor
          · rintro (h | h | h) <;> simp [h]
          · rintro (h | h | h) <;> simp [h]
    generalize hv0 : (⟨[], []⟩ : View) = v0 at r
    induction r with
    | nil => subst hv0; simp
    | @snoc s1 s2 h op out r st ih =>
      have hc' := fun x hx => hc x (List.mem_append_left _ hx)
      have hd' := fun x hx => hnd x (List.mem_append_left _ hx)
      have ih := ih hc' hd'
      have hcl : isClear op = false := hc (op, out) (by simp)
      have hdl : isDelete op = false := hnd (op, out) (by simp)
      intro w
      cases st with
      | @insert v a =>
        rw [insert_mem, ih w]
        constructor
        · rintro (rfl | ⟨b, hb⟩)
          · exact ⟨_, List.mem_append_right _ (List.mem_singleton.2 rfl)⟩
          · exact ⟨b, by simp [hb]⟩
        · rintro ⟨b, hb⟩
          rcases List.mem_append.1 hb with hb | hb
          · exact .inr ⟨b, hb⟩
          · simp at hb; exact .inl hb.1
      | insertFail hst =>
        rw [ih w]
        constructor
        · rintro ⟨b, hb⟩; exact ⟨b, by simp [hb]⟩
        · rintro ⟨b, hb⟩
          rcases List.mem_append.1 hb with hb | hb
          · exact ⟨b, hb⟩
          · simp at hb; exact absurd hb.1.2.2.symm hst
      | find => rw [ih w]; simp
      | findNone => rw [ih w]; simp
      | take => cases hdl
      | delete => cases hdl
      | deleteNone => cases hdl
      | clear => cases hcl
  obtain ⟨out, e1, e2⟩ := find_ok o (k := k) i
  refine ⟨out.1, out.2, e1, ?_⟩
  cases e2 e with
  | find hu hm => exact .inl ⟨rfl, hm, (hmem _).1 hu⟩
  | findNone hno => exact .inr ⟨rfl, fun w a hw => hno w ((hmem w).2 ⟨a, hw⟩)⟩

/-! ### C08: balance -/

/-- Without deletes between clears the tree in memory is a red-black tree. -/
theorem rbtree_balanced_partial {e : Env} {N : Nat} {h : List (Op K × Out)} {s : St} (H : Hist o e N OneDelete h s)
    (hp : pending h = false) : RedBlack s := by
  obtain ⟨X, v, i, -, -, hb⟩ := once_inv o H
  obtain ⟨b, hb⟩ := hb hp
  exact redBlack_of i.holds i.fit hb

/-- ... and a lookup visits at most `2 * log2 (n + 1)` nodes: that much fuel lets it finish. -/
theorem rbtree_find_steps_partial {e : Env} {N : Nat} {h : List (Op K × Out)} {s : St} (H : Hist o e N OneDelete h s)
    (hp : pending h = false) (k : K) :
    findNode o s.heap s.tree.nil k (2 * Nat.log2 (s.tree.count + 1) + 1) s.tree.root ≠ none := by
  obtain ⟨X, v, i, -, -, hb⟩ := once_inv o H
  obtain ⟨b, hb⟩ := hb hp
  have hh := height_log i.fit hb
  have hroot : s.tree.root = X.root s.tree.nil := i.holds.here.root
  rw [hroot, i.holds.count]
  rcases find_at o (key := k) (n := 2 * Nat.log2 (X.size + 1) + 1) (by omega) i.holds.here with ⟨c, L, a, u, R, k2, e1, -⟩ | ⟨k2, e1, -⟩
  · rw [e1]; simp
  · rw [e1]; simp

/-- With deletes, as long as each concerns a spare node or the last one: the tree in memory is a red-black tree, a
lookup visits at most `2 * log2 (n + 1)` nodes, and the history is one of those of the map theorems. -/
theorem rbtree_balanced_spare_partial {e : Env} {N : Nat} {h : List (Op K × Out)} {s : St} (H : Hist o e N (Mild o) h s) :
    RedBlack s ∧ (∀ k, findNode o s.heap s.tree.nil k (2 * Nat.log2 (s.tree.count + 1) + 1) s.tree.root ≠ none) ∧
      Hist o e N Quiet h s := by
  obtain ⟨⟨X, v, i, -, -, b, hb⟩, hq⟩ := mild_inv o H
  refine ⟨redBlack_of i.holds i.fit hb, fun k => ?_, hq⟩
  have hh := height_log i.fit hb
  have hroot : s.tree.root = X.root s.tree.nil := i.holds.here.root
  rw [hroot, i.holds.count]
  rcases find_at o (key := k) (n := 2 * Nat.log2 (X.size + 1) + 1) (by omega) i.holds.here with ⟨c, L, a, u, R, k2, e1, -⟩ | ⟨k2, e1, -⟩
  · rw [e1]; simp
  · rw [e1]; simp

/-- The condition is exact: after such a history, deleting a value whose node is not spare succeeds and leaves a
tree that is not a red-black tree any more, unless it was the last value. -/
theorem rbtree_unbalanced_violated {e : Env} {N : Nat} {h : List (Op K × Out)} {s : St} (H : Hist o e N (Mild o) h s)
    {k : K} {take : Bool} (hc : s.tree.count ≠ 1) {a : Nat} {n : Node} (hi : InTree s a) (hn : s.heap a = some n)
    (hm : Match o k n.value)
    (hs : ∀ {a n}, InTree s a → s.heap a = some n → Match o k n.value → ¬ Spare s a) :
    ∃ st val s', delete o e s k take = some (st, val, s') ∧ ¬ RedBlack s' := by
  obtain ⟨⟨X, v, i, -, -, b, hb⟩, -⟩ := mild_inv o H
  obtain ⟨st, val, s', X', v', e1, e2, e3, -, -, e5⟩ := delete_ok o (e := e) (k := k) (take := take) i (bal_oneRed hb)
  refine ⟨st, val, s', e1, fun hrb => ?_⟩
  obtain ⟨b', hb'⟩ := redBlack_bal e3.holds hrb
  obtain ⟨kk, c, l, u, r, hX⟩ := inTree_split i.holds.here hi
  obtain ⟨-, ⟨n', q2, q3⟩, -⟩ := spare_at o i hX.symm
  rw [hn] at q2; obtain rfl := Option.some.inj q2
  have hu : u ∈ v.items := by rw [← i.items, ← hX, plug_io]; simp [T.io]
  rw [q3] at hm
  refine (e5 b hb).2 (fun kk c L a u R hX hm hsp => ?_) ⟨u, hu, hm⟩ ?_ b' hb'
  · obtain ⟨q1, ⟨n, q2, q3⟩, q4⟩ := spare_at o i hX
    exact hs q1 q2 (by rw [q3]; exact hm) (q4.2 hsp)
  · intro hz
    have l1 : v.items.length = s.tree.count := (inv_count o i).symm
    have l2 : v'.items.length = X'.size := by rw [← e3.items, List.length_map, io_length]
    cases e2 with
    | @take A B => simp only [List.length_append, List.length_cons] at l1 l2; omega
    | @delete A B => simp only [List.length_append, List.length_cons] at l1 l2; omega
    | deleteNone hno => exact hno u hu hm

/-- Even after deletes of the kind covered here the root is black and no red node has a red child. -/
theorem rbtree_no_red_red_partial {e : Env} {N : Nat} {h : List (Op K × Out)} {s : St} (H : Hist o e N Quiet h s) :
    ¬ IsRed s s.tree.root ∧
      ∀ {a n}, InTree s a → s.heap a = some n → n.red = true → ¬ IsRed s n.left ∧ ¬ IsRed s n.right := by
  obtain ⟨X, v, i, -, -⟩ := quiet_inv o H
  obtain ⟨n0, hn, hr⟩ := i.holds.nil
  have wX := i.holds.here
  have hroot : s.tree.root = X.root s.tree.nil := wX.root
  refine ⟨by rw [hroot, isRed_col wX hn hr, i.fit.black]; simp, ?_⟩
  intro a nd hi hnd hred
  obtain ⟨k, c, l, v, r, e⟩ := inTree_split wX hi
  have w' : At s.tree.nil s.heap s.tree.root k (.node c l a v r) := by
    rw [← e] at wX; have := at_plug.2 wX; rwa [List.append_nil] at this
  have wl : At s.tree.nil s.heap s.tree.root (⟨.l, c, a, v, r⟩ :: k) l := at_fill.2 w'
  have wr : At s.tree.nil s.heap s.tree.root (⟨.r, c, a, v, l⟩ :: k) r := at_fill.2 w'
  have hnode := w'.sub.1
  rw [hnd] at hnode
  obtain rfl := Option.some.inj hnode
  have hrr := (noRR_plug.1 (by rw [e]; exact i.fit.rr)).2.1
  simp only [isRed_col wl hn hr, isRed_col wr hn hr]
  have := hrr.1 hred
  rw [this.1, this.2]; simp

/-! ### C09: traversal -/

/-- From the minimum the successors run through the values in order, each once, and end at nil; from the
maximum the predecessors run through them in the opposite order. -/
theorem rbtree_walk_partial {e : Env} {N : Nat} {h : List (Op K × Out)} {s : St} (H : Hist o e N Quiet h s) :
    ∃ v, Run o e ⟨[], []⟩ h v ∧ Sorted o v.items ∧
      ((minimum s.heap s.tree.nil (s.tree.count + 1) s.tree.root).bind fun x =>
        walk (successor (s.tree.count + 1) s.heap s.tree.nil) s.heap s.tree.nil (s.tree.count + 1) x) = some v.items ∧
      ((maximum s.heap s.tree.nil (s.tree.count + 1) s.tree.root).bind fun x =>
        walk (predecessor (s.tree.count + 1) s.heap s.tree.nil) s.heap s.tree.nil (s.tree.count + 1) x) = some v.items.reverse := by
  obtain ⟨X, v, i, r, c⟩ := quiet_inv o H
  exact ⟨v, r, i.sorted, walk_inv o i c⟩

/-- The same after at most one delete between clears. -/
theorem rbtree_walk_one_delete_partial {e : Env} {N : Nat} {h : List (Op K × Out)} {s : St} (H : Hist o e N OneDelete h s) :
    ∃ v, Run o e ⟨[], []⟩ h v ∧ Sorted o v.items ∧
      ((minimum s.heap s.tree.nil (s.tree.count + 1) s.tree.root).bind fun x =>
        walk (successor (s.tree.count + 1) s.heap s.tree.nil) s.heap s.tree.nil (s.tree.count + 1) x) = some v.items ∧
      ((maximum s.heap s.tree.nil (s.tree.count + 1) s.tree.root).bind fun x =>
        walk (predecessor (s.tree.count + 1) s.heap s.tree.nil) s.heap s.tree.nil (s.tree.count + 1) x) = some v.items.reverse := by
  obtain ⟨X, v, i, r, c, -⟩ := once_inv o H
  exact ⟨v, r, i.sorted, walk_inv o i c⟩

/-! ### C11: clearing and releasing -/

/-- Clearing: every stored value is released once, whatever fails; success iff nothing failed, otherwise the
status of something that failed; the tree is empty afterwards. -/
theorem rbtree_clear_partial {e : Env} {N : Nat} {h : List (Op K × Out)} {s : St} (H : Hist o e N Quiet h s) :
    ∃ v st s' p, Run o e ⟨[], []⟩ h v ∧ clear e s = some (st, s') ∧ s'.released = s.released ++ p ∧ p.Perm v.items ∧
      s'.tree.root = s'.tree.nil ∧ s'.tree.count = 0 ∧
      (st = SUCCESS → ∀ u ∈ v.items, e.release u = SUCCESS) ∧
      (st ≠ SUCCESS → (∃ u ∈ v.items, st = e.release u) ∨ ∃ a, InTree s a ∧ st = e.reclaim a) ∧
      (∀ u ∈ v.items, e.release u ≠ SUCCESS → st ≠ SUCCESS) ∧
      (∀ a, InTree s a → (s'.heap a = none ↔ (∃ n, s.heap a = some n ∧ e.release n.value = SUCCESS) ∧ e.reclaim a = SUCCESS)) := by
  obtain ⟨X, v, i, r, c⟩ := quiet_inv o H
  obtain ⟨st, s', p, h⟩ := clear_inv o (e := e) i
  exact ⟨v, st, s', p, r, h⟩

/-- Releasing the tree: every stored value is released once; success iff every release and every reclaim
succeeded. -/
theorem rbtree_release_partial {e : Env} {N : Nat} {h : List (Op K × Out)} {s : St} (st : Status) (H : Hist o e N Quiet h s) :
    ∃ v r h' p, Run o e ⟨[], []⟩ h v ∧ treeRelease e st s = some (r, h', s.released ++ p) ∧ p.Perm v.items ∧
      (r = SUCCESS → st = SUCCESS ∧ ∀ u ∈ v.items, e.release u = SUCCESS) ∧
      (r ≠ SUCCESS → r = st ∨ (∃ u ∈ v.items, r = e.release u) ∨ ∃ a, InTree s a ∧ r = e.reclaim a) ∧
      (∀ a, InTree s a → (∃ n, s.heap a = some n ∧ e.release n.value = SUCCESS) → e.reclaim a = SUCCESS → h' a = none) := by
  obtain ⟨X, v, i, r, c⟩ := quiet_inv o H
  obtain ⟨q, h', p, h⟩ := release_inv o (e := e) st i
  exact ⟨v, q, h', p, r, h⟩

/-! ### C44: a failing allocation -/

omit [Std.TransCmp o.cmp] in
/-- When the node cannot be allocated the call reports the failure and nothing has changed. -/
theorem rbtree_insert_failure {s : St} {u a : Nat} {st : Status} (hst : st ≠ SUCCESS) :
    insert o s u a st = some (st, s) := by
  unfold insert; rw [if_pos hst]

/-! ### C10: swapping -/

/-- Two trees in one memory, when their memories do not overlap. -/
def pairOf (s t : St) : Pair where
  heap a := match s.heap a with
    | some n => some n
    | none => t.heap a
  nl := s.tree.nil
  nr := t.tree.nil
  left := s.tree
  right := t.tree

private theorem Inv.frame {s s' : St} {X : T} {v : View} (i : Inv o s X v) (ht : s'.tree = s.tree) (hl : s'.released = s.released)
    (hX : ∀ a ∈ X.addrs, s'.heap a = s.heap a) (hn : ∃ n, s'.heap s.tree.nil = some n ∧ n.red = false) : Inv o s' X v := by
  obtain ⟨⟨⟨w1, w2, w3, w4⟩, -, hc⟩, fit, hi, hlog, hs, hv⟩ := i
  exact ⟨⟨⟨trivial, by rw [ht]; exact w2.frame hX, by rw [ht]; exact w3, by rw [ht]; exact w4⟩, by rw [ht]; exact hn, by rw [ht]; exact hc⟩,
    fit, hi, by rw [hl]; exact hlog, hs, hv⟩

/-- A tree with the log of its releases, seen as a state of its own. -/
private theorem pair_left {s t : St} {X : T} {v : View} (i : Inv o s X v) :
    Inv o ⟨(pairOf s t).heap, s.tree, s.released⟩ X v := by
  obtain ⟨n, hn, hr⟩ := i.holds.nil
  refine Inv.frame o i rfl rfl ?_ ⟨n, by simp [pairOf, hn], hr⟩
  intro a ha
  obtain ⟨m, hm⟩ := i.holds.here.sub.alloc a ha
  simp [pairOf, hm]

private theorem pair_right {s t : St} {X : T} {v : View} (hd : ∀ a, s.heap a = none ∨ t.heap a = none) (i : Inv o t X v) :
    Inv o ⟨(pairOf s t).heap, t.tree, t.released⟩ X v := by
  obtain ⟨n, hn, hr⟩ := i.holds.nil
  have key : ∀ a m, t.heap a = some m → (pairOf s t).heap a = some m := by
    intro a m hm
    have := (hd a).resolve_right (by rw [hm]; simp)
    simp [pairOf, this, hm]
  refine Inv.frame o i rfl rfl ?_ ⟨n, key _ _ hn, hr⟩
  intro a ha
  obtain ⟨m, hm⟩ := i.holds.here.sub.alloc a ha
  rw [hm]; exact key _ _ hm

/-- Swapping two trees that both stay alive: each finds what the other found, an insert into one behaves as
in the other before, and leaves the one swapped with it as it was; releasing the right one releases, once
each, the values the left one held. -/
theorem rbtree_swap_partial {K' : Type} (o' : Order K') [Std.TransCmp o'.cmp] {e e' : Env} {N N' : Nat}
    {h : List (Op K × Out)} {h' : List (Op K' × Out)} {s t : St}
    (H : Hist o e N OneDelete h s) (H' : Hist o' e' N' OneDelete h' t) (hd : ∀ a, s.heap a = none ∨ t.heap a = none) :
    ∃ v v' p, Run o e ⟨[], []⟩ h v ∧ Run o' e' ⟨[], []⟩ h' v' ∧ swap (pairOf s t) = some p ∧
      p.left.count = v'.items.length ∧ p.right.count = v.items.length ∧
      (∀ k, ∃ out, find o' ⟨p.heap, p.left, t.released⟩ k = some out ∧ Step o' e' v' (.find k) out v') ∧
      (∀ k, ∃ out, find o ⟨p.heap, p.right, s.released⟩ k = some out ∧ Step o e v (.find k) out v) ∧
      (∀ u a st, u ≠ 0 → (st = SUCCESS → p.heap a = none) → ∃ out q w,
        insert o' ⟨p.heap, p.left, t.released⟩ u a st = some (out, q) ∧ Step o' e' v' (.insert u a st) (out, 0) w ∧
        q.tree.count = w.items.length ∧
        (∀ k, ∃ out, find o' q k = some out ∧ Step o' e' w (.find k) out w) ∧
        (∀ k, ∃ out, find o ⟨q.heap, p.right, s.released⟩ k = some out ∧ Step o e v (.find k) out v)) ∧
      (∀ st, ∃ r q log, releaseRight e st p = some (r, q, log) ∧ log.Perm v.items) := by
  obtain ⟨X, v, i, r, -, -⟩ := once_inv o H
  obtain ⟨Y, v', i', r', -, -⟩ := once_inv o' H'
  have il := pair_left o (t := t) i
  have ir := pair_right o' hd i'
  obtain ⟨n, hn, hr⟩ := il.holds.nil
  obtain ⟨n', hn', hr'⟩ := ir.holds.nil
  obtain ⟨m, hm, -⟩ := i.holds.nil
  obtain ⟨m', hm', -⟩ := i'.holds.nil
  have hne : s.tree.nil ≠ t.tree.nil := by
    intro e1
    rcases hd s.tree.nil with h | h
    · rw [hm] at h; cases h
    · rw [e1, hm'] at h; cases h
  have hXt : ∀ a ∈ X.addrs, a ≠ t.tree.nil := by
    rintro a ha rfl
    obtain ⟨x, hx⟩ := i.holds.here.sub.alloc _ ha
    rcases hd t.tree.nil with h | h
    · rw [hx] at h; cases h
    · rw [hm'] at h; cases h
  have hYs : ∀ a ∈ Y.addrs, a ≠ s.tree.nil := by
    rintro a ha rfl
    obtain ⟨x, hx⟩ := i'.holds.here.sub.alloc _ ha
    rcases hd s.tree.nil with h | h
    · rw [hm] at h; cases h
    · rw [hx] at h; cases h
  have hXs : ∀ a ∈ X.addrs, a ≠ s.tree.nil := fun a ha => i.holds.here.nin (.inl ha)
  have hYt : ∀ a ∈ Y.addrs, a ≠ t.tree.nil := fun a ha => i'.holds.here.nin (.inl ha)
  have hXY : ∀ a ∈ X.addrs, a ∉ Y.addrs := by
    intro a ha hb
    obtain ⟨x, hx⟩ := i.holds.here.sub.alloc _ ha
    obtain ⟨y, hy⟩ := i'.holds.here.sub.alloc _ hb
    rcases hd a with h | h
    · rw [hx] at h; cases h
    · rw [hy] at h; cases h
  have hsw : swap (pairOf s t) = some { pairOf s t with
      heap := put (put (pairOf s t).heap s.tree.nil n') t.tree.nil n, left := t.tree, right := s.tree } := by
    unfold swap
    simp only at hn hn'
    rw [show (pairOf s t).nl = s.tree.nil from rfl, show (pairOf s t).nr = t.tree.nil from rfl, hn, hn']
    rfl
  have jl : Inv o' ⟨put (put (pairOf s t).heap s.tree.nil n') t.tree.nil n, t.tree, t.released⟩ Y v' := by
    refine Inv.frame o' ir rfl rfl ?_ ⟨n, put_same, hr⟩
    intro a ha
    show put _ _ _ a = _
    rw [put_ne (hYt a ha), put_ne (hYs a ha)]
  have jr : Inv o ⟨put (put (pairOf s t).heap s.tree.nil n') t.tree.nil n, s.tree, s.released⟩ X v := by
    refine Inv.frame o il rfl rfl ?_ ⟨n', ?_, hr'⟩
    · intro a ha
      show put _ _ _ a = _
      rw [put_ne (hXt a ha), put_ne (hXs a ha)]
    · show put _ _ _ s.tree.nil = _
      rw [put_ne hne]; exact put_same
  refine ⟨v, v', _, r, r', hsw, inv_count o' i', inv_count o i, fun k => ?_, fun k => ?_, ?_, fun st => ?_⟩
  · obtain ⟨out, e1, e2⟩ := find_ok o' (k := k) jl; exact ⟨out, e1, e2 e'⟩
  · obtain ⟨out, e1, e2⟩ := find_ok o (k := k) jr; exact ⟨out, e1, e2 e⟩
  · intro u a st hu ha
    obtain ⟨out, q, Z, w, f1, f2, f3, -, -, -, -, f4, -⟩ := insert_ok o' (u := u) (a := a) (st := st) jl hu ha
    refine ⟨out, q, w, f1, f2 e', inv_count o' f3, fun k => ?_, fun k => ?_⟩
    · obtain ⟨out, e1, e2⟩ := find_ok o' (k := k) f3; exact ⟨out, e1, e2 e'⟩
    · by_cases hst : st = SUCCESS
      · have hfree := ha hst
        have hq : Inv o ⟨q.heap, s.tree, s.released⟩ X v := by
          refine Inv.frame o jr rfl rfl ?_ ⟨n', ?_, hr'⟩
          · intro b hb
            refine f4 b ?_ (hXt b hb) (hXY b hb)
            rintro rfl
            obtain ⟨x, hx⟩ := jr.holds.here.sub.alloc _ hb
            simp only at hx hfree
            rw [hfree] at hx; cases hx
          · have hnil : put (put (pairOf s t).heap s.tree.nil n') t.tree.nil n s.tree.nil = some n' := by rw [put_ne hne]; exact put_same
            show q.heap s.tree.nil = _
            rw [f4 s.tree.nil ?_ hne fun hb => hYs _ hb rfl]
            · exact hnil
            · rintro rfl
              simp only at hfree
              rw [hnil] at hfree; cases hfree
        obtain ⟨out, e1, e2⟩ := find_ok o (k := k) hq; exact ⟨out, e1, e2 e⟩
      · rw [rbtree_insert_failure o' hst] at f1
        obtain ⟨-, rfl⟩ := Prod.mk.inj (Option.some.inj f1)
        obtain ⟨out, e1, e2⟩ := find_ok o (k := k) jr; exact ⟨out, e1, e2 e⟩
  · have j0 : Inv o ⟨put (put (pairOf s t).heap s.tree.nil n') t.tree.nil n, s.tree, []⟩ X { v with released := [] } :=
      ⟨jr.holds, jr.fit, jr.items, rfl, jr.sorted, jr.values⟩
    obtain ⟨r, h', p, e1, e2, -⟩ := release_inv o (e := e) st j0
    apply Exists.intro r; apply Exists.intro; refine ⟨p, ?_, e2⟩
    unfold releaseRight
    simp only [List.nil_append] at e1
    show (treeRelease e st ⟨put (put (pairOf s t).heap s.tree.nil n') t.tree.nil n, s.tree, []⟩).bind _ = _
    rw [e1]; rfl

omit [Std.TransCmp o.cmp] in
/-- Whatever the trees held: once they are swapped and the right one has been released, the sentinel of the
left one, which is not the one in its own structure, is gone, and an insert into it is undefined. -/
theorem rbtree_swap_release_violated {e : Env} {s t : St} {p q : Pair} {r : Status} {log : List Nat}
    (hs : swap (pairOf s t) = some p) (hr : releaseRight e SUCCESS p = some (r, q, log)) :
    q.left = t.tree ∧ q.heap q.left.nil = none ∧
      ∀ u a l, a ≠ q.left.nil → insert o ⟨q.heap, q.left, l⟩ u a SUCCESS = none := by
  unfold swap at hs
  obtain ⟨_, -, hs⟩ := Option.bind_eq_some_iff.1 hs
  obtain ⟨_, -, hs⟩ := Option.bind_eq_some_iff.1 hs
  obtain rfl := Option.some.inj hs
  unfold releaseRight at hr
  obtain ⟨⟨r1, h1, log1⟩, -, hr⟩ := Option.bind_eq_some_iff.1 hr
  simp only [Option.some.injEq, Prod.mk.injEq] at hr
  obtain ⟨-, rfl, -⟩ := hr
  have hz : (if (SUCCESS : Status) = SUCCESS then (fun b => if b = t.tree.nil then none else h1 b) else h1) t.tree.nil = none := by simp
  exact ⟨rfl, hz, fun u a l ha => insert_gone o hz ha⟩

end

/-! ### Examples and violations -/

section examples

def natOrder : Order Nat := ⟨id, compare⟩

instance : Std.TransCmp natOrder.cmp := inferInstanceAs (Std.TransCmp (compare : Nat → Nat → Ordering))

def allWell : Env := ⟨fun _ => SUCCESS, fun _ => SUCCESS⟩

/-- inserting value `v`, node at address `100 + v` -/
def ins (v : Nat) : Op Nat := .insert v (100 + v) SUCCESS

/-- Legality of a call, as a check. -/
def legalB (s : St) : Op Nat → Bool
  | .insert v a st => v ≠ 0 && (st ≠ SUCCESS || (s.heap a).isNone)
  | _ => true

theorem legalB_iff {s : St} {op : Op Nat} (h : legalB s op = true) : Legal s op := by
  cases op with
  | insert v a st =>
    simp only [legalB, Bool.and_eq_true, decide_eq_true_eq, Bool.or_eq_true, Option.isNone_iff_eq_none] at h
    exact ⟨h.1, fun e => h.2.resolve_left fun hn => hn e⟩
  | _ => trivial

/-- The calls of `ops` pass the check one after the other. -/
def checkAll (c : List (Op Nat × Out) → St → Op Nat → Bool) : List (Op Nat) → List (Op Nat × Out) → St → Bool
  | [], _, _ => true
  | op :: ops, h, s =>
    legalB s op && c h s op &&
    match call natOrder allWell s op with
    | some (out, s) => checkAll c ops (h ++ [(op, out)]) s
    | none => true

theorem hist_calls {P : List (Op Nat × Out) → St → Op Nat → Prop} {c : List (Op Nat × Out) → St → Op Nat → Bool}
    (hP : ∀ h s op, c h s op = true → P h s op) :
    ∀ {ops : List (Op Nat)} {outs : List Out} {h : List (Op Nat × Out)} {s s' : St},
    Hist natOrder allWell 0 P h s → checkAll c ops h s = true → calls natOrder allWell s ops = some (outs, s') →
      Hist natOrder allWell 0 P (h ++ ops.zip outs) s'
  | [], outs, h, s, s', H, _, hc => by
    simp only [calls, Option.some.injEq, Prod.mk.injEq] at hc
    obtain ⟨rfl, rfl⟩ := hc
    simpa using H
  | op :: ops, outs, h, s, s', H, hl, hc => by
    rw [calls] at hc
    rw [checkAll, Bool.and_eq_true, Bool.and_eq_true] at hl
    cases hcall : call natOrder allWell s op with
    | none => rw [hcall] at hc; cases hc
    | some x =>
      obtain ⟨out, s1⟩ := x
      rw [hcall] at hc hl
      rw [Option.bind_some] at hc
      cases hcs : calls natOrder allWell s1 ops with
      | none => simp [hcs] at hc
      | some y =>
        obtain ⟨outs1, s2⟩ := y
        simp only [hcs, Option.map_some, Option.some.injEq, Prod.mk.injEq] at hc
        obtain ⟨rfl, rfl⟩ := hc
        have := hist_calls hP (.snoc H (legalB_iff hl.1.1) (hP _ _ _ hl.1.2) hcall) hl.2 hcs
        simpa using this

theorem hist_free {ops : List (Op Nat)} {outs : List Out} {s : St}
    (hl : checkAll (fun _ _ _ => true) ops [] (create 0) = true) (hc : calls natOrder allWell (create 0) ops = some (outs, s)) :
    Hist natOrder allWell 0 Free (ops.zip outs) s :=
  hist_calls (P := Free) (fun _ _ _ _ => trivial) .nil hl hc

/-- `cells` holds the root and is closed under children, and in it only children are red. -/
def quietIn (cells : List Nat) (s : St) : Bool :=
  (s.tree.root = s.tree.nil || s.tree.root ∈ cells) &&
  cells.all fun a => match s.heap a with
    | none => true
    | some n =>
      (n.left = s.tree.nil || n.left ∈ cells) && (n.right = s.tree.nil || n.right ∈ cells) &&
      (n.left ≠ s.tree.nil || n.right = s.tree.nil || ((s.heap n.right).map Node.red = some true)) &&
      (n.right ≠ s.tree.nil || n.left = s.tree.nil || ((s.heap n.left).map Node.red = some true))

private theorem quietIn_iff {cells : List Nat} {s : St} (h : quietIn cells s = true) : OnlyChildRed s := by
  simp only [quietIn, Bool.and_eq_true, Bool.or_eq_true, decide_eq_true_eq, List.all_eq_true] at h
  have key : ∀ a, InTree s a → a ∈ cells := by
    intro a ha
    induction ha with
    | root hr => exact h.1.resolve_left hr
    | left _ hn hl ih =>
      have := h.2 _ ih
      simp only [hn, Bool.and_eq_true, Bool.or_eq_true, decide_eq_true_eq] at this
      exact this.1.1.1.resolve_left hl
    | right _ hn hl ih =>
      have := h.2 _ ih
      simp only [hn, Bool.and_eq_true, Bool.or_eq_true, decide_eq_true_eq] at this
      exact this.1.1.2.resolve_left hl
  intro a n ha hn
  have := h.2 _ (key a ha)
  simp only [hn, Bool.and_eq_true, Bool.or_eq_true, decide_eq_true_eq, Option.map_eq_some_iff] at this
  constructor
  · intro h1 h2
    rcases this.1.2 with (h | h) | h
    · exact absurd h1 h
    · exact absurd h h2
    · exact h
  · intro h1 h2
    rcases this.2 with (h | h) | h
    · exact absurd h1 h
    · exact absurd h h2
    · exact h

/-- Twelve calls with four deletes, each in a situation where only children are red. -/
def quietOps : List (Op Nat) :=
  [ins 5, ins 2, ins 8, ins 1, .delete 1 false, ins 9, .delete 9 false, .find 8, .insert 4 104 7, .delete 6 true, .delete 2 true, ins 3]

/-- The history of `quietOps` meets the hypotheses of the theorems about `Quiet`. -/
example : ∃ h s, Hist natOrder allWell 0 Quiet h s ∧ h.map Prod.fst = quietOps ∧
    h.map Prod.snd = [(0, 0), (0, 0), (0, 0), (0, 0), (0, 0), (0, 0), (0, 0), (0, 8), (7, 0), (ERROR_RBTREE_NOT_FOUND, 0), (0, 2), (0, 0)] ∧
    s.tree.count = 3 ∧ s.released = [1, 9] := by
  have hc : (calls natOrder allWell (create 0) quietOps).map (fun r => (r.1, r.2.tree.count, r.2.released)) =
    some ([(0, 0), (0, 0), (0, 0), (0, 0), (0, 0), (0, 0), (0, 0), (0, 8), (7, 0), (ERROR_RBTREE_NOT_FOUND, 0), (0, 2), (0, 0)], 3, [1, 9]) := by
    decide +kernel
  cases hr : calls natOrder allWell (create 0) quietOps with
  | none => rw [hr] at hc; cases hc
  | some x =>
    obtain ⟨outs, s⟩ := x
    rw [hr] at hc
    simp only [Option.map_some, Option.some.injEq, Prod.mk.injEq] at hc
    obtain ⟨rfl, h3, h4⟩ := hc
    refine ⟨_, s, hist_calls (P := Quiet) (c := fun _ s op => !isDelete op || quietIn [101, 102, 103, 105, 108, 109] s)
      (fun h s op hq hd => quietIn_iff (by simpa [hd] using hq)) .nil (by decide +kernel) hr, by simp [quietOps], by simp [quietOps], h3, h4⟩

/-- The node at the end of the left edge, in at most that many steps. -/
def leastB (s : St) : Nat → Nat → Option (Nat × Node)
  | 0, _ => none
  | f + 1, a => match s.heap a with
    | none => none
    | some n => if n.left = s.tree.nil then some (a, n) else leastB s f n.left

private theorem leastB_iff {s : St} : ∀ {f a y : Nat} {n : Node}, leastB s f a = some (y, n) → Least s a y ∧ s.heap y = some n
  | f + 1, a, y, n, h => by
    unfold leastB at h
    cases ha : s.heap a with
    | none => rw [ha] at h; cases h
    | some m =>
      rw [ha] at h
      by_cases hl : m.left = s.tree.nil
      · simp only [hl, if_true, Option.some.injEq, Prod.mk.injEq] at h
        obtain ⟨rfl, rfl⟩ := h
        exact ⟨.here ha hl, ha⟩
      · simp only [hl, if_false] at h
        obtain ⟨h1, h2⟩ := leastB_iff h
        exact ⟨.left ha hl h1, h2⟩

def redB (s : St) (a : Nat) : Bool := (s.heap a).map Node.red = some true

private theorem redB_iff {s : St} {a : Nat} : redB s a = true ↔ IsRed s a := by
  simp [redB, IsRed, Option.map_eq_some_iff]

def spareB (s : St) (a : Nat) : Bool := match s.heap a with
  | none => false
  | some n =>
    if n.left = s.tree.nil ∨ n.right = s.tree.nil then n.red || redB s n.left || redB s n.right
    else match leastB s 8 n.right with
      | none => false
      | some (_, ny) => ny.red || redB s ny.right

private theorem spareB_iff {s : St} {a : Nat} (h : spareB s a = true) : Spare s a := by
  unfold spareB at h
  cases ha : s.heap a with
  | none => rw [ha] at h; cases h
  | some n =>
    rw [ha] at h
    refine ⟨n, ha, fun hc => ?_, fun h1 h2 => ?_⟩
    · simp only [hc, if_true, Bool.or_eq_true, redB_iff] at h
      rcases h with (h | h) | h
      · exact .inl h
      · exact .inr (.inl h)
      · exact .inr (.inr h)
    · simp only [h1, h2, or_self, if_false] at h
      cases hl : leastB s 8 n.right with
      | none => rw [hl] at h; cases h
      | some x =>
        obtain ⟨y, ny⟩ := x
        rw [hl] at h
        simp only [Bool.or_eq_true, redB_iff] at h
        obtain ⟨q1, q2⟩ := leastB_iff hl
        exact ⟨y, ny, q1, q2, h⟩

/-- `cells` holds the root and is closed under children; in it the nodes with the key are spare. -/
def mildIn (cells : List Nat) (s : St) : Op Nat → Bool
  | .delete k _ =>
    (s.tree.root = s.tree.nil || s.tree.root ∈ cells) &&
    cells.all fun a => match s.heap a with
      | none => true
      | some n =>
        (n.left = s.tree.nil || n.left ∈ cells) && (n.right = s.tree.nil || n.right ∈ cells) &&
        (compare k n.value ≠ .eq || spareB s a)
  | _ => true

private theorem cells_closed {cells : List Nat} {s : St} (h1 : s.tree.root = s.tree.nil ∨ s.tree.root ∈ cells)
    (h2 : ∀ a ∈ cells, ∀ n, s.heap a = some n → (n.left = s.tree.nil ∨ n.left ∈ cells) ∧ (n.right = s.tree.nil ∨ n.right ∈ cells)) :
    ∀ a, InTree s a → a ∈ cells := by
  intro a ha
  induction ha with
  | root hr => exact h1.resolve_left hr
  | left _ hn hl ih => exact (h2 _ ih _ hn).1.resolve_left hl
  | right _ hn hl ih => exact (h2 _ ih _ hn).2.resolve_left hl

private theorem mildIn_iff {cells : List Nat} {h : List (Op Nat × Out)} {s : St} {op : Op Nat} (hm : mildIn cells s op = true) :
    Mild natOrder h s op := by
  cases op with
  | delete k t =>
    simp only [mildIn, Bool.and_eq_true, Bool.or_eq_true, decide_eq_true_eq, List.all_eq_true] at hm
    refine .inr fun {a n} ha hn hk => ?_
    have hin := cells_closed hm.1 (fun a ha n hn => by
      have := hm.2 a ha; simp only [hn, Bool.and_eq_true, Bool.or_eq_true, decide_eq_true_eq] at this; exact this.1) a ha
    have := hm.2 a hin
    simp only [hn, Bool.and_eq_true, Bool.or_eq_true, decide_eq_true_eq] at this
    exact spareB_iff (this.2.resolve_left fun hne => hne hk)
  | _ => trivial

/-- Four deletes of spare nodes: a red leaf, a black node with a red child, and a root with two children whose
successor is red; then the tree of 7, 2 and 9. -/
def mildOps : List (Op Nat) :=
  [ins 5, ins 2, ins 8, ins 1, .delete 1 false, ins 9, .delete 8 true, ins 7, .delete 5 false, .delete 4 false]

/-- The history of `mildOps` meets the hypotheses of `rbtree_balanced_spare_partial`, and together with key 2
those of `rbtree_unbalanced_violated`. -/
example : ∃ h s, Hist natOrder allWell 0 (Mild natOrder) h s ∧ h.map Prod.fst = mildOps ∧ s.tree.count ≠ 1 ∧
    ∃ n, InTree s 102 ∧ s.heap 102 = some n ∧ Match natOrder 2 n.value ∧
      ∀ {a n}, InTree s a → s.heap a = some n → Match natOrder 2 n.value → ¬ Spare s a := by
  have hc : (calls natOrder allWell (create 0) mildOps).map (fun r => (r.1.length, r.2.tree, [r.2.heap 102, r.2.heap 107, r.2.heap 109, r.2.heap 0])) =
      some (10, ⟨107, 0, 3⟩, [some ⟨107, 0, 0, false, 2⟩, some ⟨0, 102, 109, false, 7⟩, some ⟨107, 0, 0, false, 9⟩, some ⟨0, 0, 0, false, 0⟩]) := by
    decide +kernel
  cases hr : calls natOrder allWell (create 0) mildOps with
  | none => rw [hr] at hc; cases hc
  | some x =>
    obtain ⟨outs, s⟩ := x
    rw [hr] at hc
    simp only [Option.map_some, Option.some.injEq, Prod.mk.injEq, List.cons.injEq, and_true] at hc
    obtain ⟨h0, h1, h2, h3, h4, h5⟩ := hc
    have hroot : InTree s 107 := by
      have := InTree.root (s := s) (by rw [h1]; decide); rwa [h1] at this
    have hin := cells_closed (cells := [107, 102, 109]) (s := s) (.inr (by rw [h1]; decide)) (by
      intro a ha n hn
      rw [h1]
      simp only [List.mem_cons, List.not_mem_nil, or_false] at ha
      rcases ha with rfl | rfl | rfl
      · rw [h3] at hn; obtain rfl := Option.some.inj hn; decide
      · rw [h2] at hn; obtain rfl := Option.some.inj hn; decide
      · rw [h4] at hn; obtain rfl := Option.some.inj hn; decide)
    refine ⟨_, s, hist_calls (P := Mild natOrder) (c := fun _ s op => mildIn [101, 102, 105, 107, 108, 109] s op)
      (fun h s op hq => mildIn_iff hq) .nil (by decide +kernel) hr,
      by rw [List.nil_append, List.map_fst_zip]; simp [mildOps, h0], by rw [h1]; decide,
      _, .left hroot h3 (by rw [h1]; decide), h2, (by decide : natOrder.cmp 2 2 = .eq), ?_⟩
    intro a n ha hn hm hsp
    have ha := hin a ha
    simp only [List.mem_cons, List.not_mem_nil, or_false] at ha
    rcases ha with rfl | rfl | rfl
    · rw [h3] at hn; obtain rfl := Option.some.inj hn; exact absurd hm (by decide : ¬ natOrder.cmp 2 7 = .eq)
    · obtain ⟨m, hm1, hm2, -⟩ := hsp
      rw [h2] at hm1; obtain rfl := Option.some.inj hm1
      rcases hm2 (.inl (by rw [h1])) with h | ⟨n', h, h'⟩ | ⟨n', h, h'⟩
      · cases h
      · rw [h5] at h; obtain rfl := Option.some.inj h; cases h'
      · rw [h5] at h; obtain rfl := Option.some.inj h; cases h'
    · rw [h4] at hn; obtain rfl := Option.some.inj hn; exact absurd hm (by decide : ¬ natOrder.cmp 2 9 = .eq)

/-- A delete of a black leaf in a tree of seven, a clear, and a further delete: allowed by `OneDelete`. -/
def onceOps : List (Op Nat) :=
  [ins 1, ins 2, ins 3, ins 4, ins 5, ins 6, ins 7, .delete 1 false, .clear, ins 2, ins 1, .delete 2 true, ins 9]

example : ∃ h s, Hist natOrder allWell 0 OneDelete h s ∧ h.map Prod.fst = onceOps ∧ s.tree.count = 2 ∧ s.released.length = 7 := by
  have hc : (calls natOrder allWell (create 0) onceOps).map (fun r => (r.1.length, r.2.tree.count, r.2.released.length)) =
    some (13, 2, 7) := by decide +kernel
  cases hr : calls natOrder allWell (create 0) onceOps with
  | none => rw [hr] at hc; cases hc
  | some x =>
    obtain ⟨outs, s⟩ := x
    rw [hr] at hc
    simp only [Option.map_some, Option.some.injEq, Prod.mk.injEq] at hc
    exact ⟨_, s, hist_calls (P := OneDelete) (c := fun h _ op => !isDelete op || !pending h)
      (fun h s op hq hd => by simpa [hd] using hq) .nil (by decide +kernel) hr,
      by rw [List.nil_append, List.map_fst_zip]; simp [onceOps, hc.1], hc.2.1, hc.2.2⟩

/-- Only inserts: `NoDelete`. -/
example : ∃ h s, Hist natOrder allWell 0 NoDelete h s ∧ s.tree.count = 5 := by
  have hc : (calls natOrder allWell (create 0) [ins 3, ins 4, ins 5, ins 6, ins 7]).map (fun r => r.2.tree.count) = some 5 := by
    decide +kernel
  cases hr : calls natOrder allWell (create 0) [ins 3, ins 4, ins 5, ins 6, ins 7] with
  | none => rw [hr] at hc; cases hc
  | some x =>
    obtain ⟨outs, s⟩ := x
    rw [hr] at hc
    exact ⟨_, s, hist_calls (P := NoDelete) (c := fun _ _ op => !isDelete op) (fun h s op hq => by simpa [NoDelete] using hq) .nil
      (by decide +kernel) hr, by simpa using hc⟩

/-- Eleven calls after which a value that was inserted and never deleted is not found: the four deletes all
return success, three values should be left, the count says so, and the tree is empty. -/
def lossOps : List (Op Nat) :=
  [ins 7, ins 1, ins 6, ins 3, .delete 7 false, ins 14, ins 10, ins 15, .delete 14 false, .delete 10 false, .delete 6 false]

theorem rbtree_map_violated : ∃ h s, Hist natOrder allWell 0 Free h s ∧ h.map Prod.fst = lossOps ∧
    (∀ x ∈ h, x.2.1 = SUCCESS) ∧ find natOrder s 3 = some (ERROR_RBTREE_NOT_FOUND, 0) ∧ s.tree.count = 3 ∧
    s.tree.root = s.tree.nil ∧ s.released = [7, 14, 10, 6] := by
  have hc : (calls natOrder allWell (create 0) lossOps).map (fun r => (r.1, find natOrder r.2 3, r.2.tree, r.2.released)) =
      some ([(SUCCESS, 0), (SUCCESS, 0), (SUCCESS, 0), (SUCCESS, 0), (SUCCESS, 0), (SUCCESS, 0), (SUCCESS, 0), (SUCCESS, 0),
        (SUCCESS, 0), (SUCCESS, 0), (SUCCESS, 0)], some (ERROR_RBTREE_NOT_FOUND, 0), ⟨0, 0, 3⟩, [7, 14, 10, 6]) := by decide +kernel
  cases hr : calls natOrder allWell (create 0) lossOps with
  | none => rw [hr] at hc; cases hc
  | some x =>
    obtain ⟨outs, s⟩ := x
    rw [hr] at hc
    simp only [Option.map_some, Option.some.injEq, Prod.mk.injEq] at hc
    obtain ⟨h1, h2, h3, h4⟩ := hc
    subst h1
    refine ⟨_, s, hist_free (by decide +kernel) hr, by simp [lossOps], by decide, h2, by rw [h3], by rw [h3], h4⟩

/-- The same history: clearing releases none of the three values, and a traversal finds none. -/
theorem rbtree_clear_violated : ∃ h s, Hist natOrder allWell 0 Free h s ∧ s.tree.count = 3 ∧
    (clear allWell s).map (fun r => (r.1, r.2.released.length - s.released.length)) = some (SUCCESS, 0) := by
  have hc : (calls natOrder allWell (create 0) lossOps).map (fun r => (r.2.tree.count,
      (clear allWell r.2).map (fun q => (q.1, q.2.released.length - r.2.released.length)))) = some (3, some (SUCCESS, 0)) := by decide +kernel
  cases hr : calls natOrder allWell (create 0) lossOps with
  | none => rw [hr] at hc; cases hc
  | some x =>
    obtain ⟨outs, s⟩ := x
    rw [hr] at hc
    simp only [Option.map_some, Option.some.injEq, Prod.mk.injEq] at hc
    exact ⟨_, s, hist_free (by decide +kernel) hr, hc.1, hc.2⟩

theorem rbtree_walk_violated : ∃ h s, Hist natOrder allWell 0 Free h s ∧ s.tree.count = 3 ∧
    ((minimum s.heap s.tree.nil (s.tree.count + 1) s.tree.root).bind fun x =>
        walk (successor (s.tree.count + 1) s.heap s.tree.nil) s.heap s.tree.nil (s.tree.count + 1) x) = some [] := by
  have hc : (calls natOrder allWell (create 0) lossOps).map (fun r => (r.2.tree.count,
      ((minimum r.2.heap r.2.tree.nil (r.2.tree.count + 1) r.2.tree.root).bind fun x =>
        walk (successor (r.2.tree.count + 1) r.2.heap r.2.tree.nil) r.2.heap r.2.tree.nil (r.2.tree.count + 1) x))) = some (3, some []) := by
    decide +kernel
  cases hr : calls natOrder allWell (create 0) lossOps with
  | none => rw [hr] at hc; cases hc
  | some x =>
    obtain ⟨outs, s⟩ := x
    rw [hr] at hc
    simp only [Option.map_some, Option.some.injEq, Prod.mk.injEq] at hc
    exact ⟨_, s, hist_free (by decide +kernel) hr, hc.1, hc.2⟩

/-- A single delete of a black leaf leaves paths with different numbers of black nodes. -/
def lopsided : List (Op Nat) := [ins 1, ins 2, ins 3, ins 4, .delete 1 false]

theorem rbtree_balanced_violated : ∃ h s, Hist natOrder allWell 0 Free h s ∧ ¬ RedBlack s := by
  have hc : (calls natOrder allWell (create 0) lopsided).map (fun r => (r.2.tree, r.2.heap 102, r.2.heap 103, r.2.heap 104)) =
      some (⟨102, 0, 3⟩, some ⟨0, 0, 103, false, 2⟩, some ⟨102, 0, 104, false, 3⟩, some ⟨103, 0, 0, true, 4⟩) := by decide +kernel
  cases hr : calls natOrder allWell (create 0) lopsided with
  | none => rw [hr] at hc; cases hc
  | some x =>
    obtain ⟨outs, s⟩ := x
    rw [hr] at hc
    simp only [Option.map_some, Option.some.injEq, Prod.mk.injEq] at hc
    obtain ⟨h1, h2, h3, h4⟩ := hc
    refine ⟨_, s, hist_free (by decide +kernel) hr, fun hb => ?_⟩
    obtain ⟨n, hn⟩ := hb.black
    have hnil : s.tree.nil = 0 := by rw [h1]
    have d0 : Down s 0 0 := by have := Down.nil (s := s); rwa [hnil] at this
    have d1 : Down s s.tree.root 1 := by
      rw [h1]; exact Down.left (by rw [hnil]; decide) h2 d0
    have d2 : Down s s.tree.root 2 := by
      rw [h1]; exact Down.right (by rw [hnil]; decide) h2 (Down.left (n := 0) (by rw [hnil]; decide) h3 d0)
    have := (hn _ d1).trans (hn _ d2).symm
    cases this

/-- An empty tree with its sentinel at 0 and one with three values and its sentinel at 50, swapped. -/
def swapped : Option Pair :=
  (calls natOrder allWell (create 50) [ins 1, ins 2, ins 3]).bind fun r => swap (pairOf (create 0) r.2)

/-- Both alive: the right tree, now the empty one, finds nothing, the left one finds what the right one held. -/
example : swapped.map (fun p => (find natOrder ⟨p.heap, p.left, []⟩ 2, find natOrder ⟨p.heap, p.right, []⟩ 2)) =
    some (some (SUCCESS, 2), some (ERROR_RBTREE_NOT_FOUND, 0)) := by decide +kernel

/-- The release of the right tree of this pair succeeds: the hypotheses of `rbtree_swap_release_violated` can
be met. -/
example : (swapped.bind fun p => releaseRight allWell SUCCESS p).map (fun r => (r.1, r.2.1.left)) =
    some (SUCCESS, ⟨102, 50, 3⟩) := by decide +kernel

/-- After the swap the minimum of the empty tree is not its sentinel: it is the sentinel of the other tree,
and a loop from the minimum collects its NULL value. -/
theorem rbtree_swap_minimum_violated : swapped.map (fun p => (p.right.count, p.right.nil,
    minimum p.heap p.right.nil 4 p.right.root, (minimum p.heap p.right.nil 4 p.right.root).bind fun x =>
      walk (successor 4 p.heap p.right.nil) p.heap p.right.nil 4 x)) = some (0, 0, some 50, some [0]) := by decide +kernel

end examples

end Rcpr.RB
