import Verif.RBRun

/-! The shape conditions as seen in memory, and the height of a balanced tree. -/
namespace Rcpr.RB

open Rcpr

theorem root_ne {N : Nat} {h : Heap} {r : Nat} {k : Ctx} {t : T} (w : At N h r k t) (ht : t ≠ .nil) : t.root N ≠ N := by
  cases t with
  | nil => exact absurd rfl ht
  | node c l a v r => exact w.nin (.inl (by simp [T.addrs, T.root]))

theorem root_eq {N : Nat} {h : Heap} {r : Nat} {k : Ctx} {t : T} (w : At N h r k t) (e : t.root N = N) : t = .nil :=
  Classical.byContradiction fun hn => root_ne w hn e

/-- Every node reachable in memory is a node of the tree. -/
theorem inTree_split {s : St} {X : T} (w : At s.tree.nil s.heap s.tree.root [] X) {a : Nat} (h : Spec.InTree s a) :
    ∃ k c l v r, plug k (.node c l a v r) = X := by
  have hroot : s.tree.root = X.root s.tree.nil := w.root
  induction h with
  | root hne =>
    cases X with
    | nil => exact absurd hroot hne
    | node c l a v r => exact ⟨[], c, l, v, r, by rw [hroot]; rfl⟩
  | @left a n _ hn hne ih =>
    obtain ⟨k, c, l, v, r, e⟩ := ih
    have w' : At s.tree.nil s.heap s.tree.root k (.node c l a v r) := by
      rw [← e] at w; have := at_plug.2 w; rwa [List.append_nil] at this
    have hn' := w'.sub.1
    rw [hn] at hn'
    obtain rfl := Option.some.inj hn'
    cases l with
    | nil => exact absurd rfl hne
    | node c2 l2 a2 v2 r2 => exact ⟨⟨.l, c, a, v, r⟩ :: k, c2, l2, v2, r2, e⟩
  | @right a n _ hn hne ih =>
    obtain ⟨k, c, l, v, r, e⟩ := ih
    have w' : At s.tree.nil s.heap s.tree.root k (.node c l a v r) := by
      rw [← e] at w; have := at_plug.2 w; rwa [List.append_nil] at this
    have hn' := w'.sub.1
    rw [hn] at hn'
    obtain rfl := Option.some.inj hn'
    cases r with
    | nil => exact absurd rfl hne
    | node c2 l2 a2 v2 r2 => exact ⟨⟨.r, c, a, v, l⟩ :: k, c2, l2, v2, r2, e⟩

theorem isRed_col {s : St} {k : Ctx} {t : T} {n : Node} (w : At s.tree.nil s.heap s.tree.root k t)
    (hn : s.heap s.tree.nil = some n) (hr : n.red = false) : Spec.IsRed s (t.root s.tree.nil) ↔ t.col = true := by
  cases t with
  | nil =>
    simp only [Spec.IsRed, T.root, T.col]
    constructor
    · rintro ⟨m, h1, h2⟩
      rw [hn] at h1; obtain rfl := Option.some.inj h1; rw [hr] at h2; cases h2
    · intro h; cases h
  | node c l a v r =>
    simp only [Spec.IsRed, root_node, T.col]
    constructor
    · rintro ⟨m, h1, h2⟩
      have := w.sub.1
      rw [h1] at this; obtain rfl := Option.some.inj this; exact h2
    · intro h; exact ⟨_, w.sub.1, h⟩

theorem oneRed_of {s : St} (ho : Spec.OnlyChildRed s) {n : Node} (hn : s.heap s.tree.nil = some n) (hr : n.red = false) :
    ∀ {t : T} {k : Ctx}, At s.tree.nil s.heap s.tree.root k t → (t ≠ .nil → Spec.InTree s (t.root s.tree.nil)) → oneRed t
  | .nil, _, _, _ => trivial
  | .node c l a v r, k, w, hi => by
    have hin : Spec.InTree s a := hi (by simp)
    have hnode := w.sub.1
    have wl : At s.tree.nil s.heap s.tree.root (⟨.l, c, a, v, r⟩ :: k) l := at_fill.2 w
    have wr : At s.tree.nil s.heap s.tree.root (⟨.r, c, a, v, l⟩ :: k) r := at_fill.2 w
    have := ho hin hnode
    refine ⟨fun e => ?_, fun e => ?_, oneRed_of ho hn hr wl fun h => ?_, oneRed_of ho hn hr wr fun h => ?_⟩
    · subst e
      by_cases hrn : r = .nil
      · exact .inl hrn
      · exact .inr ((isRed_col wr hn hr).1 (this.1 rfl (root_ne wr hrn)))
    · subst e
      by_cases hln : l = .nil
      · exact .inl hln
      · exact .inr ((isRed_col wl hn hr).1 (this.2 rfl (root_ne wl hln)))
    · exact .left hin hnode (root_ne wl h)
    · exact .right hin hnode (root_ne wr h)

theorem down_bal {s : St} : ∀ {t : T} {k : Ctx} {n m : Nat}, At s.tree.nil s.heap s.tree.root k t → Bal n t →
    Spec.Down s (t.root s.tree.nil) m → m = n
  | .nil, k, n, m, w, hb, hd => by
    rw [root_nil] at hd
    have hn : n = 0 := hb
    subst hn
    generalize ha : s.tree.nil = a at hd
    cases hd with
    | nil => rfl
    | left h => exact absurd ha.symm h
    | right h => exact absurd ha.symm h
  | .node c l a v r, k, n, m, w, hb, hd => by
    rw [root_node] at hd
    have haN : a ≠ s.tree.nil := root_ne w (by simp)
    obtain ⟨b, e, hl, hr⟩ := bal_br.1 (show Bal n (br .l c l a v r) from hb)
    have wl : At s.tree.nil s.heap s.tree.root (⟨.l, c, a, v, r⟩ :: k) l := at_fill.2 w
    have wr : At s.tree.nil s.heap s.tree.root (⟨.r, c, a, v, l⟩ :: k) r := at_fill.2 w
    have hnode := w.sub.1
    cases hd with
    | nil => exact absurd rfl haN
    | left _ hh hd =>
      rw [hnode] at hh; obtain rfl := Option.some.inj hh
      rw [e, down_bal wl hl hd]; cases c <;> simp
    | right _ hh hd =>
      rw [hnode] at hh; obtain rfl := Option.some.inj hh
      rw [e, down_bal wr hr hd]; cases c <;> simp

theorem redBlack_of {s : St} {X : T} {b : Nat} (w : Holds s.heap s.tree X) (fit : Fit X) (hb : Bal b X) : Spec.RedBlack s := by
  obtain ⟨wX, ⟨n, hn, hr⟩, -⟩ := w
  have hroot : s.tree.root = X.root s.tree.nil := wX.root
  refine ⟨?_, ?_, ⟨b, fun m hm => ?_⟩⟩
  · rw [hroot, isRed_col wX hn hr, fit.black]; simp
  · intro a nd hi hnd hred
    obtain ⟨k, c, l, v, r, e⟩ := inTree_split wX hi
    have w' : At s.tree.nil s.heap s.tree.root k (.node c l a v r) := by
      rw [← e] at wX; have := at_plug.2 wX; rwa [List.append_nil] at this
    have wl : At s.tree.nil s.heap s.tree.root (⟨.l, c, a, v, r⟩ :: k) l := at_fill.2 w'
    have wr : At s.tree.nil s.heap s.tree.root (⟨.r, c, a, v, l⟩ :: k) r := at_fill.2 w'
    have hnode := w'.sub.1
    rw [hnd] at hnode
    obtain rfl := Option.some.inj hnode
    have hrr := (noRR_plug.1 (by rw [e]; exact fit.rr)).2.1
    simp only [isRed_col wl hn hr, isRed_col wr hn hr]
    have := hrr.1 hred
    rw [this.1, this.2]; simp
  · rw [hroot] at hm
    exact down_bal wX hb hm

/-- Some way down exists. -/
theorem down_exists {s : St} : ∀ {t : T} {k : Ctx}, At s.tree.nil s.heap s.tree.root k t → ∃ m, Spec.Down s (t.root s.tree.nil) m
  | .nil, _, _ => ⟨0, .nil⟩
  | .node c l a v r, k, w => by
    have wl : At s.tree.nil s.heap s.tree.root (⟨.l, c, a, v, r⟩ :: k) l := at_fill.2 w
    obtain ⟨m, hm⟩ := down_exists wl
    exact ⟨_, .left (root_ne w (by simp)) w.sub.1 hm⟩

/-- If all ways down meet the same number of black nodes, the tree is balanced. -/
theorem bal_of_down {s : St} : ∀ {t : T} {k : Ctx} {n : Nat}, At s.tree.nil s.heap s.tree.root k t →
    (∀ m, Spec.Down s (t.root s.tree.nil) m → m = n) → Bal n t
  | .nil, _, n, _, h => (h 0 .nil).symm
  | .node c l a v r, k, n, w, h => by
    have haN : a ≠ s.tree.nil := root_ne w (by simp)
    have wl : At s.tree.nil s.heap s.tree.root (⟨.l, c, a, v, r⟩ :: k) l := at_fill.2 w
    have wr : At s.tree.nil s.heap s.tree.root (⟨.r, c, a, v, l⟩ :: k) r := at_fill.2 w
    have hnode := w.sub.1
    have hl : ∀ m, Spec.Down s (l.root s.tree.nil) m → m + (if c then 0 else 1) = n :=
      fun m hm => h _ (.left haN hnode hm)
    have hr : ∀ m, Spec.Down s (r.root s.tree.nil) m → m + (if c then 0 else 1) = n :=
      fun m hm => h _ (.right haN hnode hm)
    obtain ⟨m0, h0⟩ := down_exists wl
    have e0 := hl m0 h0
    refine (bal_br (d := .l)).2 ⟨m0, ?_, bal_of_down wl fun m hm => ?_, bal_of_down wr fun m hm => ?_⟩
    · cases c <;> simp at e0 ⊢ <;> omega
    · have := hl m hm; omega
    · have := hr m hm; omega

theorem redBlack_bal {s : St} {X : T} (w : Holds s.heap s.tree X) (h : Spec.RedBlack s) : ∃ b, Bal b X := by
  obtain ⟨n, hn⟩ := h.black
  have hroot : s.tree.root = X.root s.tree.nil := w.here.root
  exact ⟨n, bal_of_down w.here (by rw [← hroot]; exact hn)⟩

theorem onlyChildRed_of {s : St} {X : T} (w : Holds s.heap s.tree X) (ho : oneRed X) : Spec.OnlyChildRed s := by
  obtain ⟨wX, ⟨n0, hn, hr⟩, -⟩ := w
  intro a nd hi hnd
  obtain ⟨k, c, l, v, r, e⟩ := inTree_split wX hi
  have w' : At s.tree.nil s.heap s.tree.root k (.node c l a v r) := by
    rw [← e] at wX; have := at_plug.2 wX; rwa [List.append_nil] at this
  have wl : At s.tree.nil s.heap s.tree.root (⟨.l, c, a, v, r⟩ :: k) l := at_fill.2 w'
  have wr : At s.tree.nil s.heap s.tree.root (⟨.r, c, a, v, l⟩ :: k) r := at_fill.2 w'
  have hnode := w'.sub.1
  rw [hnd] at hnode
  obtain rfl := Option.some.inj hnode
  have h1 := oneRed_sub (k := k) (by rw [e]; exact ho)
  refine ⟨fun el er => ?_, fun er el => ?_⟩
  · rw [isRed_col wr hn hr]
    exact (h1.1 (root_eq wl el)).resolve_left fun h => by subst h; exact er rfl
  · rw [isRed_col wl hn hr]
    exact (h1.2.1 (root_eq wr er)).resolve_left fun h => by subst h; exact el rfl

theorem least_iff {s : St} {n0 : Node} (hn : s.heap s.tree.nil = some n0) (hr : n0.red = false) :
    ∀ {t : T} {k : Ctx}, t ≠ .nil → At s.tree.nil s.heap s.tree.root k t →
    ((∃ y ny, Spec.Least s (t.root s.tree.nil) y ∧ s.heap y = some ny ∧ (ny.red = true ∨ Spec.IsRed s ny.right)) ↔ leastSpare t)
  | .nil, _, h, _ => absurd rfl h
  | .node c .nil a v r, k, _, w => by
    have wr : At s.tree.nil s.heap s.tree.root (⟨.r, c, a, v, .nil⟩ :: k) r := at_fill.2 w
    have hnode := w.sub.1
    simp only [leastSpare, root_node]
    rw [← isRed_col wr hn hr]
    constructor
    · rintro ⟨y, ny, hy, hny, h⟩
      cases hy with
      | here h1 h2 =>
        rw [hnode] at hny; obtain rfl := Option.some.inj hny
        exact h
      | left h1 h2 h3 =>
        rw [hnode] at h1; obtain rfl := Option.some.inj h1
        exact absurd rfl h2
    · intro h
      exact ⟨a, _, .here hnode rfl, hnode, h⟩
  | .node c (.node c2 l2 a2 v2 r2) a v r, k, _, w => by
    have wl : At s.tree.nil s.heap s.tree.root (⟨.l, c, a, v, r⟩ :: k) (.node c2 l2 a2 v2 r2) := at_fill.2 w
    have hnode := w.sub.1
    have ih := least_iff hn hr (by simp) wl
    simp only [leastSpare, root_node] at ih ⊢
    rw [← ih]
    constructor
    · rintro ⟨y, ny, hy, hny, h⟩
      cases hy with
      | here h1 h2 =>
        rw [hnode] at h1; obtain rfl := Option.some.inj h1
        exact absurd h2 (root_ne wl (by simp))
      | left h1 h2 h3 =>
        rw [hnode] at h1; obtain rfl := Option.some.inj h1
        exact ⟨y, ny, h3, hny, h⟩
    · rintro ⟨y, ny, hy, hny, h⟩
      exact ⟨y, ny, .left hnode (root_ne wl (by simp)) hy, hny, h⟩

theorem spare_iff {s : St} {n0 : Node} (hn : s.heap s.tree.nil = some n0) (hr : n0.red = false) {c : Bool} {L R : T} {a v : Nat}
    {k : Ctx} (w : At s.tree.nil s.heap s.tree.root k (.node c L a v R)) : Spec.Spare s a ↔ spareT (.node c L a v R) := by
  have wl : At s.tree.nil s.heap s.tree.root (⟨.l, c, a, v, R⟩ :: k) L := at_fill.2 w
  have wr : At s.tree.nil s.heap s.tree.root (⟨.r, c, a, v, L⟩ :: k) R := at_fill.2 w
  have hnode := w.sub.1
  have hs : Spec.Spare s a ↔
      (L.root s.tree.nil = s.tree.nil ∨ R.root s.tree.nil = s.tree.nil → c = true ∨ L.col = true ∨ R.col = true) ∧
      (L.root s.tree.nil ≠ s.tree.nil → R.root s.tree.nil ≠ s.tree.nil → leastSpare R) := by
    unfold Spec.Spare
    rw [← isRed_col wl hn hr, ← isRed_col wr hn hr]
    constructor
    · rintro ⟨n, h1, h2, h3⟩
      rw [hnode] at h1; obtain rfl := Option.some.inj h1
      exact ⟨h2, fun a b => (least_iff hn hr (fun e => by subst e; exact b rfl) wr).1 (h3 a b)⟩
    · rintro ⟨h2, h3⟩
      exact ⟨_, hnode, h2, fun a b => (least_iff hn hr (fun e => by subst e; exact b rfl) wr).2 (h3 a b)⟩
  rw [hs]
  cases L with
  | nil =>
    simp only [root_nil, spareT, T.col]
    exact ⟨fun h => (h.1 (.inl trivial)).imp id fun h => h.resolve_left (by simp), fun h => ⟨fun _ => h.imp id .inr, fun h => absurd rfl h⟩⟩
  | node cl LL la lv LR =>
    have hl := root_ne wl (by simp)
    cases R with
    | nil =>
      simp only [root_nil, spareT, T.col]
      exact ⟨fun h => (h.1 (.inr trivial)).imp id fun h => h.resolve_right (by simp), fun h => ⟨fun _ => h.imp id .inl, fun _ h => absurd rfl h⟩⟩
    | node cr RL ra rv RR =>
      have hr := root_ne wr (by simp)
      simp only [spareT]
      exact ⟨fun h => h.2 hl hr, fun h => ⟨fun e => (e.elim hl hr).elim, fun _ _ => h⟩⟩

theorem height_bound : ∀ {t : T} {n : Nat}, noRR t → Bal n t → t.height ≤ 2 * n + (if t.col then 1 else 0) ∧ 2 ^ n ≤ t.size + 1
  | .nil, n, _, hb => by have : n = 0 := hb; subst this; simp [T.height, T.size, T.col]
  | .node c l a v r, n, hr, hb => by
    obtain ⟨m, e, h1, h2⟩ := bal_br.1 (show Bal n (br .l c l a v r) from hb)
    obtain ⟨a1, b1⟩ := height_bound hr.2.1 h1
    obtain ⟨a2, b2⟩ := height_bound hr.2.2 h2
    simp only [T.height, T.size, T.col]
    cases c with
    | true =>
      have := hr.1 rfl
      rw [this.1] at a1; rw [this.2] at a2
      simp only [if_true] at e
      simp only [Bool.false_eq_true, if_false, if_true] at a1 a2 ⊢
      subst e
      omega
    | false =>
      simp only [Bool.false_eq_true, if_false] at e
      subst e
      rw [Nat.pow_succ]
      have q1 : (if l.col then 1 else 0) ≤ 1 := by split <;> omega
      have q2 : (if r.col then 1 else 0) ≤ 1 := by split <;> omega
      simp only [Bool.false_eq_true, if_false]
      omega

theorem height_log {t : T} {n : Nat} (fit : Fit t) (hb : Bal n t) : t.height ≤ 2 * Nat.log2 (t.size + 1) := by
  obtain ⟨h1, h2⟩ := height_bound fit.rr hb
  rw [fit.black] at h1
  have : n ≤ Nat.log2 (t.size + 1) := (Nat.le_log2 (by omega)).2 h2
  simp only [Bool.false_eq_true, if_false] at h1
  omega

end Rcpr.RB
