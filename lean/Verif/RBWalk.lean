import Verif.RBDelete

/-! Traversal: minimum, maximum, successor, predecessor. -/
namespace Rcpr.RB

open Rcpr

/-- `minimum` for side `l`, `maximum` for side `r` -/
def minD (d : Dir) (h : Heap) (nil : Nat) : Nat → Nat → Option Nat
  | 0, _ => none
  | n + 1, x => (h x).bind fun nx => if nx.child d ≠ nil then minD d h nil n (nx.child d) else some x

/-- the upward loop of `successor` for side `l`, of `predecessor` for side `r` -/
def climbD (d : Dir) (h : Heap) (nil : Nat) : Nat → Nat → Nat → Option Nat
  | 0, _, _ => none
  | n + 1, x, y => if y = nil then some y
    else (h y).bind fun ny => if x = ny.child d.flip then climbD d h nil n y ny.parent else some y

def succD (d : Dir) (fuel : Nat) (h : Heap) (nil x : Nat) : Option Nat :=
  (h x).bind fun nx => if nx.child d.flip ≠ nil then minD d h nil fuel (nx.child d.flip) else climbD d h nil fuel x nx.parent

theorem minD_l {h : Heap} {nil : Nat} : ∀ n x, minD .l h nil n x = minimum h nil n x
  | 0, _ => rfl
  | n + 1, x => by simp only [minD, minimum, minD_l n]; rfl

theorem minD_r {h : Heap} {nil : Nat} : ∀ n x, minD .r h nil n x = maximum h nil n x
  | 0, _ => rfl
  | n + 1, x => by simp only [minD, maximum, minD_r n]; rfl

theorem climbD_l {h : Heap} {nil : Nat} : ∀ n x y, climbD .l h nil n x y = climbRight h nil n x y
  | 0, _, _ => rfl
  | n + 1, x, y => by simp only [climbD, climbRight, climbD_l n]; rfl

theorem climbD_r {h : Heap} {nil : Nat} : ∀ n x y, climbD .r h nil n x y = climbLeft h nil n x y
  | 0, _, _ => rfl
  | n + 1, x, y => by simp only [climbD, climbLeft, climbD_r n]; rfl

theorem succD_l {h : Heap} {nil n x : Nat} : succD .l n h nil x = successor n h nil x := by
  simp only [succD, successor, minD_l, climbD_l]; rfl

theorem succD_r {h : Heap} {nil n x : Nat} : succD .r n h nil x = predecessor n h nil x := by
  simp only [succD, predecessor, minD_r, climbD_r]; rfl

/-- The elements in the direction of the walk. -/
def T.ord (d : Dir) (t : T) : List (Nat × Nat) :=
  match d with
  | .l => t.io
  | .r => t.io.reverse

/-- What follows the focus in the direction of the walk. -/
def Ctx.next (d : Dir) (k : Ctx) : List (Nat × Nat) :=
  match d with
  | .l => Ctx.post k
  | .r => (Ctx.pre k).reverse

def first (N : Nat) : List (Nat × Nat) → Nat
  | [] => N
  | (a, _) :: _ => a

theorem ord_br {d : Dir} {c : Bool} {x y : T} {a v : Nat} : (br d c x a v y).ord d = x.ord d ++ (a, v) :: y.ord d := by
  cases d <;> simp [T.ord, br, T.io]

theorem ord_nil {d : Dir} : T.nil.ord d = [] := by cases d <;> rfl

theorem next_same {d : Dir} {c : Bool} {a v : Nat} {s : T} {k : Ctx} :
    Ctx.next d (⟨d, c, a, v, s⟩ :: k) = (a, v) :: s.ord d ++ Ctx.next d k := by
  cases d <;> simp [Ctx.next, Ctx.post, Ctx.pre, T.ord]

theorem next_flip {d : Dir} {c : Bool} {a v : Nat} {s : T} {k : Ctx} :
    Ctx.next d (⟨d.flip, c, a, v, s⟩ :: k) = Ctx.next d k := by
  cases d <;> simp [Ctx.next, Ctx.post, Ctx.pre, Dir.flip]

/-- Every tree that is not empty is a branch in the given direction. -/
theorem as_br (d : Dir) {t : T} (h : t ≠ .nil) : ∃ c x a v y, t = br d c x a v y := by
  cases t with
  | nil => exact absurd rfl h
  | node c l a v r =>
    cases d
    · exact ⟨c, l, a, v, r, rfl⟩
    · exact ⟨c, r, a, v, l, rfl⟩

theorem size_br {d : Dir} {c : Bool} {x y : T} {a v : Nat} : (br d c x a v y).size = x.size + y.size + 1 := by
  cases d <;> simp [br, T.size]; omega

theorem ord_ne {d : Dir} {t : T} (h : t ≠ .nil) : t.ord d ≠ [] := by
  obtain ⟨c, x, a, v, y, rfl⟩ := as_br d h
  rw [ord_br]; simp

theorem first_append {N : Nat} {l l' : List (Nat × Nat)} (h : l ≠ []) : first N (l ++ l') = first N l := by
  cases l with
  | nil => exact absurd rfl h
  | cons a l => rfl

theorem minD_at {d : Dir} {N : Nat} {h : Heap} {r : Nat} : ∀ {n : Nat} {t : T} {k : Ctx}, t ≠ .nil → t.size < n → At N h r k t →
    minD d h N n (t.root N) = some (first N (t.ord d))
  | n + 1, t, k, ht, hs, w => by
    obtain ⟨c, x, a, v, y, rfl⟩ := as_br d ht
    rw [size_br] at hs
    rw [minD, br_root, w.node, Option.bind_some, mkNode_child, ord_br]
    by_cases hx : x = .nil
    · subst hx
      rw [if_neg (by simp [T.root]), ord_nil]; rfl
    · have w' : At N h r (⟨d, c, a, v, y⟩ :: k) x := at_fill.2 w
      have hne : x.root N ≠ N := by
        rcases mem_root (N := N) (t := x) with h | h
        · cases x with
          | nil => exact absurd rfl hx
          | node c l a v r => exact w'.nin (.inl (by simp [T.addrs, T.root]))
        · exact w'.nin (.inl h)
      rw [if_pos hne, minD_at (n := n) hx (by omega) w', first_append (ord_ne hx)]

theorem climbD_at {d : Dir} {N : Nat} {h : Heap} {r : Nat} : ∀ {n : Nat} {t : T} {k : Ctx}, t ≠ .nil → k.length < n → At N h r k t →
    climbD d h N n (t.root N) (Ctx.parent N k) = some (first N (Ctx.next d k))
  | n + 1, t, [], ht, hs, w => by
    rw [climbD, parent_nil, if_pos rfl]; cases d <;> rfl
  | n + 1, t, ⟨e, c, a, v, s⟩ :: k, ht, hs, w => by
    have haN : a ≠ N := w.nin (.inr (by simp [Ctx.addrs]))
    have hup := w.up
    rw [climbD, parent_cons, if_neg haN, hup, Option.bind_some]
    by_cases he : e = d
    · subst he
      obtain ⟨ct, x, b, u, y, rfl⟩ := as_br .l ht
      rw [mkNode_flip, br_root, if_neg (fun h => w.sib_ne (f := ⟨e, c, a, v, s⟩) h.symm), next_same]; rfl
    · obtain rfl := Dir.ne_iff.1 he
      rw [mkNode_child, if_pos rfl, mkNode_parent, next_flip]
      have w' := at_fill.1 w
      have := climbD_at (d := d) (n := n) (k := k) (by simp [Frame.fill, br_ne_nil]) (by simp at hs; omega) w'
      rwa [Frame.fill, br_root] at this

theorem succD_at {d : Dir} {N : Nat} {h : Heap} {r : Nat} {n : Nat} {k : Ctx} {c : Bool} {x y : T} {a v : Nat}
    (hs : y.size < n) (hk : k.length < n) (w : At N h r k (br d c x a v y)) :
    succD d n h N a = some (first N (y.ord d ++ Ctx.next d k)) := by
  rw [succD, w.node, Option.bind_some, mkNode_flip, mkNode_parent]
  by_cases hy : y = .nil
  · subst hy
    rw [if_neg (by simp [T.root]), ord_nil]
    have := climbD_at (d := d) (by simp [br_ne_nil]) hk w
    rw [br_root] at this
    exact this
  · have w' : At N h r (⟨d.flip, c, a, v, x⟩ :: k) y := at_fill.2 (by rw [Frame.fill, br_flip]; exact w)
    have hne : y.root N ≠ N := by
      cases y with
      | nil => exact absurd rfl hy
      | node c l a v r => exact w'.nin (.inl (by simp [T.addrs, T.root]))
    rw [if_pos hne, minD_at hy hs w', first_append (ord_ne hy)]

/-! ### Every element is somewhere -/

theorem split_at : ∀ {t : T} {A B : List (Nat × Nat)} {a v : Nat}, t.io = A ++ (a, v) :: B →
    ∃ k c l r, plug k (.node c l a v r) = t ∧ A = Ctx.pre k ++ l.io ∧ B = r.io ++ Ctx.post k
  | .nil, A, B, a, v, h => by cases A <;> cases h
  | .node c l b u r, A, B, a, v, h => by
    rw [T.io] at h
    rcases List.append_eq_append_iff.1 h with ⟨A', e1, e2⟩ | ⟨A', e1, e2⟩
    · -- the element is the root or to the right
      cases A' with
      | nil =>
        rw [List.nil_append, List.cons.injEq, Prod.mk.injEq] at e2
        obtain ⟨⟨rfl, rfl⟩, rfl⟩ := e2
        refine ⟨[], c, l, r, rfl, by simpa [Ctx.pre] using e1, by simp [Ctx.post]⟩
      | cons p A' =>
        rw [List.cons_append, List.cons.injEq] at e2
        obtain ⟨rfl, e2⟩ := e2
        obtain ⟨k, c', l', r', f1, f2, f3⟩ := split_at e2
        refine ⟨k ++ [⟨.r, c, b, u, l⟩], c', l', r', by rw [plug_append, f1]; rfl, ?_, ?_⟩
        · rw [e1, f2]
          have : ∀ k : Ctx, Ctx.pre (k ++ [⟨.r, c, b, u, l⟩]) = l.io ++ (b, u) :: Ctx.pre k := by
            intro k; induction k with
            | nil => simp [Ctx.pre]
            | cons f k ih => simp [Ctx.pre, ih]
          rw [this]; simp
        · rw [f3]
          have : ∀ k : Ctx, Ctx.post (k ++ [⟨.r, c, b, u, l⟩]) = Ctx.post k := by
            intro k; induction k with
            | nil => simp [Ctx.post]
            | cons f k ih => simp [Ctx.post, ih]
          rw [this]
    · cases A' with
      | nil =>
        rw [List.nil_append, List.cons.injEq, Prod.mk.injEq] at e2
        obtain ⟨⟨rfl, rfl⟩, rfl⟩ := e2
        refine ⟨[], c, l, r, rfl, by simpa [Ctx.pre] using e1.symm, by simp [Ctx.post]⟩
      | cons p A' =>
        rw [List.cons_append, List.cons.injEq] at e2
        obtain ⟨rfl, e2⟩ := e2
        obtain ⟨k, c', l', r', f1, f2, f3⟩ := split_at e1
        refine ⟨k ++ [⟨.l, c, b, u, r⟩], c', l', r', by rw [plug_append, f1]; rfl, ?_, ?_⟩
        · rw [f2]
          have : ∀ k : Ctx, Ctx.pre (k ++ [⟨.l, c, b, u, r⟩]) = Ctx.pre k := by
            intro k; induction k with
            | nil => simp [Ctx.pre]
            | cons f k ih => simp [Ctx.pre, ih]
          rw [this]
        · rw [e2, f3]
          have : ∀ k : Ctx, Ctx.post (k ++ [⟨.l, c, b, u, r⟩]) = Ctx.post k ++ (b, u) :: r.io := by
            intro k; induction k with
            | nil => simp [Ctx.post]
            | cons f k ih => simp [Ctx.post, ih]
          rw [this]; simp

theorem ctx_length : ∀ {k : Ctx} {t : T}, k.length + t.size ≤ (plug k t).size
  | [], _ => by simp [plug]
  | f :: k, t => by
    have := ctx_length (k := k) (t := f.fill t)
    rw [plug]
    rw [Frame.fill, size_br] at this
    simp only [List.length_cons]
    rw [Frame.fill]
    omega

/-- The next element, from any element. -/
theorem walk_step {d : Dir} {N : Nat} {h : Heap} {r : Nat} {X : T} {n : Nat} (hn : X.size < n) (w : At N h r [] X)
    {A B : List (Nat × Nat)} {a v : Nat} (hX : X.ord d = A ++ (a, v) :: B) :
    succD d n h N a = some (first N B) ∧ ∃ nd, h a = some nd ∧ nd.value = v := by
  have key : ∃ k c x y, plug k (br d c x a v y) = X ∧ B = y.ord d ++ Ctx.next d k := by
    cases d with
    | l =>
      obtain ⟨k, c, l, r', e1, e2, e3⟩ := split_at (show X.io = _ from hX)
      exact ⟨k, c, l, r', e1, e3⟩
    | r =>
      have hX' : X.io = B.reverse ++ (a, v) :: A.reverse := by
        rw [show X.ord .r = X.io.reverse from rfl] at hX
        rw [← List.reverse_reverse X.io, hX]; simp
      obtain ⟨k, c, l, r', e1, e2, e3⟩ := split_at hX'
      refine ⟨k, c, r', l, e1, ?_⟩
      rw [← List.reverse_reverse B, e2, List.reverse_append]; rfl
  obtain ⟨k, c, x, y, e1, e2⟩ := key
  subst e1
  have w' : At N h r k (br d c x a v y) := by
    have := at_plug.2 w
    rwa [List.append_nil] at this
  have hl := ctx_length (k := k) (t := br d c x a v y)
  rw [size_br] at hl
  refine ⟨?_, _, w'.node, mkNode_value⟩
  rw [e2]
  exact succD_at (by omega) (by omega) w'

end Rcpr.RB
