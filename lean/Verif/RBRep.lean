import Verif.RBTree

/-!
Proof side of the red-black tree model: trees as values, contexts (paths to the root), and what it means for
a heap to hold a tree with one of its subtrees in focus. Left and right are treated alike through a
direction; the model's functions for the two sides are instances.
-/
namespace Rcpr.RB

open Rcpr

inductive Dir
  | l | r
  deriving DecidableEq

def Dir.flip : Dir → Dir
  | .l => .r
  | .r => .l

@[simp] theorem Dir.flip_flip (d : Dir) : d.flip.flip = d := by cases d <;> rfl
@[simp] theorem Dir.flip_ne (d : Dir) : d.flip ≠ d := by cases d <;> decide
@[simp] theorem Dir.ne_flip (d : Dir) : d ≠ d.flip := by cases d <;> decide
theorem Dir.ne_iff {d e : Dir} : d ≠ e ↔ d = e.flip := by cases d <;> cases e <;> simp [Dir.flip]

def Node.child (n : Node) : Dir → Nat
  | .l => n.left
  | .r => n.right

/-- A node with child `x` on side `d` and `y` on the other. -/
def mkNode (d : Dir) (p x y : Nat) (c : Bool) (v : Nat) : Node :=
  match d with
  | .l => ⟨p, x, y, c, v⟩
  | .r => ⟨p, y, x, c, v⟩

def setChild (d : Dir) (h : Heap) (a p : Nat) : Option Heap :=
  match d with
  | .l => setLeft h a p
  | .r => setRight h a p

def relink (d : Dir) (h : Heap) (t : Tree) (p x y : Nat) : Option (Heap × Tree) :=
  match d with
  | .l => relinkLeft h t p x y
  | .r => relinkRight h t p x y

/-- Rotation towards `d`. -/
def rotate (d : Dir) (h : Heap) (t : Tree) (x : Nat) : Option (Heap × Tree) :=
  match d with
  | .l => leftRotate h t x
  | .r => rightRotate h t x

section mkNode
variable {d : Dir} {p x y v : Nat} {c : Bool}
@[simp] theorem mkNode_parent : (mkNode d p x y c v).parent = p := by cases d <;> rfl
@[simp] theorem mkNode_red : (mkNode d p x y c v).red = c := by cases d <;> rfl
@[simp] theorem mkNode_value : (mkNode d p x y c v).value = v := by cases d <;> rfl
@[simp] theorem mkNode_child : (mkNode d p x y c v).child d = x := by cases d <;> rfl
@[simp] theorem mkNode_flip : (mkNode d p x y c v).child d.flip = y := by cases d <;> rfl
theorem mkNode_flip_eq : mkNode d.flip p x y c v = mkNode d p y x c v := by cases d <;> rfl
end mkNode

/-! ### Trees -/

inductive T
  | nil
  | node (c : Bool) (l : T) (a v : Nat) (r : T)

/-- A node with subtree `x` on side `d` and `y` on the other. -/
def br (d : Dir) (c : Bool) (x : T) (a v : Nat) (y : T) : T :=
  match d with
  | .l => .node c x a v y
  | .r => .node c y a v x

theorem br_flip {d : Dir} {c : Bool} {x y : T} {a v : Nat} : br d.flip c x a v y = br d c y a v x := by cases d <;> rfl

def T.root (N : Nat) : T → Nat
  | .nil => N
  | .node _ _ a _ _ => a

@[simp] theorem br_root {N : Nat} {d : Dir} {c : Bool} {x y : T} {a v : Nat} : (br d c x a v y).root N = a := by
  cases d <;> rfl

/-- Addresses and values in order. -/
def T.io : T → List (Nat × Nat)
  | .nil => []
  | .node _ l a v r => l.io ++ (a, v) :: r.io

/-- Addresses, the root first. -/
def T.addrs : T → List Nat
  | .nil => []
  | .node _ l a _ r => a :: (l.addrs ++ r.addrs)

def T.col : T → Bool
  | .nil => false
  | .node c _ _ _ _ => c

@[simp] theorem br_col {d : Dir} {c : Bool} {x y : T} {a v : Nat} : (br d c x a v y).col = c := by cases d <;> rfl

def T.size : T → Nat
  | .nil => 0
  | .node _ l _ _ r => l.size + r.size + 1

theorem br_addrs {d : Dir} {c : Bool} {x y : T} {a v : Nat} :
    (br d c x a v y).addrs.Perm (a :: (x.addrs ++ y.addrs)) := by
  cases d
  · exact List.Perm.refl _
  · exact List.Perm.cons _ List.perm_append_comm

theorem mem_br {d : Dir} {c : Bool} {x y : T} {a v b : Nat} :
    b ∈ (br d c x a v y).addrs ↔ b = a ∨ b ∈ x.addrs ∨ b ∈ y.addrs := by
  rw [br_addrs.mem_iff]; simp

theorem mem_root {N : Nat} {t : T} : t.root N = N ∨ t.root N ∈ t.addrs := by
  cases t <;> simp [T.root, T.addrs]

/-- The heap holds `t` below parent `p`. -/
def Rep (N : Nat) (h : Heap) (p : Nat) : T → Prop
  | .nil => True
  | .node c l a v r => h a = some ⟨p, l.root N, r.root N, c, v⟩ ∧ Rep N h a l ∧ Rep N h a r

theorem rep_br {N : Nat} {h : Heap} {p : Nat} {d : Dir} {c : Bool} {x y : T} {a v : Nat} :
    Rep N h p (br d c x a v y) ↔
      h a = some (mkNode d p (x.root N) (y.root N) c v) ∧ Rep N h a x ∧ Rep N h a y := by
  cases d
  · exact Iff.rfl
  · exact ⟨fun ⟨a, b, c⟩ => ⟨a, c, b⟩, fun ⟨a, b, c⟩ => ⟨a, c, b⟩⟩

theorem Rep.frame {N : Nat} {h h' : Heap} : ∀ {t : T} {p : Nat}, Rep N h p t → (∀ a ∈ t.addrs, h' a = h a) → Rep N h' p t
  | .nil, _, _, _ => trivial
  | .node c l a v r, p, ⟨h1, h2, h3⟩, he =>
    ⟨by rw [he a (by simp [T.addrs])]; exact h1,
      h2.frame fun b hb => he b (by simp [T.addrs, hb]),
      h3.frame fun b hb => he b (by simp [T.addrs, hb])⟩

/-- A subtree is moved below another parent. -/
theorem Rep.reparent {N : Nat} {h h' : Heap} {t : T} {p p' : Nat} (r : Rep N h p t) (nd : t.addrs.Nodup)
    (he : ∀ a ∈ t.addrs, h' a = if a = t.root N then (h a).map fun n => { n with parent := p' } else h a) :
    Rep N h' p' t := by
  cases t with
  | nil => trivial
  | node c l a v r' =>
    obtain ⟨h1, h2, h3⟩ := r
    have hm : ∀ b, b ∈ l.addrs ∨ b ∈ r'.addrs → b ≠ a := by
      intro b hb hba
      subst hba
      simp [T.addrs] at nd
      exact hb.elim nd.1.1 nd.1.2
    refine ⟨?_, h2.frame ?_, h3.frame ?_⟩
    · rw [he a (by simp [T.addrs])]; simp [T.root, h1]
    · intro b hb
      rw [he b (by simp [T.addrs, hb])]; simp [T.root, hm b (.inl hb)]
    · intro b hb
      rw [he b (by simp [T.addrs, hb])]; simp [T.root, hm b (.inr hb)]

/-! ### Contexts -/

/-- One step of the way to the root: the focus is on side `d` of node `a`, whose other subtree is `s`. -/
structure Frame where
  d : Dir
  c : Bool
  a : Nat
  v : Nat
  s : T

abbrev Ctx := List Frame

def Frame.fill (f : Frame) (t : T) : T := br f.d f.c t f.a f.v f.s

def plug : Ctx → T → T
  | [], t => t
  | f :: k, t => plug k (f.fill t)

def Ctx.parent (N : Nat) : Ctx → Nat
  | [] => N
  | f :: _ => f.a

def Ctx.top : Ctx → Nat → Nat
  | [], x => x
  | f :: k, _ => Ctx.top k f.a

def Ctx.addrs : Ctx → List Nat
  | [] => []
  | f :: k => f.a :: (f.s.addrs ++ Ctx.addrs k)

def RepC (N : Nat) (h : Heap) : Ctx → Nat → Prop
  | [], _ => True
  | f :: k, x => h f.a = some (mkNode f.d (Ctx.parent N k) x (f.s.root N) f.c f.v) ∧ Rep N h f.a f.s ∧ RepC N h k f.a

theorem RepC.frame {N : Nat} {h h' : Heap} : ∀ {k : Ctx} {x : Nat}, RepC N h k x → (∀ a ∈ Ctx.addrs k, h' a = h a) → RepC N h' k x
  | [], _, _, _ => trivial
  | f :: k, x, ⟨h1, h2, h3⟩, he =>
    ⟨by rw [he f.a (by simp [Ctx.addrs])]; exact h1,
      h2.frame fun b hb => he b (by simp [Ctx.addrs, hb]),
      h3.frame fun b hb => he b (by simp [Ctx.addrs, hb])⟩

/-- The heap holds the tree with root address `r` whose focus is `t` in context `k`. -/
structure At (N : Nat) (h : Heap) (r : Nat) (k : Ctx) (t : T) : Prop where
  ctx : RepC N h k (t.root N)
  sub : Rep N h (Ctx.parent N k) t
  root : r = Ctx.top k (t.root N)
  nd : (N :: (t.addrs ++ Ctx.addrs k)).Nodup

theorem fill_addrs {f : Frame} {k : Ctx} {t : T} :
    ((f.fill t).addrs ++ Ctx.addrs k).Perm (t.addrs ++ Ctx.addrs (f :: k)) := by
  refine (List.Perm.append_right _ br_addrs).trans ?_
  show (f.a :: (t.addrs ++ f.s.addrs) ++ Ctx.addrs k).Perm (t.addrs ++ (f.a :: (f.s.addrs ++ Ctx.addrs k)))
  refine List.Perm.trans ?_ List.perm_middle.symm
  rw [List.cons_append, List.append_assoc]

theorem at_fill {N : Nat} {h : Heap} {r : Nat} {f : Frame} {k : Ctx} {t : T} :
    At N h r (f :: k) t ↔ At N h r k (f.fill t) := by
  constructor
  · intro ⟨⟨h1, h2, h3⟩, h4, h5, h6⟩
    refine ⟨by rw [Frame.fill, br_root]; exact h3, rep_br.2 ⟨h1, h4, h2⟩, ?_, ?_⟩
    · rw [h5, Frame.fill, br_root]; rfl
    · exact ((List.Perm.cons N fill_addrs).nodup_iff).2 h6
  · intro ⟨h1, h2, h3, h4⟩
    obtain ⟨g1, g2, g3⟩ := rep_br.1 h2
    rw [Frame.fill, br_root] at h1 h3
    exact ⟨⟨g1, g3, h1⟩, g2, h3, ((List.Perm.cons N fill_addrs).nodup_iff).1 h4⟩

theorem at_plug {N : Nat} {h : Heap} {r : Nat} : ∀ {k k2 : Ctx} {t : T}, At N h r (k ++ k2) t ↔ At N h r k2 (plug k t)
  | [], _, _ => Iff.rfl
  | _ :: k, _, _ => at_fill.trans (at_plug (k := k))

/-- The frame seen from the other subtree. -/
def Frame.turn (f : Frame) (t : T) : Frame := ⟨f.d.flip, f.c, f.a, f.v, t⟩

theorem fill_turn {f : Frame} {t : T} : (f.turn t).fill f.s = f.fill t := by
  simp only [Frame.fill, Frame.turn, br_flip]

theorem at_turn {N : Nat} {h : Heap} {r : Nat} {f : Frame} {k : Ctx} {t : T} :
    At N h r (f :: k) t ↔ At N h r (f.turn t :: k) f.s := by
  rw [at_fill, at_fill, fill_turn]

section read
variable {N : Nat} {h : Heap} {r : Nat} {k : Ctx}

theorem At.node {d : Dir} {c : Bool} {x y : T} {a v : Nat} (w : At N h r k (br d c x a v y)) :
    h a = some (mkNode d (Ctx.parent N k) (x.root N) (y.root N) c v) := (rep_br.1 w.sub).1

theorem At.up {f : Frame} {t : T} (w : At N h r (f :: k) t) :
    h f.a = some (mkNode f.d (Ctx.parent N k) (t.root N) (f.s.root N) f.c f.v) := w.ctx.1

theorem At.nin {t : T} (w : At N h r k t) {b : Nat} (hb : b ∈ t.addrs ∨ b ∈ Ctx.addrs k) : b ≠ N := by
  rintro rfl
  have := (List.nodup_cons.1 w.nd).1
  exact this (List.mem_append.2 hb)

end read

/-- The heap changed only at addresses in `l`. -/
def Only (h h' : Heap) (l : List Nat) : Prop := ∀ a, a ∉ l → h' a = h a

/-! ### Colour changes -/

theorem setRed_at {N : Nat} {h : Heap} {r : Nat} {k : Ctx} {d : Dir} {c c' : Bool} {x y : T} {a v : Nat}
    (w : At N h r k (br d c x a v y)) :
    ∃ h', setRed h a c' = some h' ∧ At N h' r k (br d c' x a v y) ∧ Only h h' [a] := by
  have hn := w.node
  have nd := w.nd
  rw [((br_addrs.append_right _).cons N).nodup_iff] at nd
  simp only [List.nodup_cons, List.mem_append, List.mem_cons, List.cons_append, List.append_assoc, not_or] at nd
  refine ⟨put h a (mkNode d (Ctx.parent N k) (x.root N) (y.root N) c' v), ?_, ?_, ?_⟩
  · unfold setRed; rw [hn]; cases d <;> rfl
  · refine ⟨?_, rep_br.2 ⟨by simp [put], ?_, ?_⟩, ?_, ?_⟩
    · have hc := w.ctx
      rw [br_root] at hc ⊢
      refine hc.frame fun b hb => ?_
      have : b ≠ a := fun e => nd.2.1.2.2 (e ▸ hb)
      simp [put, this]
    · refine (rep_br.1 w.sub).2.1.frame fun b hb => ?_
      have : b ≠ a := fun e => nd.2.1.1 (e ▸ hb)
      simp [put, this]
    · refine (rep_br.1 w.sub).2.2.frame fun b hb => ?_
      have : b ≠ a := fun e => nd.2.1.2.1 (e ▸ hb)
      simp [put, this]
    · rw [w.root, br_root, br_root]
    · have := w.nd
      rw [((br_addrs.append_right _).cons N).nodup_iff] at this ⊢
      exact this
  · intro b hb
    simp only [List.mem_singleton] at hb
    simp [put, hb]

/-! ### Rotations -/

theorem put_same {h : Heap} {a : Nat} {n : Node} : put h a n a = some n := by simp [put]
theorem put_ne {h : Heap} {a b : Nat} {n : Node} (e : b ≠ a) : put h a n b = h b := by simp [put, e]

section setters
variable {h : Heap} {d : Dir} {a p x y v z : Nat} {c : Bool}
theorem setChild_eq (e : h a = some (mkNode d p x y c v)) : setChild d h a z = some (put h a (mkNode d p z y c v)) := by
  cases d <;> simp [setChild, setLeft, setRight, e, mkNode]
theorem setChild_flip (e : h a = some (mkNode d p x y c v)) : setChild d.flip h a z = some (put h a (mkNode d p x z c v)) := by
  cases d <;> simp [setChild, Dir.flip, setLeft, setRight, e, mkNode]
theorem setParent_eq (e : h a = some (mkNode d p x y c v)) : setParent h a z = some (put h a (mkNode d z x y c v)) := by
  cases d <;> simp [setParent, e, mkNode]
theorem setParent_some {n : Node} (e : h a = some n) : setParent h a z = some (put h a { n with parent := z }) := by
  simp [setParent, e]
end setters

theorem relink_nil {d : Dir} {h : Heap} {t : Tree} {x y : Nat} : relink d h t t.nil x y = some (h, { t with root := y }) := by
  cases d <;> simp [relink, relinkLeft, relinkRight]

theorem relink_some {d e : Dir} {h : Heap} {t : Tree} {p q x y s v : Nat} {c : Bool} (hp : p ≠ t.nil)
    (hn : h p = some (mkNode e q x s c v)) (hs : s ≠ x) :
    relink d h t p x y = some (put h p (mkNode e q y s c v), t) := by
  have hs' := hs.symm
  cases d <;> cases e <;> simp [relink, relinkLeft, relinkRight, hp, hn, mkNode, hs', setLeft, setRight]

theorem rotate_eq {d : Dir} {h : Heap} {t : Tree} {x : Nat} : rotate d h t x =
    (h x).bind fun nx => (h (nx.child d.flip)).bind fun ny =>
    (setChild d.flip h x (ny.child d)).bind fun h => (h (nx.child d.flip)).bind fun ny =>
    (if ny.child d ≠ t.nil then setParent h (ny.child d) x else some h).bind fun h =>
    (h x).bind fun nx' => (setParent h (nx.child d.flip) nx'.parent).bind fun h =>
    (h x).bind fun nx' => (relink d h t nx'.parent x (nx.child d.flip)).bind fun (h, t) =>
    (setChild d h (nx.child d.flip) x).bind fun h => (setParent h x (nx.child d.flip)).bind fun h => some (h, t) := by
  cases d <;> rfl

theorem rotate_raw {d : Dir} {h : Heap} {t : Tree} {x y P a b e vx vy : Nat} {c c' : Bool}
    (hx : h x = some (mkNode d P a y c vx)) (hy : h y = some (mkNode d x b e c' vy))
    (hb : b ≠ t.nil → (∃ n, h b = some n) ∧ b ≠ x ∧ b ≠ y ∧ b ≠ P) (xy : x ≠ y) (Px : P ≠ x) (Py : P ≠ y)
    (hP : P ≠ t.nil → ∃ e' q s cP vP, h P = some (mkNode e' q x s cP vP) ∧ s ≠ x) :
    ∃ h' r', rotate d h t x = some (h', { t with root := r' }) ∧
      h' x = some (mkNode d y a b c vx) ∧ h' y = some (mkNode d P x e c' vy) ∧
      (b ≠ t.nil → h' b = (h b).map fun n => { n with parent := x }) ∧
      (P = t.nil → r' = y) ∧
      (P ≠ t.nil → r' = t.root ∧ ∀ e' q s cP vP, h P = some (mkNode e' q x s cP vP) → h' P = some (mkNode e' q y s cP vP)) ∧
      (∀ u, u ≠ x → u ≠ y → (u = b → b = t.nil) → (u = P → P = t.nil) → h' u = h u) := by
  have yx := xy.symm
  -- the heap after the subtree in the middle has changed hands
  have s1 : ∃ h2, (∀ K : Heap → Option (Heap × Tree), ((setChild d.flip h x b).bind fun h => (h y).bind fun ny =>
      (if ny.child d ≠ t.nil then setParent h (ny.child d) x else some h).bind K) = K h2) ∧
      h2 x = some (mkNode d P a b c vx) ∧ h2 y = h y ∧ (b ≠ t.nil → h2 b = (h b).map fun n => { n with parent := x }) ∧
      (∀ u, u ≠ x → u ≠ y → (u = b → b = t.nil) → h2 u = h u) := by
    rw [setChild_flip hx]
    simp only [Option.bind_some, put_ne yx, hy, mkNode_child]
    by_cases hbn : b = t.nil
    · refine ⟨_, fun K => by rw [if_neg (by simp [hbn]), Option.bind_some], put_same, by rw [put_ne yx, hy], fun h => absurd hbn h, ?_⟩
      intro u hu _ _; exact put_ne hu
    · obtain ⟨⟨n, hn⟩, bx, bY, bP⟩ := hb hbn
      have hn' : put h x (mkNode d P a b c vx) b = some n := by rw [put_ne bx, hn]
      refine ⟨_, fun K => by rw [if_pos hbn, setParent_some hn', Option.bind_some], ?_, ?_, ?_, ?_⟩
      · rw [put_ne bx.symm, put_same]
      · rw [put_ne bY.symm, put_ne yx, hy]
      · intro _; rw [put_same, hn]; rfl
      · intro u h1 _ h3; rw [put_ne (fun e => hbn (h3 e)), put_ne h1]
  obtain ⟨h2, e2, x2, y2, b2, o2⟩ := s1
  rw [rotate_eq]
  simp only [hx, hy, Option.bind_some, mkNode_child, mkNode_flip]
  rw [e2]
  rw [hy] at y2
  simp only [x2, Option.bind_some, mkNode_parent, setParent_eq y2, put_ne xy]
  have y3 : put h2 y (mkNode d P b e c' vy) y = some (mkNode d P b e c' vy) := put_same
  by_cases hPn : P = t.nil
  · subst hPn
    rw [relink_nil]
    have x4 : put (put h2 y (mkNode d t.nil b e c' vy)) y (mkNode d t.nil x e c' vy) x = some (mkNode d t.nil a b c vx) := by
      rw [put_ne xy, put_ne xy, x2]
    simp only [Option.bind_some, setChild_eq y3, setParent_eq x4]
    refine ⟨_, _, rfl, put_same, by rw [put_ne yx, put_same], ?_, fun _ => rfl, fun h => absurd rfl h, ?_⟩
    · intro hbn
      obtain ⟨_, bx, bY, bP⟩ := hb hbn
      rw [put_ne bx, put_ne bY, put_ne bY, b2 hbn]
    · intro u h1 h2' h3 h4
      rw [put_ne h1, put_ne h2', put_ne h2', o2 u h1 h2' h3]
  · obtain ⟨e', q, s, cP, vP, hp, hs⟩ := hP hPn
    have hpb : P = b → b = t.nil := fun e => Classical.byContradiction fun hbn => (hb hbn).2.2.2 e.symm
    have p3 : put h2 y (mkNode d P b e c' vy) P = some (mkNode e' q x s cP vP) := by
      rw [put_ne Py, o2 P Px Py hpb, hp]
    rw [relink_some hPn p3 hs]
    have y4 : put (put h2 y (mkNode d P b e c' vy)) P (mkNode e' q y s cP vP) y = some (mkNode d P b e c' vy) := by
      rw [put_ne Py.symm, put_same]
    have x4 : put (put (put h2 y (mkNode d P b e c' vy)) P (mkNode e' q y s cP vP)) y (mkNode d P x e c' vy) x =
        some (mkNode d P a b c vx) := by
      rw [put_ne xy, put_ne Px.symm, put_ne xy, x2]
    simp only [Option.bind_some, setChild_eq y4, setParent_eq x4]
    refine ⟨_, t.root, rfl, put_same, by rw [put_ne yx, put_same], ?_, fun h => absurd h hPn, fun _ => ⟨rfl, ?_⟩, ?_⟩
    · intro hbn
      obtain ⟨_, bx, bY, bP⟩ := hb hbn
      rw [put_ne bx, put_ne bY, put_ne bP, put_ne bY, b2 hbn]
    · intro e2 q2 s2 c2 v2 hp2
      rw [put_ne Px, put_ne Py, put_same]
      rw [hp] at hp2
      have := Option.some.inj hp2
      have hs' := hs.symm
      cases e' <;> cases e2 <;> simp [mkNode] at this ⊢ <;> simp_all
    · intro u h1 h2' h3 h4
      rw [put_ne h1, put_ne h2', put_ne (fun e => hPn (h4 e)), put_ne h2', o2 u h1 h2' h3]

theorem count_br {d : Dir} {c : Bool} {x y : T} {a v b : Nat} :
    (br d c x a v y).addrs.count b = x.addrs.count b + y.addrs.count b + if a = b then 1 else 0 := by
  rw [br_addrs.count_eq]; simp [List.count_cons]

theorem nodup_count {l l' : List Nat} (e : ∀ a, l'.count a = l.count a) (n : l.Nodup) : l'.Nodup :=
  (List.perm_iff_count.2 e).nodup_iff.2 n

/-- The heap changed only within the tree in focus and its context. -/
def Inside (h h' : Heap) (k : Ctx) (t : T) : Prop := ∀ u, u ∉ t.addrs → u ∉ Ctx.addrs k → h' u = h u

theorem rotate_at {d : Dir} {h : Heap} {t : Tree} {k : Ctx} {c c' : Bool} {A B C : T} {x y vx vy : Nat}
    (w : At t.nil h t.root k (br d c A x vx (br d c' B y vy C))) :
    ∃ h' r', rotate d h t x = some (h', { t with root := r' }) ∧
      At t.nil h' r' k (br d c' (br d c A x vx B) y vy C) ∧ Inside h h' k (br d c A x vx (br d c' B y vy C)) := by
  have nd := nodup_count (l' := t.nil :: x :: y :: (A.addrs ++ (B.addrs ++ (C.addrs ++ Ctx.addrs k))))
    (fun a => by simp only [List.count_cons, List.count_append, count_br, beq_iff_eq]; omega) w.nd
  have nd' : (t.nil :: ((br d c' (br d c A x vx B) y vy C).addrs ++ Ctx.addrs k)).Nodup :=
    nodup_count (fun a => by simp only [List.count_cons, List.count_append, count_br, beq_iff_eq]; omega) w.nd
  simp only [List.nodup_cons, List.mem_cons, List.mem_append, not_or, List.nodup_append] at nd
  obtain ⟨⟨nx, ny, nA, nB, nC, nk⟩, ⟨xy, xA, xB, xC, xk⟩, ⟨yA, yB, yC, yk⟩, -, ⟨ndB, -, dB⟩, dA⟩ := nd
  obtain ⟨hx, rA, rY⟩ := rep_br.1 w.sub
  obtain ⟨hy, rB, rC⟩ := rep_br.1 rY
  rw [br_root] at hx
  have hk := w.ctx
  rw [br_root] at hk
  have hPx : Ctx.parent t.nil k ≠ x := by
    cases k with
    | nil => exact nx
    | cons f k => intro e; apply xk; rw [← e]; simp [Ctx.addrs, Ctx.parent]
  have hPy : Ctx.parent t.nil k ≠ y := by
    cases k with
    | nil => exact ny
    | cons f k => intro e; apply yk; rw [← e]; simp [Ctx.addrs, Ctx.parent]
  have hBr : B.root t.nil ≠ t.nil → B.root t.nil ∈ B.addrs := fun e => mem_root.resolve_left e
  have hPk : Ctx.parent t.nil k ≠ t.nil → Ctx.parent t.nil k ∈ Ctx.addrs k := by
    cases k with
    | nil => intro e; exact absurd rfl e
    | cons f k => intro _; simp [Ctx.addrs, Ctx.parent]
  obtain ⟨h', r', e, ex, ey, eb, er, eP, eo⟩ := rotate_raw (t := t) hx hy (by
      intro hb
      have hm := hBr hb
      refine ⟨?_, fun e => xB (e ▸ hm), fun e => yB (e ▸ hm), ?_⟩
      · cases B with
        | nil => exact absurd rfl hb
        | node c l a v r => exact ⟨_, rB.1⟩
      · cases k with
        | nil => exact hb
        | cons f k =>
          intro e
          exact dB _ hm f.a (.inr (by simp [Ctx.addrs])) e) xy hPx hPy (by
      cases k with
      | nil => intro e; exact absurd rfl e
      | cons f k =>
        intro _
        refine ⟨f.d, _, f.s.root t.nil, f.c, f.v, hk.1, ?_⟩
        intro e
        rcases mem_root (N := t.nil) (t := f.s) with h | h
        · exact nx (h.symm.trans e)
        · exact xk (by rw [← e]; simp [Ctx.addrs, h]))
  have keep : ∀ u, u ≠ x → u ≠ y → u ≠ B.root t.nil → u ∉ Ctx.addrs k → h' u = h u := by
    intro u h1 h2 h3 h4
    refine eo u h1 h2 (fun e => absurd e h3) (fun e => Classical.byContradiction fun hn => h4 (e ▸ hPk hn))
  have keepS : ∀ {X : T}, (∀ u ∈ X.addrs, u ≠ x ∧ u ≠ y ∧ u ∉ B.addrs ∧ u ≠ t.nil ∧ u ∉ Ctx.addrs k) →
      ∀ u ∈ X.addrs, h' u = h u := by
    intro X hX u hu
    obtain ⟨h1, h2, h3, h4, h5⟩ := hX u hu
    refine keep u h1 h2 (fun e => ?_) h5
    exact h3 (by rw [e]; exact hBr (e ▸ h4))
  refine ⟨h', r', e, ⟨?_, ?_, ?_, nd'⟩, ?_⟩
  · rw [br_root]
    cases k with
    | nil => trivial
    | cons f k =>
      have hf : f.a ≠ t.nil := fun e => nk (by rw [← e]; simp [Ctx.addrs])
      refine ⟨(eP hf).2 _ _ _ _ _ hk.1, hk.2.1.frame ?_, hk.2.2.frame ?_⟩
      all_goals
        intro u hu
        have hu' : u ∈ Ctx.addrs (f :: k) := by simp [Ctx.addrs, hu]
        refine eo u (fun e => xk (e ▸ hu')) (fun e => yk (e ▸ hu')) (fun e => ?_) (fun e => ?_)
        · refine Classical.byContradiction fun hn => ?_
          exact dB _ (hBr hn) u (.inr hu') e.symm
        · exfalso
          have n2 := w.nd
          have := (List.nodup_append.1 (List.nodup_cons.1 n2).2).2.1
          simp only [Ctx.addrs, Ctx.parent, List.nodup_cons, List.mem_append, not_or] at this e
          subst e
          first | exact this.1.1 hu | exact this.1.2 hu
  · refine rep_br.2 ⟨by rw [br_root]; exact ey, rep_br.2 ⟨ex, rA.frame (keepS ?_), ?_⟩, rC.frame (keepS ?_)⟩
    · intro u hu
      refine ⟨fun e => xA (e ▸ hu), fun e => yA (e ▸ hu), fun h => dA u hu u (.inl h) rfl, fun e => nA (e ▸ hu),
        fun h => dA u hu u (.inr (.inr h)) rfl⟩
    · refine rB.reparent ndB ?_
      intro u hu
      have hun : u ≠ t.nil := fun e => nB (e ▸ hu)
      split
      · next e => rw [e]; exact eb (e ▸ hun)
      · next e => exact keep u (fun e => xB (e ▸ hu)) (fun e => yB (e ▸ hu)) e fun h => dB u hu u (.inr h) rfl
    · intro u hu
      refine ⟨fun e => xC (e ▸ hu), fun e => yC (e ▸ hu), fun h => dB u h u (.inl hu) rfl, fun e => nC (e ▸ hu), fun h => ?_⟩
      have n2 := w.nd
      have := (List.nodup_append.1 (List.nodup_cons.1 n2).2).2.2 u (mem_br.2 (.inr (.inr (mem_br.2 (.inr (.inr hu)))))) u h
      exact this rfl
  · rw [br_root]
    cases k with
    | nil => exact er rfl
    | cons f k =>
      have hf : f.a ≠ t.nil := fun e => nk (by rw [← e]; simp [Ctx.addrs])
      rw [(eP hf).1, w.root]; rfl
  · intro u h1 h2
    simp only [mem_br, not_or] at h1
    refine eo u h1.1 h1.2.2.1 (fun e => ?_) (fun e => ?_)
    · exact Classical.byContradiction fun hn => h1.2.2.2.1 (e ▸ hBr hn)
    · exact Classical.byContradiction fun hn => h2 (e ▸ hPk hn)

end Rcpr.RB
