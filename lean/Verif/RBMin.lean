import Verif.RBSmall
import Verif.RBShape

/-!
Deletion of the least element: the fix-up loop climbs the left edge of the tree. As long as black depths do not
decrease from left to right, it always finds a sibling, and the depths are the same afterwards.
-/
namespace Rcpr.RB

open Rcpr

/-! ### Depths along the left edge -/

/-- The number of black nodes of the context. -/
def Ctx.bd : Ctx → Nat
  | [] => 0
  | f :: k => if f.c then Ctx.bd k else Ctx.bd k + 1

/-- The black depths to the right of the focus, when the context turns left only. -/
def Ctx.lpost : Ctx → List Nat
  | [] => []
  | f :: k => f.s.lv (Ctx.bd (f :: k)) ++ Ctx.lpost k

theorem lv_left : ∀ {k : Ctx} {t : T}, (∀ f ∈ k, f.d = .l) → (plug k t).lv 0 = t.lv (Ctx.bd k) ++ Ctx.lpost k
  | [], t, _ => by simp [plug, Ctx.bd, Ctx.lpost]
  | ⟨d, c, a, v, s⟩ :: k, t, h => by
    obtain rfl : d = .l := h ⟨d, c, a, v, s⟩ (by simp)
    rw [plug, lv_left (k := k) fun f hf => h f (by simp [hf]), Frame.fill, lv_br]
    simp only [Ctx.bd, Ctx.lpost, List.append_assoc]

/-! ### The loop body in parts -/

/-- The last part of the body (rbtree_delete_fixup.c:57-63). -/
def leftLast (h : Heap) (t : Tree) (x w : Nat) : Option (Heap × Tree × Nat) :=
  (h x).bind fun nx => (h nx.parent).bind fun np => (setRed h w np.red).bind fun h =>
  (setRed h nx.parent false).bind fun h => (h w).bind fun nw => (setRed h nw.right false).bind fun h =>
  (leftRotate h t nx.parent).bind fun (h, t) => some (h, t, t.root)

/-- The body once the sibling is black (rbtree_delete_fixup.c:43-63). -/
def leftRest (h : Heap) (t : Tree) (x w : Nat) : Option (Heap × Tree × Nat) :=
  (h w).bind fun nw => (h nw.left).bind fun wl => (h nw.right).bind fun wr =>
  if wl.red = false ∧ wr.red = false then (setRed h w true).bind fun h => (h x).bind fun nx => some (h, t, nx.parent)
  else if wr.red = false then
    (setRed h nw.left false).bind fun h => (setRed h w true).bind fun h => (rightRotate h t w).bind fun (h, t) =>
    (h x).bind fun nx => (h nx.parent).bind fun np => leftLast h t x np.right
  else leftLast h t x w

theorem deleteFixupLeft_eq {h : Heap} {t : Tree} {x : Nat} : deleteFixupLeft h t x =
    (h x).bind fun nx => (h nx.parent).bind fun np => (h np.right).bind fun nw =>
    if nw.red then
      (setRed h np.right false).bind fun h => (setRed h nx.parent true).bind fun h => (leftRotate h t nx.parent).bind fun (h, t) =>
      (h x).bind fun nx => (h nx.parent).bind fun np => leftRest h t x np.right
    else leftRest h t x np.right := by
  simp only [deleteFixupLeft, leftRest, leftLast, Option.bind_eq_bind]
  congr 1; funext nx; congr 1; funext np; congr 1; funext nw
  split
  · simp only [Option.bind_assoc, Option.bind_some]
    congr 1; funext h1; congr 1; funext h2; congr 1; funext q; congr 1; funext nx; congr 1; funext np
    congr 1; funext nw; congr 1; funext wl; congr 1; funext wr
    split
    · rfl
    · split <;> simp only [Option.bind_assoc, Option.bind_some]
  · simp only [Option.bind_some]
    congr 1; funext nw; congr 1; funext wl; congr 1; funext wr
    split
    · rfl
    · split <;> simp only [Option.bind_assoc, Option.bind_some]

/-! ### Steps -/

theorem col_read {N : Nat} {h : Heap} {p : Nat} {X : T} {nn : Node} (w : Rep N h p X) (hn : h N = some nn) (hr : nn.red = false) :
    ∃ n, h (X.root N) = some n ∧ n.red = X.col := by
  cases X with
  | nil => exact ⟨nn, hn, hr⟩
  | node c l a v r => exact ⟨_, w.1, rfl⟩

theorem At.par {N : Nat} {h : Heap} {r : Nat} {k : Ctx} {X : T} (w : At N h r k X) (hX : X ≠ .nil) :
    ∃ n, h (X.root N) = some n ∧ n.parent = Ctx.parent N k := by
  cases X with
  | nil => exact absurd rfl hX
  | node c l a v r => exact ⟨_, w.sub.1, rfl⟩

section
variable {h : Heap} {t : Tree} {k : Ctx} {X A B : T} {c cw : Bool} {p vp b vb : Nat}

theorem turn_io {f : Frame} {W W' : T} (e : W.io = W'.io) : (plug (({ f with s := W } : Frame) :: k) X).io = (plug (({ f with s := W' } : Frame) :: k) X).io := by
  simp only [plug]
  exact plug_io_congr (br_io_congr rfl e)

/-- Painting the sibling. -/
theorem paint_sib {c' : Bool} {N r : Nat} (w : At N h r (⟨.l, c, p, vp, .node cw A b vb B⟩ :: k) X) :
    ∃ h', setRed h b c' = some h' ∧ At N h' r (⟨.l, c, p, vp, .node c' A b vb B⟩ :: k) X ∧
      Off h h' (plug (⟨.l, c, p, vp, .node cw A b vb B⟩ :: k) X) := by
  have w1 := at_turn.1 w
  obtain ⟨h', e, w2, o⟩ := paint (d := .l) (c' := c') w1
  refine ⟨h', e, ?_, ?_⟩
  · have := at_turn.1 w2
    exact this
  · have : plug (⟨.l, c, p, vp, .node cw A b vb B⟩ :: k) X =
        plug (Frame.turn ⟨.l, c, p, vp, .node cw A b vb B⟩ X :: k) (T.node cw A b vb B) := by
      simp only [plug]
      rw [fill_turn (f := ⟨.l, c, p, vp, .node cw A b vb B⟩)]
    rw [this]; exact o

/-- The sibling, seen from the node. -/
theorem sib_read {N r : Nat} (w : At N h r (⟨.l, c, p, vp, .node cw A b vb B⟩ :: k) X) :
    h b = some ⟨p, A.root N, B.root N, cw, vb⟩ ∧ h p = some ⟨Ctx.parent N k, X.root N, b, c, vp⟩ ∧ Rep N h b A ∧ Rep N h b B :=
  ⟨w.ctx.2.1.1, w.ctx.1, w.ctx.2.1.2.1, w.ctx.2.1.2.2⟩

/-- Both nephews are black: the sibling turns red. -/
theorem rest_both {nn : Node} (w : At t.nil h t.root (⟨.l, c, p, vp, .node cw A b vb B⟩ :: k) X) (hX : X ≠ .nil)
    (hn : h t.nil = some nn) (hr : nn.red = false) (hA : A.col = false) (hB : B.col = false) :
    ∃ h', leftRest h t (X.root t.nil) b = some (h', t, p) ∧ At t.nil h' t.root (⟨.l, c, p, vp, .node true A b vb B⟩ :: k) X ∧
      Off h h' (plug (⟨.l, c, p, vp, .node cw A b vb B⟩ :: k) X) := by
  obtain ⟨s1, s2, s3, s4⟩ := sib_read w
  obtain ⟨na, ha, ha'⟩ := col_read s3 hn hr
  obtain ⟨nb, hb, hb'⟩ := col_read s4 hn hr
  obtain ⟨h', e, w', o⟩ := paint_sib (c' := true) w
  obtain ⟨nx, hx, hx'⟩ := w'.par hX
  refine ⟨h', ?_, w', o⟩
  rw [leftRest, s1, Option.bind_some, ha, Option.bind_some, hb, Option.bind_some, if_pos ⟨by rw [ha', hA], by rw [hb', hB]⟩, e, Option.bind_some, hx,
    Option.bind_some, hx']
  rfl

/-- The far nephew is red. -/
theorem last_far {B1 B2 : T} {d vd : Nat} (w : At t.nil h t.root (⟨.l, c, p, vp, .node cw A b vb (.node true B1 d vd B2)⟩ :: k) X)
    (hX : X ≠ .nil) :
    ∃ h' r', leftLast h t (X.root t.nil) b = some (h', { t with root := r' }, r') ∧
      At t.nil h' r' k (.node c (.node false X p vp A) b vb (.node false B1 d vd B2)) ∧
      Off h h' (plug (⟨.l, c, p, vp, .node cw A b vb (.node true B1 d vd B2)⟩ :: k) X) := by
  obtain ⟨s1, s2, -, -⟩ := sib_read w
  obtain ⟨nx, hx, hx'⟩ := w.par hX
  obtain ⟨h1, e1, w1, o1⟩ := paint_sib (c' := c) w
  obtain ⟨h2, e2, w2, o2⟩ := paint_up (c' := false) w1
  obtain ⟨s3, -, -, -⟩ := sib_read w2
  -- the far nephew
  have w3 := at_turn.1 w2
  have w4 : At t.nil h2 t.root (⟨.r, c, b, vb, A⟩ :: ⟨.r, false, p, vp, X⟩ :: k) (.node true B1 d vd B2) := at_fill.2 w3
  obtain ⟨h3, e3, w5, o3⟩ := paint (d := .l) (c' := false) w4
  have w6 : At t.nil h3 t.root k (br .l false X p vp (br .l c A b vb (.node false B1 d vd B2))) := at_fill.1 (at_fill.1 w5)
  obtain ⟨h4, r', e4, w7, o4⟩ := Rcpr.RB.turn w6
  refine ⟨h4, r', ?_, w7, ?_⟩
  · rw [leftLast, hx, Option.bind_some, hx']
    simp only [parent_cons, s2, Option.bind_some, e1, show setRed h1 p false = some h2 from e2, s3, root_node,
      show setRed h2 d false = some h3 from e3, show leftRotate h3 t p = _ from e4]
  · refine ((o1.trans o2 ?_).trans o3 ?_).trans o4 ?_
    · exact turn_io (f := ⟨.l, c, p, vp, .nil⟩) rfl
    · simp only [plug]; refine plug_io_congr ?_; simp [Frame.fill, br_io, T.io]
    · simp only [plug]; refine plug_io_congr ?_; simp [Frame.fill, br_io, T.io]

/-- The near nephew is red and the far one black. -/
theorem rest_near {A1 A2 : T} {a va : Nat} {nn : Node} (w : At t.nil h t.root (⟨.l, c, p, vp, .node cw (.node true A1 a va A2) b vb B⟩ :: k) X)
    (hX : X ≠ .nil) (hn : h t.nil = some nn) (hr : nn.red = false) (hB : B.col = false) :
    ∃ h' r', leftRest h t (X.root t.nil) b = some (h', { t with root := r' }, r') ∧
      At t.nil h' r' k (.node c (.node false X p vp A1) a va (.node false A2 b vb B)) ∧
      Off h h' (plug (⟨.l, c, p, vp, .node cw (.node true A1 a va A2) b vb B⟩ :: k) X) := by
  obtain ⟨s1, s2, s3, s4⟩ := sib_read w
  obtain ⟨na, ha, ha'⟩ := col_read s3 hn hr
  obtain ⟨nb, hb, hb'⟩ := col_read s4 hn hr
  have w1 := at_turn.1 w
  have w2 : At t.nil h t.root (⟨.l, cw, b, vb, B⟩ :: ⟨.r, c, p, vp, X⟩ :: k) (.node true A1 a va A2) := at_fill.2 w1
  obtain ⟨h1, e1, w3, o1⟩ := paint (d := .l) (c' := false) w2
  obtain ⟨h2, e2, w4, o2⟩ := paint_up (c' := true) w3
  have w5 : At t.nil h2 t.root (⟨.r, c, p, vp, X⟩ :: k) (br .r true B b vb (br .r false A2 a va A1)) := at_fill.1 w4
  obtain ⟨h3, r3, e3, w6, o3⟩ := Rcpr.RB.turn w5
  have w7 : At t.nil h3 r3 (⟨.l, c, p, vp, .node false A1 a va (.node true A2 b vb B)⟩ :: k) X := at_turn.1 w6
  obtain ⟨q1, q2, -, -⟩ := sib_read w7
  obtain ⟨nx, hx, hx'⟩ := w7.par hX
  obtain ⟨h4, r', e4, w8, o4⟩ := last_far (t := { t with root := r3 }) w7 hX
  refine ⟨h4, r', ?_, w8, ?_⟩
  · have e4' : leftLast h3 { t with root := r3 } (X.root t.nil) a = some (h4, { t with root := r' }, r') := e4
    have e3' : rightRotate h2 t b = some (h3, { t with root := r3 }) := e3
    rw [leftRest, s1, Option.bind_some, ha, Option.bind_some, hb, Option.bind_some, if_neg (by rw [ha']; simp [T.col]),
      if_pos (by rw [hb', hB])]
    simp only [root_node, show setRed h a false = some h1 from e1, Option.bind_some, show setRed h1 b true = some h2 from e2, e3']
    rw [show h3 (X.root t.nil) = some nx from hx, Option.bind_some, hx', parent_cons, q2, Option.bind_some]
    exact e4'
  · refine ((o1.trans o2 ?_).trans o3 ?_).trans o4 ?_
    · simp only [plug]; refine plug_io_congr ?_; simp [Frame.fill, br_io, T.io]
    · simp only [plug]; refine plug_io_congr ?_; simp [Frame.fill, br_io, T.io]
    · simp only [plug]; refine plug_io_congr ?_; simp [Frame.fill, br_io, T.io]

end

/-! ### The loop -/

theorem deleteFixup_eq {n : Nat} {h : Heap} {t : Tree} {x : Nat} : deleteFixup (n + 1) h t x =
    (h x).bind fun nx =>
      if x ≠ t.nil ∧ nx.red = false then
        (h nx.parent).bind fun np => (if x = np.left then deleteFixupLeft h t x else deleteFixupRight h t x).bind fun (h, t, x) =>
        deleteFixup n h t x
      else (setRed h x false).bind fun h => some (h, t) := by
  simp only [deleteFixup, deleteFixupLoop, Option.bind_eq_bind, Option.bind_assoc]
  congr 1; funext nx
  split <;> simp only [Option.bind_assoc, Option.bind_some]

/-- At the root the loop ends by way of the sentinel. -/
theorem fixup_root {n : Nat} {h : Heap} {t : Tree} {l r : T} {a v : Nat} {nn : Node} (w : At t.nil h t.root [] (.node false l a v r))
    (hn : h t.nil = some nn) (hl : nn.left = t.nil) (hr : nn.right = t.nil) (hc : nn.red = false) :
    ∃ h' nn', deleteFixup (n + 2) h t a = some (h', t) ∧ At t.nil h' t.root [] (.node false l a v r) ∧ h' t.nil = some nn' ∧
      nn'.value = nn.value ∧ ∀ u, u ≠ t.nil → h' u = h u := by
  have ha : h a = some ⟨t.nil, l.root t.nil, r.root t.nil, false, v⟩ := w.sub.1
  have haN : a ≠ t.nil := w.nin (.inl (by simp [T.addrs]))
  have s1 : setRed h t.nil true = some (put h t.nil { nn with red := true }) := by simp [setRed, hn]
  have s2 : setRed (put h t.nil { nn with red := true }) t.nil false =
      some (put (put h t.nil { nn with red := true }) t.nil { nn with red := false }) := by simp [setRed, put_same]
  refine ⟨put (put h t.nil { nn with red := true }) t.nil { nn with red := false }, { nn with red := false }, ?_,
    w.frame fun u hu => ?_, put_same, rfl, fun u hu => by rw [put_ne hu, put_ne hu]⟩
  · have hR : deleteFixupRight h t a = some (put h t.nil { nn with red := true }, t, t.nil) := by
      simp [deleteFixupRight, ha, hn, hl, hr, hc, s1, put_ne haN]
    have h2 : deleteFixup (n + 1) (put h t.nil { nn with red := true }) t t.nil =
        some (put (put h t.nil { nn with red := true }) t.nil { nn with red := false }, t) := by
      rw [deleteFixup_eq, put_same, Option.bind_some, if_neg (by simp), s2, Option.bind_some]
    rw [deleteFixup_eq, ha, Option.bind_some, if_pos ⟨haN, rfl⟩]
    simp only [hn, Option.bind_some]
    rw [if_neg (by rw [hl]; exact haN), hR, Option.bind_some]
    exact h2
  · have := w.nin hu
    rw [put_ne this, put_ne this]

theorem rises_of {k : Ctx} {t : T} (hk : ∀ f ∈ k, f.d = .l) : Rises (plug k t) ↔ (t.lv (Ctx.bd k) ++ Ctx.lpost k).Pairwise (· ≤ ·) := by
  rw [Rises, lv_left hk]

theorem col_plug {k : Ctx} {t : T} (kb : kBlack k) (h : k = [] → t.col = false) : (plug k t).col = false := by
  induction k generalizing t with
  | nil => exact h rfl
  | cons f k ih =>
    rw [plug]
    refine ih (kBlack_tail kb) fun e => ?_
    subst e
    rw [Frame.fill, br_col]; exact kb

/-- The fix-up from `x` ends with a tree holding `L` that meets all conditions; nothing else has changed since `h0`. -/
def Mends (n : Nat) (h : Heap) (t : Tree) (x : Nat) (h0 : Heap) (L : List (Nat × Nat)) (val : Nat) : Prop :=
  ∃ h' r' Y nn', deleteFixup n h t x = some (h', { t with root := r' }) ∧ At t.nil h' r' [] Y ∧ Y.io = L ∧ noRR Y ∧ Y.col = false ∧
    Rises Y ∧ h' t.nil = some nn' ∧ nn'.value = val ∧ ∀ u, u ≠ t.nil → u ∉ L.map Prod.fst → h' u = h0 u

theorem Mends.since {n : Nat} {h h0 : Heap} {t : Tree} {x val : Nat} {Z : T} (m : Mends n h t x h Z.io val) (o : Off h0 h Z) :
    Mends n h t x h0 Z.io val := by
  obtain ⟨h', r', Y, nn', e1, e2, e3, e4, e5, e6, e7, e8, e9⟩ := m
  exact ⟨h', r', Y, nn', e1, e2, e3, e4, e5, e6, e7, e8, fun u h1 h2 => (e9 u h1 h2).trans (o u h2)⟩

/-- A red node is painted black. -/
theorem mends_red {n : Nat} {k : Ctx} {h : Heap} {t : Tree} {l r : T} {a v : Nat} {nn : Node}
    (w : At t.nil h t.root k (.node true l a v r)) (hk : ∀ f ∈ k, f.d = .l) (hn : h t.nil = some nn)
    (hD : ((T.node true l a v r).lv (Ctx.bd k + 1) ++ Ctx.lpost k).Pairwise (· ≤ ·)) (kr : kRR k) (kb : kBlack k) (nl : noRR l) (nr : noRR r) :
    Mends (n + 1) h t a h (plug k (.node true l a v r)).io nn.value := by
  have ha : h a = some ⟨Ctx.parent t.nil k, l.root t.nil, r.root t.nil, true, v⟩ := w.sub.1
  obtain ⟨h', e, w', o⟩ := paint (d := .l) (c' := false) w
  have io : (plug k (.node false l a v r)).io = (plug k (.node true l a v r)).io := plug_io_congr rfl
  refine ⟨h', t.root, plug k (.node false l a v r), nn, ?_, at_plug.1 (by rw [List.append_nil]; exact w'), io,
    noRR_plug.2 ⟨kr, ⟨(fun h => by cases h), nl, nr⟩, fun _ => rfl⟩, col_plug kb fun _ => rfl, (rises_of hk).2 ?_,
    by rw [o.nil w]; exact hn, rfl, fun u _ hu => o u hu⟩
  · rw [deleteFixup_eq, ha, Option.bind_some, if_neg (by simp), show setRed h a false = some h' from e, Option.bind_some]
  · simpa [T.lv] using hD

/-- The loop is sent to the root of a tree that is in order. -/
theorem mends_top {n : Nat} {k : Ctx} {h : Heap} {t : Tree} {Z : T} {nn : Node}
    (w : At t.nil h t.root k Z) (hZ : Z ≠ .nil) (hk : ∀ f ∈ k, f.d = .l) (hn : h t.nil = some nn)
    (hl : nn.left = t.nil) (hr : nn.right = t.nil) (hc : nn.red = false)
    (hD : (Z.lv (Ctx.bd k) ++ Ctx.lpost k).Pairwise (· ≤ ·)) (rr : noRR (plug k Z)) (cc : (plug k Z).col = false) :
    Mends (n + 2) h t t.root h (plug k Z).io nn.value := by
  have w' : At t.nil h t.root [] (plug k Z) := at_plug.1 (by rw [List.append_nil]; exact w)
  have hp : plug k Z ≠ .nil := by
    clear w w' hD rr cc hk
    induction k generalizing Z with
    | nil => exact hZ
    | cons f k ih => exact ih (by simp [Frame.fill, br_ne_nil])
  have hR := (rises_of hk).2 hD
  generalize plug k Z = Y at *
  cases Y with
  | nil => exact absurd rfl hp
  | node c l a v r =>
    obtain rfl : c = false := cc
    have hroot : t.root = a := w'.root
    obtain ⟨h', nn', e1, e2, e3, e4, e5⟩ := fixup_root (n := n) w' hn hl hr hc
    exact ⟨h', t.root, _, nn', by rw [← hroot] at e1; exact e1, e2, rfl, rr, rfl, hR, e3, e4, fun u hu _ => e5 u hu⟩

/-- The body once the sibling is black; `ih` is what happens further up. -/
theorem rest_min {n : Nat} {k : Ctx} {h : Heap} {t : Tree} {c : Bool} {l r A B : T} {a v p vp b vb : Nat} {nn : Node}
    (w : At t.nil h t.root (⟨.l, c, p, vp, .node false A b vb B⟩ :: k) (.node false l a v r)) (hk : ∀ f ∈ k, f.d = .l)
    (hn : h t.nil = some nn) (hl : nn.left = t.nil) (hr : nn.right = t.nil) (hc : nn.red = false)
    (hD : ((T.node false l a v r).lv (Ctx.bd (⟨.l, c, p, vp, .node false A b vb B⟩ :: k) + 1) ++
      Ctx.lpost (⟨.l, c, p, vp, .node false A b vb B⟩ :: k)).Pairwise (· ≤ ·))
    (kr : kRR (⟨.l, c, p, vp, .node false A b vb B⟩ :: k)) (kb : kBlack (⟨.l, c, p, vp, .node false A b vb B⟩ :: k)) (nl : noRR l) (nr : noRR r)
    (ih : ∀ h1, At t.nil h1 t.root k (.node c (.node false l a v r) p vp (.node true A b vb B)) → h1 t.nil = some nn →
      ((T.node c (.node false l a v r) p vp (.node true A b vb B)).lv (Ctx.bd k + 1) ++ Ctx.lpost k).Pairwise (· ≤ ·) →
      noRR (.node true A b vb B) →
      Mends (n + 2) h1 t p h1 (plug k (.node c (.node false l a v r) p vp (.node true A b vb B))).io nn.value) :
    ∃ h1 r1 x1, leftRest h t a b = some (h1, { t with root := r1 }, x1) ∧
      Mends (n + 2) h1 { t with root := r1 } x1 h (plug (⟨.l, c, p, vp, .node false A b vb B⟩ :: k) (.node false l a v r)).io nn.value := by
  have hX : T.node false l a v r ≠ .nil := by simp
  obtain ⟨k1, ⟨k2, k3, k4⟩, k5⟩ := kr
  simp only [] at k1
  have hnil : ∀ {h1 : Heap}, Off h h1 (plug (⟨.l, c, p, vp, .node false A b vb B⟩ :: k) (.node false l a v r)) → h1 t.nil = some nn :=
    fun o => by rw [o.nil w]; exact hn
  have kcol : k = [] → c = false := by rintro rfl; exact kb
  have up : c = true → Ctx.col k = false := fun e => (k1 e).2
  cases hB : B.col with
  | true =>
    obtain ⟨B1, d, vd, B2, rfl⟩ : ∃ B1 d vd B2, B = .node true B1 d vd B2 := by
      cases B with
      | nil => cases hB
      | node cB B1 d vd B2 => obtain rfl : cB = true := hB; exact ⟨_, _, _, _, rfl⟩
    obtain ⟨h1, r1, e1, w1, o1⟩ := last_far w hX
    have s1 : leftRest h t a b = leftLast h t a b := by
      obtain ⟨s1, -, s3, s4⟩ := sib_read w
      obtain ⟨na, ha, ha'⟩ := col_read s3 hn hc
      obtain ⟨nb, hb, hb'⟩ := col_read s4 hn hc
      rw [leftRest, s1, Option.bind_some, ha, Option.bind_some, hb, Option.bind_some, if_neg (by rw [hb']; simp [T.col]),
        if_neg (by rw [hb']; simp [T.col])]
    have io : (plug (⟨.l, c, p, vp, .node false A b vb (.node true B1 d vd B2)⟩ :: k) (.node false l a v r)).io =
        (plug k (.node c (.node false (.node false l a v r) p vp A) b vb (.node false B1 d vd B2))).io := by
      rw [plug]; exact plug_io_congr (by simp [Frame.fill, br_io, T.io])
    refine ⟨h1, r1, r1, by rw [s1]; exact e1, ?_⟩
    have := mends_top (n := n) (t := { t with root := r1 }) w1 (by simp) hk (hnil o1) hl hr hc ?_ ?_ ?_
    · rw [← io] at this
      exact this.since o1
    · cases c <;> simpa [Ctx.bd, Ctx.lpost, T.lv] using hD
    · refine noRR_plug.2 ⟨k5, ⟨fun _ => ⟨rfl, rfl⟩, ⟨(fun h => by cases h), ⟨(fun h => by cases h), nl, nr⟩, k3⟩, ⟨(fun h => by cases h), k4.2⟩⟩, fun e => ?_⟩
      cases c with
      | false => rfl
      | true => rw [up rfl] at e; cases e
    · exact col_plug (kBlack_tail kb) kcol
  | false =>
    cases hA : A.col with
    | true =>
      obtain ⟨A1, d, vd, A2, rfl⟩ : ∃ A1 d vd A2, A = .node true A1 d vd A2 := by
        cases A with
        | nil => cases hA
        | node cA A1 d vd A2 => obtain rfl : cA = true := hA; exact ⟨_, _, _, _, rfl⟩
      obtain ⟨h1, r1, e1, w1, o1⟩ := rest_near w hX hn hc hB
      have io : (plug (⟨.l, c, p, vp, .node false (.node true A1 d vd A2) b vb B⟩ :: k) (.node false l a v r)).io =
          (plug k (.node c (.node false (.node false l a v r) p vp A1) d vd (.node false A2 b vb B))).io := by
        rw [plug]; exact plug_io_congr (by simp [Frame.fill, br_io, T.io])
      refine ⟨h1, r1, r1, e1, ?_⟩
      have := mends_top (n := n) (t := { t with root := r1 }) w1 (by simp) hk (hnil o1) hl hr hc ?_ ?_ ?_
      · rw [← io] at this
        exact this.since o1
      · cases c <;> simpa [Ctx.bd, Ctx.lpost, T.lv] using hD
      · refine noRR_plug.2 ⟨k5, ⟨fun _ => ⟨rfl, rfl⟩, ⟨(fun h => by cases h), ⟨(fun h => by cases h), nl, nr⟩, k3.2.1⟩,
          ⟨(fun h => by cases h), k3.2.2, k4⟩⟩, fun e => ?_⟩
        cases c with
        | false => rfl
        | true => rw [up rfl] at e; cases e
      · exact col_plug (kBlack_tail kb) kcol
    | false =>
      obtain ⟨h1, e1, w1, o1⟩ := rest_both w hX hn hc hA hB
      have io : (plug (⟨.l, c, p, vp, .node false A b vb B⟩ :: k) (.node false l a v r)).io =
        (plug k (.node c (.node false l a v r) p vp (.node true A b vb B))).io := by rw [plug]; exact plug_io_congr rfl
      refine ⟨h1, t.root, p, e1, ?_⟩
      have := ih h1 (at_fill.1 w1) (hnil o1) ?_ ⟨fun _ => ⟨hA, hB⟩, k3, k4⟩
      · rw [← io] at this
        exact this.since o1
      · cases c <;> simpa [Ctx.bd, Ctx.lpost, T.lv] using hD

/-- The loop from a node on the left edge whose subtree lacks one black node. -/
theorem fixup_min : ∀ (n : Nat) {k : Ctx} {h : Heap} {t : Tree} {c : Bool} {l r : T} {a v : Nat} {nn : Node},
    k.length ≤ n → At t.nil h t.root k (.node c l a v r) → (∀ f ∈ k, f.d = .l) →
    h t.nil = some nn → nn.left = t.nil → nn.right = t.nil → nn.red = false →
    ((T.node c l a v r).lv (Ctx.bd k + 1) ++ Ctx.lpost k).Pairwise (· ≤ ·) → kRR k → kBlack k → noRR l → noRR r →
    Mends (n + 2) h t a h (plug k (.node c l a v r)).io nn.value
  | n, k, h, t, true, l, r, a, v, nn, _, w, hk, hn, _, _, _, hD, kr, kb, nl, nr => mends_red w hk hn hD kr kb nl nr
  | n, [], h, t, false, l, r, a, v, nn, _, w, hk, hn, hl, hr, hc, hD, kr, kb, nl, nr => by
    have := mends_top (n := n) w (by simp) hk hn hl hr hc ?_ ⟨(fun h => by cases h), nl, nr⟩ rfl
    · rwa [show t.root = a from w.root] at this
    · simp only [Ctx.lpost, List.append_nil, Ctx.bd] at hD ⊢
      exact (rises_lv 1).2 hD
  | 0, f :: k, h, t, false, l, r, a, v, nn, hf, _, _, _, _, _, _, _, _, _, _, _ => absurd hf (by simp)
  | n + 1, ⟨d, c, p, vp, W⟩ :: k, h, t, false, l, r, a, v, nn, hf, w, hk, hn, hl, hr, hc, hD, kr, kb, nl, nr => by
    obtain rfl : d = .l := hk ⟨d, c, p, vp, W⟩ (by simp)
    have hk' : ∀ f ∈ k, f.d = .l := fun f hf => hk f (by simp [hf])
    have hX : T.node false l a v r ≠ .nil := by simp
    have haN : a ≠ t.nil := w.nin (.inl (by simp [T.addrs]))
    have ha : h a = some ⟨p, l.root t.nil, r.root t.nil, false, v⟩ := w.sub.1
    have hp : h p = some ⟨Ctx.parent t.nil k, a, W.root t.nil, c, vp⟩ := w.ctx.1
    -- every place to the right lies at least two black nodes deeper than the parent
    obtain ⟨x0, hx0⟩ := lv_some (t := .node false l a v r) (d := Ctx.bd (⟨.l, c, p, vp, W⟩ :: k) + 1)
    have hx1 : Ctx.bd (⟨.l, c, p, vp, W⟩ :: k) + 2 ≤ x0 := by
      simp only [T.lv, Bool.false_eq_true, if_false, List.mem_append] at hx0
      rcases hx0 with h | h <;> exact lv_low h
    have hge : ∀ y ∈ W.lv (Ctx.bd (⟨.l, c, p, vp, W⟩ :: k)), Ctx.bd (⟨.l, c, p, vp, W⟩ :: k) + 2 ≤ y := by
      intro y hy
      have := (List.pairwise_append.1 hD).2.2 x0 hx0 y (by simp only [Ctx.lpost, List.mem_append]; exact .inl hy)
      omega
    clear hx0 hx1
    suffices hs : ∃ h1 r1 x1, deleteFixupLeft h t a = some (h1, { t with root := r1 }, x1) ∧
        Mends (n + 2) h1 { t with root := r1 } x1 h (plug (⟨.l, c, p, vp, W⟩ :: k) (.node false l a v r)).io nn.value by
      obtain ⟨h1, r1, x1, e1, h', r', Y, nn', e2, m⟩ := hs
      refine ⟨h', r', Y, nn', ?_, m⟩
      rw [deleteFixup_eq, ha, Option.bind_some, if_pos ⟨haN, rfl⟩]
      simp only [hp, Option.bind_some, if_true, e1]
      exact e2
    rw [deleteFixupLeft_eq, ha, Option.bind_some]
    simp only [hp, Option.bind_some]
    match W, w, hD, kr, hge, hp with
    | .nil, _, _, _, hge, _ => exact absurd (hge (Ctx.bd (⟨.l, c, p, vp, .nil⟩ :: k)) (by simp [T.lv])) (by omega)
    | .node false A b vb B, w, hD, kr, hge, hp =>
      obtain ⟨s1, -, -, -⟩ := sib_read w
      rw [root_node, s1, Option.bind_some, if_neg (by simp)]
      refine rest_min w hk' hn hl hr hc hD kr kb nl nr fun h1 w1 hn1 hD1 hB => ?_
      exact fixup_min n (by simp at hf; omega) w1 hk' hn1 hl hr hc hD1 kr.2.2 (kBlack_tail kb) ⟨(fun h => by cases h), nl, nr⟩ hB
    | .node true A b vb B, w, hD, kr, hge, hp =>
      obtain ⟨s1, -, -, -⟩ := sib_read w
      obtain ⟨k1, ⟨k2, k3, k4⟩, k5⟩ := kr
      simp only [] at k1
      obtain rfl : c = false := by
        cases c with
        | false => rfl
        | true => cases (k1 rfl).1
      obtain ⟨cA, cB⟩ := k2 rfl
      cases A with
      | nil => exact absurd (hge (Ctx.bd (⟨.l, false, p, vp, .node true .nil b vb B⟩ :: k)) (by simp [T.lv])) (by omega)
      | node cA' A1 d vd A2 =>
        obtain rfl : cA' = false := cA
        obtain ⟨h1, e1, w1, o1⟩ := paint_sib (c' := false) w
        obtain ⟨h2, e2, w2, o2⟩ := paint_up (c' := true) w1
        have w3 : At t.nil h2 t.root k (br .l true (.node false l a v r) p vp (br .l false (.node false A1 d vd A2) b vb B)) := at_fill.1 w2
        obtain ⟨h3, r3, e3, w4, o3⟩ := Rcpr.RB.turn w3
        have w5 : At t.nil h3 r3 (⟨.l, true, p, vp, .node false A1 d vd A2⟩ :: ⟨.l, false, b, vb, B⟩ :: k) (.node false l a v r) :=
          at_fill.2 (at_fill.2 w4)
        obtain ⟨-, q2, -, -⟩ := sib_read w5
        have o : Off h h3 (plug (⟨.l, false, p, vp, .node true (.node false A1 d vd A2) b vb B⟩ :: k) (.node false l a v r)) := by
          refine (o1.trans o2 ?_).trans o3 ?_
          · simp only [plug]; exact plug_io_congr (br_io_congr rfl rfl)
          · simp only [plug]; refine plug_io_congr ?_; simp [Frame.fill, br_io, T.io]
        have hn3 : h3 t.nil = some nn := by rw [o.nil w]; exact hn
        have ha3 : h3 a = some ⟨p, l.root t.nil, r.root t.nil, false, v⟩ := w5.sub.1
        obtain ⟨h4, r4, x4, e4, m4⟩ := rest_min (n := n) (t := { t with root := r3 }) w5
          (fun f hf => by rcases List.mem_cons.1 hf with rfl | hf; rfl; exact hk' f hf) hn3 hl hr hc
          (by simpa [Ctx.bd, Ctx.lpost, T.lv] using hD) ⟨fun _ => ⟨rfl, rfl⟩, k3, (fun h => by cases h), k4, k5⟩
          (by cases k with
              | nil => exact kb
              | cons f k => exact kb) nl nr
          (fun h1 w1 hn1 hD1 hB => mends_red w1 (fun f hf => by rcases List.mem_cons.1 hf with rfl | hf; rfl; exact hk' f hf) hn1 hD1
            ⟨(fun h => by cases h), k4, k5⟩
            (by cases k with
                | nil => rfl
                | cons f k => exact kb) ⟨(fun h => by cases h), nl, nr⟩ hB)
        refine ⟨h4, r4, x4, ?_, ?_⟩
        · rw [root_node, s1, Option.bind_some, if_pos rfl, e1, Option.bind_some, show setRed h1 p true = some h2 from e2, Option.bind_some,
            show leftRotate h2 t p = _ from e3]
          simp only [Option.bind_some, ha3]
          rw [show h3 p = _ from q2]
          exact e4
        · have io : (plug (⟨.l, true, p, vp, .node false A1 d vd A2⟩ :: ⟨.l, false, b, vb, B⟩ :: k) (.node false l a v r)).io =
              (plug (⟨.l, false, p, vp, .node true (.node false A1 d vd A2) b vb B⟩ :: k) (.node false l a v r)).io := by
            simp only [plug]; refine plug_io_congr ?_; simp [Frame.fill, br_io, T.io]
          obtain ⟨h', r', Y, nn', f1, f2, f3, f4, f5, f6, f7, f8, f9⟩ := m4
          refine ⟨h', r', Y, nn', f1, f2, f3.trans io, f4, f5, f6, f7, f8, fun u hu hu' => ?_⟩
          rw [f9 u hu (by rw [io]; exact hu')]
          exact o u hu'

/-! ### Removal of the least element -/

theorem length_le_plug : ∀ {k : Ctx} {t : T}, k.length + t.size ≤ (plug k t).size
  | [], t => by simp [plug]
  | f :: k, t => by
    rw [plug]
    refine Nat.le_trans ?_ (length_le_plug (k := k))
    obtain ⟨d, c, a, v, s⟩ := f
    cases d <;> simp only [Frame.fill, br, T.size, List.length_cons] <;> omega

theorem left_of_pre : ∀ {k : Ctx}, Ctx.pre k = [] → ∀ f ∈ k, f.d = .l
  | f :: k, h, g, hg => by
    rw [Ctx.pre, List.append_eq_nil_iff] at h
    rcases List.mem_cons.1 hg with rfl | hg
    · cases hd : g.d with
      | l => rfl
      | r => rw [hd] at h; simp at h
    · exact left_of_pre h.1 g hg

theorem min_removes {s : St} {X : T} {k : Ctx} {c : Bool} {R : T} {z vz : Nat} (w : Holds s.heap s.tree X) (cl : Clean s) (fit : Fit X)
    (hR : Rises X) (hX : X = plug k (.node c .nil z vz R)) (hk : ∀ f ∈ k, f.d = .l) : Removes s X k .nil z vz R Rises := by
  obtain ⟨wX, -, hcount⟩ := w
  obtain ⟨n0, hn⟩ := cl
  have wk : At s.tree.nil s.heap s.tree.root k (.node c .nil z vz R) := by
    rw [hX] at wX
    have := at_plug.2 wX
    rwa [List.append_nil] at this
  obtain ⟨h1, r1, nn, e1, w1, hz1, hn1, hnr, -, hnl, hnr', hfr⟩ := transplant_child (d := .l) wk hn
  have hzn : s.heap z = some ⟨Ctx.parent s.tree.nil k, s.tree.nil, R.root s.tree.nil, c, vz⟩ := wk.sub.1
  obtain ⟨q1, q2, q3⟩ := noRR_plug.1 (by rw [← hX]; exact fit.rr)
  have kb : kBlack k := kBlack_plug (by rw [← hX]; exact fit.black)
  have hD := (rises_of hk).1 (by rw [← hX]; exact hR)
  have hXio : X.io = (z, vz) :: (R.io ++ Ctx.post k) := by rw [hX, plug_io, pre_left hk]; simp [T.io]
  have hzX : z ∈ X.addrs := by rw [mem_addrs_io, hXio]; simp
  have zN : z ≠ s.tree.nil := wX.nin (.inl hzX)
  have hlen : k.length ≤ s.tree.count := by
    rw [hcount, hX]; have := length_le_plug (k := k) (t := .node c .nil z vz R); omega
  have hnd : ((z, vz) :: (R.io ++ Ctx.post k)).map Prod.fst |>.Nodup := by rw [← hXio]; exact wX.io_nodup
  have hioR : (plug k R).io = R.io ++ Ctx.post k := by rw [plug_io, pre_left hk]; rfl
  suffices hs : ∃ h2 r2 Y nn2, (if c = false then deleteFixup (s.tree.count + 2) h1 { s.tree with root := r1 } (R.root s.tree.nil)
        else some (h1, { s.tree with root := r1 })) = some (h2, { s.tree with root := r2 }) ∧ At s.tree.nil h2 r2 [] Y ∧
      Y.io = R.io ++ Ctx.post k ∧ noRR Y ∧ Y.col = false ∧ Rises Y ∧ h2 s.tree.nil = some nn2 ∧
      (∀ u, u ≠ s.tree.nil → u ∉ (R.io ++ Ctx.post k).map Prod.fst → h2 u = h1 u) by
    obtain ⟨h2, r2, Y, nn2, e2, w2, io2, rr2, c2, R2, hn2, f2⟩ := hs
    obtain ⟨rn, wn⟩ := resetNil_holds (t := { s.tree with root := r2 }) w2 hn2
    have zY : z ∉ (R.io ++ Ctx.post k).map Prod.fst := (List.nodup_cons.1 hnd).1
    refine ⟨_, r2, Y, ⟨Ctx.parent s.tree.nil k, s.tree.nil, R.root s.tree.nil, c, vz⟩, ?_, ⟨wn, ⟨_, put_same, rfl⟩, ?_⟩, ⟨rr2, c2⟩, ?_, ?_, rfl, ?_,
      ⟨_, put_same⟩, R2, ?_⟩
    · unfold removeNode
      simp only [removeSplice_eq, hzn, Option.bind_some, if_true, e1, Option.bind_eq_bind, e2, rn]
    · show s.tree.count - 1 = _
      rw [← io_length, io2, hcount, ← io_length, hXio]; simp
    · rw [io2, pre_left hk]; rfl
    · rw [put_ne zN, f2 z zN zY, hz1, hzn]
    · rw [mem_addrs_io, io2]; exact zY
    · intro u h1' h2'
      rw [mem_addrs_io, hXio, List.map_cons, List.mem_cons, not_or] at h2'
      rw [put_ne h1', f2 u h1' h2'.2]
      have : u ∉ (plug k R).addrs := by rw [mem_addrs_io, hioR]; exact h2'.2
      rw [mem_plug, not_or] at this
      exact hfr u h2'.1 h1' this.1 this.2
  have ws : At s.tree.nil h1 r1 [] (plug k R) := at_plug.1 (by rw [List.append_nil]; exact w1)
  cases c with
  | true =>
    refine ⟨h1, r1, plug k R, nn, by simp, ws, hioR, noRR_plug.2 ⟨q1, q2.2.2, fun _ => (q2.1 rfl).2⟩,
      col_plug kb fun _ => (q2.1 rfl).2, (rises_of hk).2 ?_, hn1, fun _ _ _ => rfl⟩
    simp only [T.lv, if_true, List.cons_append, List.nil_append] at hD
    exact (List.pairwise_cons.1 hD).2
  | false =>
    simp only [T.lv, Bool.false_eq_true, if_false, List.cons_append, List.nil_append] at hD
    have hD' := List.pairwise_cons.1 hD
    cases R with
    | nil =>
      have s2 : setRed h1 s.tree.nil false = some (put h1 s.tree.nil { nn with red := false }) := by simp [setRed, hn1]
      refine ⟨put h1 s.tree.nil { nn with red := false }, r1, plug k .nil, _, ?_, ws.frame fun u hu => put_ne (ws.nin hu), hioR,
        noRR_plug.2 ⟨q1, trivial, fun _ => rfl⟩, col_plug kb fun _ => rfl, (rises_of hk).2 ?_, put_same, fun u hu _ => put_ne hu⟩
      · rw [if_pos rfl, root_nil, deleteFixup_eq, hn1, Option.bind_some, if_neg (by simp), s2, Option.bind_some]
      · simp only [T.lv, List.cons_append, List.nil_append] at hD' ⊢
        refine List.pairwise_cons.2 ⟨fun y hy => ?_, (List.pairwise_cons.1 hD'.2).2⟩
        have := hD'.1 y (by simp [hy])
        omega
    | node c l a v r =>
      obtain ⟨h2, r2, Y, nn2, f1, f2, f3, f4, f5, f6, f7, -, f9⟩ := fixup_min (t := { s.tree with root := r1 }) s.tree.count hlen w1 hk hn1
        (hnl.trans rfl) (hnr'.trans rfl) (hnr.trans rfl) hD'.2 q1 kb q2.2.2.2.1 q2.2.2.2.2
      rw [hioR] at f3 f9
      exact ⟨h2, r2, Y, nn2, by rw [if_pos rfl]; exact f1, f2, f3, f4, f5, f6, f7, f9⟩

/-! ### Calls -/

theorem in_tree {s : St} {X : T} (hh : Holds s.heap s.tree X) {b u : Nat} (hb : (b, u) ∈ X.io) :
    Spec.InTree s b ∧ ∃ n, s.heap b = some n ∧ n.value = u := by
  have hw : ∀ (k : Ctx) (t : T), At s.tree.nil s.heap s.tree.root k t → t ≠ .nil → Spec.InTree s (t.root s.tree.nil) := by
    intro k
    induction k with
    | nil =>
      intro t w ht
      have : s.tree.root = t.root s.tree.nil := w.root
      rw [← this]; exact .root (by rw [this]; exact root_ne w ht)
    | cons f k ih =>
      intro t w ht
      have := ih _ (at_fill.1 w) (by simp [Frame.fill, br_ne_nil])
      rw [Frame.fill, br_root] at this
      have hup := w.up
      obtain ⟨d, c, a, v, s0⟩ := f
      cases d
      · exact .left this hup (root_ne w ht)
      · exact .right this hup (root_ne w ht)
  have go : ∀ (t : T) (k : Ctx), At s.tree.nil s.heap s.tree.root k t → (b, u) ∈ t.io → Spec.InTree s b ∧ ∃ n, s.heap b = some n ∧ n.value = u := by
    intro t
    induction t with
    | nil => intro k _ h; simp [T.io] at h
    | node c l a v r il ir =>
      intro k w h
      simp only [T.io, List.mem_append, List.mem_cons, Prod.mk.injEq] at h
      rcases h with h | ⟨rfl, rfl⟩ | h
      · exact il (⟨.l, c, a, v, r⟩ :: k) (at_fill.2 w) h
      · exact ⟨hw _ _ w (by simp), _, w.sub.1, rfl⟩
      · exact ir (⟨.r, c, a, v, l⟩ :: k) (at_fill.2 w) h
  exact go X [] hh.here hb

section
variable {K : Type} (o : Order K) [Std.TransCmp o.cmp]

/-- One call, when deletes concern the least key. -/
theorem call_min {e : Env} {s : St} {X : T} {v : Spec.View} {op : Spec.Op K} {h : List (Spec.Op K × Spec.Out)} (i : Inv o s X v) (cl : Clean s)
    (hR : Rises X) (hL : Legal s op) (hP : First o h s op) :
    ∃ out s' X' v', call o e s op = some (out, s') ∧ Spec.Step o e v op out v' ∧ Inv o s' X' v' ∧ Clean s' ∧ Rises X' := by
  cases op with
  | insert u a st =>
    obtain ⟨out, s', X', v', e1, e2, e3, -, e4, -, e5, -⟩ := insert_ok o i hL.1 hL.2
    exact ⟨(out, 0), s', X', v', by simp [call, e1], e2 e, e3, e5 cl, e4 hR⟩
  | find k =>
    obtain ⟨out, e1, e2⟩ := find_ok o (k := k) i
    exact ⟨out, s, X, v, by simp [call, e1], e2 e, i, cl, hR⟩
  | delete k take =>
    have hrem : ∀ kk c L a u R, X = plug kk (.node c L a u R) → Spec.Match o k u → Removes s X kk L a u R Rises := by
      intro kk c L a u R hX hm
      have hXio : X.io = (Ctx.pre kk ++ L.io) ++ (a, u) :: (R.io ++ Ctx.post kk) := by rw [hX, plug_io]; simp [T.io]
      have hempty : Ctx.pre kk ++ L.io = [] := by
        cases hl : Ctx.pre kk ++ L.io with
        | nil => rfl
        | cons x xs =>
          exfalso
          rw [hl] at hXio
          obtain ⟨b, y⟩ := x
          obtain ⟨t1, n1, g1, rfl⟩ := in_tree i.holds (b := b) (u := y) (by rw [hXio]; simp)
          obtain ⟨t2, n2, g2, rfl⟩ := in_tree i.holds (b := a) (u := u) (by rw [hXio]; simp)
          have hs := i.sorted
          rw [← i.items, hXio] at hs
          simp only [Spec.Sorted, List.cons_append, List.map_cons, List.map_append, List.pairwise_cons] at hs
          have h1 := hs.1 n2.value (by simp)
          have hba : b ≠ a := by
            rintro rfl
            have hd := i.holds.here.io_nodup
            rw [hXio] at hd
            simp at hd
          have h2 := hP t2 g2 hm t1 g1 hba
          have h3 : (o.cmp (o.key n1.value) k).isLE := Std.TransCmp.isLE_trans (Ordering.isLE_iff_ne_gt.2 h1)
            (by rw [Std.OrientedCmp.eq_swap (cmp := o.cmp), hm]; rfl)
          rw [Std.OrientedCmp.eq_swap (cmp := o.cmp), h2] at h3
          cases h3
      rw [List.append_eq_nil_iff] at hempty
      have hLn : L = .nil := by
        cases L with
        | nil => rfl
        | node => simp [T.io] at hempty
      subst hLn
      exact min_removes i.holds cl i.fit hR hX (left_of_pre hempty.1)
    obtain ⟨st, val, s', X', v', e1, e2, e3, -, e4, e5⟩ := delete_of o (e := e) (k := k) (take := take) i hrem (fun _ => hR)
    exact ⟨(st, val), s', X', v', by simp [call, e1], e2, e3, e4 cl, e5⟩
  | clear =>
    obtain ⟨out, s', X', v', e1, e2, e3, -, -, e4⟩ := call_ok o (e := e) (op := .clear) i hL (fun h => by cases h)
    refine ⟨out, s', X', v', e1, e2, e3, e4 cl, ?_⟩
    have hit : v'.items = [] := by cases e2; rfl
    have : X' = .nil := by
      have h := e3.items
      rw [hit, List.map_eq_nil_iff] at h
      cases X' with
      | nil => rfl
      | node => simp [T.io] at h
    rw [this]; simp [Rises, T.lv]

end

end Rcpr.RB
