import Verif.RBRep

/-! The fix-up after an insertion. -/
namespace Rcpr.RB

open Rcpr

/-! ### What the fix-up keeps and what it restores -/

/-- No red node has a red child. -/
def noRR : T → Prop
  | .nil => True
  | .node c l _ _ r => (c = true → l.col = false ∧ r.col = false) ∧ noRR l ∧ noRR r

/-- Every path from the root has `n` black nodes. -/
def Bal : Nat → T → Prop
  | n, .nil => n = 0
  | n, .node true l _ _ r => Bal n l ∧ Bal n r
  | n, .node false l _ _ r => ∃ m, n = m + 1 ∧ Bal m l ∧ Bal m r

theorem noRR_br {d : Dir} {c : Bool} {x y : T} {a v : Nat} :
    noRR (br d c x a v y) ↔ (c = true → x.col = false ∧ y.col = false) ∧ noRR x ∧ noRR y := by
  cases d
  · exact Iff.rfl
  · exact ⟨fun ⟨a, b, c⟩ => ⟨fun h => (a h).symm, c, b⟩, fun ⟨a, b, c⟩ => ⟨fun h => (a h).symm, c, b⟩⟩

theorem bal_br {d : Dir} {c : Bool} {x y : T} {a v n : Nat} :
    Bal n (br d c x a v y) ↔ ∃ m, n = (if c then m else m + 1) ∧ Bal m x ∧ Bal m y := by
  cases d <;> cases c <;> simp [br, Bal, and_comm]

theorem bal_inj : ∀ {t : T} {n m : Nat}, Bal n t → Bal m t → n = m
  | .nil, _, _, h1, h2 => by rw [h1, h2]
  | .node true l _ _ _, _, _, h1, h2 => bal_inj (t := l) h1.1 h2.1
  | .node false l _ _ _, _, _, ⟨_, e1, h1, _⟩, ⟨_, e2, h2, _⟩ => by rw [e1, e2, bal_inj (t := l) h1 h2]

/-- The number of black nodes met on the way to each place where a value could be added, in order, `d` of them
above the tree. -/
def T.lv (d : Nat) : T → List Nat
  | .nil => [d]
  | .node c l _ _ r => l.lv (if c then d else d + 1) ++ r.lv (if c then d else d + 1)

theorem lv_br {d : Dir} {c : Bool} {x y : T} {a v n : Nat} : (br d c x a v y).lv n =
    match d with
    | .l => x.lv (if c then n else n + 1) ++ y.lv (if c then n else n + 1)
    | .r => y.lv (if c then n else n + 1) ++ x.lv (if c then n else n + 1) := by cases d <;> rfl

theorem lv_plug_congr : ∀ {k : Ctx} {t t' : T}, (∀ d, t.lv d = t'.lv d) → ∀ d, (plug k t).lv d = (plug k t').lv d
  | [], _, _, h, d => h d
  | f :: k, t, t', h, d => lv_plug_congr (k := k) (fun d => by
      obtain ⟨e, c, a, v, s⟩ := f
      simp only [Frame.fill, lv_br, h]) d

theorem lv_low : ∀ {t : T} {d x : Nat}, x ∈ t.lv d → d ≤ x
  | .nil, d, x, hx => by simp [T.lv] at hx; omega
  | .node c l a v r, d, x, hx => by
    simp only [T.lv, List.mem_append] at hx
    rcases hx with hx | hx
    · have := lv_low hx; split at this <;> omega
    · have := lv_low hx; split at this <;> omega

theorem lv_some : ∀ {t : T} {d : Nat}, ∃ x, x ∈ t.lv d
  | .nil, d => ⟨d, by simp [T.lv]⟩
  | .node c l a v r, d => by
    obtain ⟨x, hx⟩ := lv_some (t := l) (d := if c then d else d + 1)
    exact ⟨x, by simp [T.lv, hx]⟩

theorem bal_lv : ∀ {t : T} {n d : Nat}, Bal n t ↔ ∀ x ∈ t.lv d, x = d + n
  | .nil, n, d => by simp only [Bal, T.lv, List.mem_singleton, forall_eq]; omega
  | .node c l a v r, n, d => by
    simp only [T.lv, List.mem_append]
    cases c with
    | true =>
      simp only [Bal, if_true]
      rw [bal_lv (t := l) (d := d), bal_lv (t := r) (d := d)]
      exact ⟨fun h x hx => hx.elim (h.1 x) (h.2 x), fun h => ⟨fun x hx => h x (.inl hx), fun x hx => h x (.inr hx)⟩⟩
    | false =>
      simp only [Bal, Bool.false_eq_true, if_false]
      constructor
      · rintro ⟨m, rfl, h1, h2⟩ x hx
        rw [bal_lv (d := d + 1)] at h1 h2
        have := hx.elim (h1 x) (h2 x)
        omega
      · intro h
        obtain ⟨x, hx⟩ := lv_some (t := l) (d := d + 1)
        have h1 := lv_low hx
        have h2 := h x (.inl hx)
        refine ⟨n - 1, by omega, (bal_lv (d := d + 1)).2 fun y hy => ?_, (bal_lv (d := d + 1)).2 fun y hy => ?_⟩
        · have := h y (.inl hy); omega
        · have := h y (.inr hy); omega

theorem lv_shift {e : Nat} : ∀ {t : T} {d : Nat}, t.lv (d + e) = (t.lv d).map (· + e)
  | .nil, _ => rfl
  | .node c l a v r, d => by
    cases c
    · simp only [T.lv, Bool.false_eq_true, if_false, List.map_append]
      rw [← lv_shift (t := l), ← lv_shift (t := r), show d + e + 1 = d + 1 + e by omega]
    · simp only [T.lv, if_true, List.map_append]
      rw [← lv_shift (t := l), ← lv_shift (t := r)]

theorem lv_plug : ∀ {k : Ctx} {b : Nat}, ∃ A m B, ∀ t, (plug k t).lv b = A ++ (t.lv m ++ B)
  | [], b => ⟨[], b, [], fun t => by simp [plug]⟩
  | f :: k, b => by
    obtain ⟨A, m, B, h⟩ := lv_plug (k := k) (b := b)
    obtain ⟨d, c, a, v, s⟩ := f
    cases d
    · exact ⟨A, if c then m else m + 1, s.lv (if c then m else m + 1) ++ B, fun t => by rw [plug, h, Frame.fill, lv_br]; simp⟩
    · exact ⟨A ++ s.lv (if c then m else m + 1), if c then m else m + 1, B, fun t => by rw [plug, h, Frame.fill, lv_br]; simp⟩

/-- Black depths do not decrease from left to right. -/
def Rises (t : T) : Prop := (t.lv 0).Pairwise (· ≤ ·)

theorem rises_lv {t : T} (d : Nat) : Rises t ↔ (t.lv d).Pairwise (· ≤ ·) := by
  have := lv_shift (t := t) (d := 0) (e := d)
  rw [Nat.zero_add] at this
  rw [this, List.pairwise_map]
  simp [Rises]

/-- The colour of the parent. -/
def Ctx.col : Ctx → Bool
  | [] => false
  | f :: _ => f.c

/-- No red node of the context has a red child outside the focus. -/
def kRR : Ctx → Prop
  | [] => True
  | f :: k => (f.c = true → f.s.col = false ∧ Ctx.col k = false) ∧ noRR f.s ∧ kRR k

/-- The root of the context is black. -/
def kBlack : Ctx → Prop
  | [] => True
  | [f] => f.c = false
  | _ :: k => kBlack k

theorem kBlack_tail {f : Frame} {k : Ctx} (h : kBlack (f :: k)) : kBlack k := by
  cases k with
  | nil => trivial
  | cons g k => exact h

theorem noRR_plug : ∀ {k : Ctx} {t : T}, noRR (plug k t) ↔ kRR k ∧ noRR t ∧ (Ctx.col k = true → t.col = false)
  | [], t => by simp [plug, kRR, Ctx.col]
  | f :: k, t => by
    rw [plug, noRR_plug, Frame.fill, noRR_br, br_col, kRR]
    constructor
    · rintro ⟨h1, ⟨h2, h3, h4⟩, h5⟩
      refine ⟨⟨fun h => ⟨(h2 h).2, ?_⟩, h4, h1⟩, h3, fun h => (h2 h).1⟩
      cases hk : Ctx.col k with
      | false => rfl
      | true => rw [h5 hk] at h; cases h
    · rintro ⟨⟨h1, h2, h3⟩, h4, h5⟩
      refine ⟨h3, ⟨fun h => ⟨h5 h, (h1 h).1⟩, h4, h2⟩, fun h => ?_⟩
      cases hc : f.c with
      | false => rfl
      | true => rw [(h1 hc).2] at h; cases h

theorem bal_plug : ∀ {k : Ctx} {t : T} {n : Nat}, Bal n (plug k t) → ∃ m, Bal m t ∧ ∀ t', Bal m t' → Bal n (plug k t')
  | [], t, n, h => ⟨n, h, fun _ h => h⟩
  | f :: k, t, n, h => by
    obtain ⟨m, h1, h2⟩ := bal_plug (k := k) h
    obtain ⟨m', e, h3, h4⟩ := bal_br.1 h1
    exact ⟨m', h3, fun t' ht => h2 _ (bal_br.2 ⟨m', e, ht, h4⟩)⟩

theorem bal_plug_congr {k : Ctx} {t t' : T} {n : Nat} (e : ∀ m, Bal m t → Bal m t') (h : Bal n (plug k t)) : Bal n (plug k t') := by
  obtain ⟨m, h1, h2⟩ := bal_plug h
  exact h2 _ (e m h1)

/-! ### Order of the elements -/

theorem br_io {d : Dir} {c : Bool} {x y : T} {a v : Nat} :
    (br d c x a v y).io = match d with | .l => x.io ++ (a, v) :: y.io | .r => y.io ++ (a, v) :: x.io := by
  cases d <;> rfl

theorem br_io_congr {d : Dir} {c c' : Bool} {x x' y y' : T} {a v : Nat} (hx : x.io = x'.io) (hy : y.io = y'.io) :
    (br d c x a v y).io = (br d c' x' a v y').io := by
  cases d <;> simp [br_io, hx, hy]

theorem plug_io_congr : ∀ {k : Ctx} {t t' : T}, t.io = t'.io → (plug k t).io = (plug k t').io
  | [], _, _, h => h
  | _ :: k, _, _, h => plug_io_congr (k := k) (br_io_congr h rfl)

theorem rotate_io {d : Dir} {c c' : Bool} {A B C : T} {x y vx vy : Nat} :
    (br d c' (br d c A x vx B) y vy C).io = (br d c A x vx (br d c' B y vy C)).io := by
  cases d <;> simp [br_io]

theorem mem_addrs_io : ∀ {t : T} {u : Nat}, u ∈ t.addrs ↔ u ∈ t.io.map Prod.fst
  | .nil, _ => Iff.rfl
  | .node c l a v r, u => by
    simp only [T.addrs, T.io, List.mem_cons, List.mem_append, mem_addrs_io (t := l), mem_addrs_io (t := r), List.map_append, List.map_cons]
    constructor
    · rintro (h | h | h) <;> simp [h]
    · rintro (h | h | h) <;> simp [h]

theorem mem_plug : ∀ {k : Ctx} {t : T} {u : Nat}, u ∈ (plug k t).addrs ↔ u ∈ t.addrs ∨ u ∈ Ctx.addrs k
  | [], _, _ => by simp [plug, Ctx.addrs]
  | f :: k, t, u => by
    rw [plug, mem_plug, Frame.fill, mem_br, Ctx.addrs]
    simp only [List.mem_cons, List.mem_append]
    constructor
    · rintro ((h | h | h) | h) <;> simp [h]
    · rintro (h | h | h | h) <;> simp [h]

/-- The heap changed only at the addresses of the tree `X`. -/
def Off (h h' : Heap) (X : T) : Prop := ∀ u, u ∉ X.io.map Prod.fst → h' u = h u

theorem Off.refl {h : Heap} {X : T} : Off h h X := fun _ _ => rfl

theorem Off.trans {h h' h'' : Heap} {X Y : T} (a : Off h h' X) (b : Off h' h'' Y) (e : Y.io = X.io) : Off h h'' X :=
  fun u hu => (b u (by rw [e]; exact hu)).trans (a u hu)

theorem Inside.off {h h' : Heap} {k : Ctx} {t : T} (i : Inside h h' k t) : Off h h' (plug k t) := by
  intro u hu
  rw [← mem_addrs_io, mem_plug, not_or] at hu
  exact i u hu.1 hu.2

theorem Only.off {h h' : Heap} {k : Ctx} {t : T} {a : Nat} (i : Only h h' [a]) (m : a ∈ t.addrs) : Off h h' (plug k t) := by
  intro u hu
  rw [← mem_addrs_io, mem_plug, not_or] at hu
  refine i u ?_
  simp only [List.mem_singleton]
  rintro rfl
  exact hu.1 m

/-! ### Steps -/

section steps
variable {N : Nat} {h : Heap} {r : Nat} {k : Ctx}

theorem paint {d : Dir} {c c' : Bool} {x y : T} {a v : Nat} (w : At N h r k (br d c x a v y)) :
    ∃ h', setRed h a c' = some h' ∧ At N h' r k (br d c' x a v y) ∧ Off h h' (plug k (br d c x a v y)) := by
  obtain ⟨h', e, w', o⟩ := setRed_at (c' := c') w
  exact ⟨h', e, w', o.off (mem_br.2 (.inl rfl))⟩

theorem paint_up {f : Frame} {c' : Bool} {t : T} (w : At N h r (f :: k) t) :
    ∃ h', setRed h f.a c' = some h' ∧ At N h' r ({ f with c := c' } :: k) t ∧ Off h h' (plug (f :: k) t) := by
  obtain ⟨h', e, w', o⟩ := paint (c' := c') (at_fill.1 w)
  exact ⟨h', e, at_fill.2 w', o⟩

theorem turn {d : Dir} {h : Heap} {t : Tree} {k : Ctx} {c c' : Bool} {A B C : T} {x y vx vy : Nat}
    (w : At t.nil h t.root k (br d c A x vx (br d c' B y vy C))) :
    ∃ h' r', rotate d h t x = some (h', { t with root := r' }) ∧
      At t.nil h' r' k (br d c' (br d c A x vx B) y vy C) ∧ Off h h' (plug k (br d c A x vx (br d c' B y vy C))) := by
  obtain ⟨h', r', e, w', o⟩ := rotate_at w
  exact ⟨h', r', e, w', o.off⟩

theorem At.sib_ne {f : Frame} {d : Dir} {c : Bool} {x y : T} {a v : Nat} (w : At N h r (f :: k) (br d c x a v y)) :
    f.s.root N ≠ a := by
  intro e
  have nd := w.nd
  rcases mem_root (N := N) (t := f.s) with hm | hm
  · exact w.nin (.inl (mem_br.2 (.inl rfl))) (e.symm.trans hm)
  · rw [e] at hm
    have := (List.nodup_append.1 (List.nodup_cons.1 nd).2).2.2 a (mem_br.2 (.inl rfl)) a (by simp [Ctx.addrs, hm])
    exact this rfl

end steps

/-- The loop body with the side as a parameter. -/
def insertFixupD (d : Dir) (h : Heap) (t : Tree) (z p g : Nat) (ng : Node) : Option (Heap × Tree × Nat) := do
  let y := ng.child d.flip
  let ny ← h y
  if ny.red then
    let h ← setRed h p false
    let h ← setRed h y false
    let h ← setRed h g true
    some (h, t, g)
  else
    let np ← h p
    let (h, t, z) ← (if z = np.child d.flip then (rotate d h t p).map fun (h, t) => (h, t, p) else some (h, t, z))
    let nz ← h z
    let h ← setRed h nz.parent false
    let np ← h nz.parent
    let h ← setRed h np.parent true
    let (h, t) ← rotate d.flip h t np.parent
    some (h, t, z)

theorem insertFixupD_l : insertFixupD .l = insertFixupLeft := rfl
theorem insertFixupD_r : insertFixupD .r = insertFixupRight := rfl

/-- Uncle red. -/
theorem fixup_red {d e : Dir} {h : Heap} {t : Tree} {k : Ctx} {Z S U1 U2 : T} {eu : Dir} {p vp g vg y vy z : Nat} {ng : Node}
    (w : At t.nil h t.root (⟨e, true, p, vp, S⟩ :: ⟨d, false, g, vg, br eu true U1 y vy U2⟩ :: k) Z)
    (hg : h g = some ng) :
    ∃ h', insertFixupD d h t z p g ng = some (h', t, g) ∧
      At t.nil h' t.root k (br d true (br e false Z p vp S) g vg (br eu false U1 y vy U2)) ∧
      Off h h' (plug (⟨e, true, p, vp, S⟩ :: ⟨d, false, g, vg, br eu true U1 y vy U2⟩ :: k) Z) := by
  have w1 := at_fill.1 w
  have hg' := w1.up
  simp only [br_root] at hg'
  rw [hg] at hg'
  obtain rfl := Option.some.inj hg'
  have hy := (at_turn.1 w1).node
  obtain ⟨h1, e1, w2, o1⟩ := paint_up (c' := false) w
  have w3 := at_turn.1 (at_fill.1 w2)
  obtain ⟨h2, e2, w4, o2⟩ := paint (c' := false) w3
  have w5 := at_turn.1 w4
  obtain ⟨h3, e3, w6, o3⟩ := paint_up (c' := true) w5
  simp only at e1 e2 e3
  refine ⟨h3, ?_, ?_, ?_⟩
  · unfold insertFixupD
    simp only [mkNode_flip, hy, Option.bind_eq_bind, Option.bind_some, mkNode_red, if_true, e1, e2]
    rw [show setRed h2 g true = some h3 from e3]
    rfl
  · have := at_fill.1 w6
    simpa [Frame.fill, Frame.turn] using this
  · refine (o1.trans o2 ?_).trans o3 ?_
    · simp only [plug]; refine plug_io_congr ?_
      rw [fill_turn]
      exact br_io_congr (br_io_congr rfl rfl) rfl
    · simp only [plug]; refine plug_io_congr ?_
      rw [show (Frame.turn _ _) = ({ d := d.flip.flip, c := false, a := g, v := vg, s := _ } : Frame) from rfl]
      simp only [Frame.fill, Dir.flip_flip, Frame.turn]
      exact br_io_congr (br_io_congr rfl rfl) (br_io_congr rfl rfl)

/-- Uncle black, the focus on the outer side. -/
theorem fixup_outer {d : Dir} {h : Heap} {t : Tree} {k : Ctx} {S U L R : T} {p vp g vg z vz : Nat}
    (w : At t.nil h t.root (⟨d, false, g, vg, U⟩ :: k) (br d true (br d true L z vz R) p vp S)) :
    ∃ h' r', (do
        let nz ← h z
        let h ← setRed h nz.parent false
        let np ← h nz.parent
        let h ← setRed h np.parent true
        let (h, t) ← rotate d.flip h t np.parent
        some (h, t, z)) = some (h', { t with root := r' }, z) ∧
      At t.nil h' r' k (br d false (br d true L z vz R) p vp (br d true S g vg U)) ∧
      Off h h' (plug (⟨d, false, g, vg, U⟩ :: k) (br d true (br d true L z vz R) p vp S)) := by
  have w0 : At t.nil h t.root (⟨d, true, p, vp, S⟩ :: ⟨d, false, g, vg, U⟩ :: k) (br d true L z vz R) := at_fill.2 w
  have hz := w0.node
  obtain ⟨h1, e1, w1, o1⟩ := paint (c' := false) w
  have hp := w1.node
  obtain ⟨h2, e2, w2, o2⟩ := paint_up (c' := true) w1
  have w3 : At t.nil h2 t.root k (br d.flip true U g vg (br d.flip false S p vp (br d true L z vz R))) := by
    have := at_fill.1 w2
    simpa only [Frame.fill, br_flip] using this
  obtain ⟨h3, r', e3, w4, o3⟩ := turn w3
  refine ⟨h3, r', ?_, ?_, ?_⟩
  · simp only [hz, Option.bind_eq_bind, Option.bind_some, mkNode_parent, Ctx.parent, e1, hp, show setRed h1 g true = some h2 from e2, e3]
  · simpa only [br_flip] using w4
  · refine (o1.trans o2 ?_).trans o3 ?_
    · simp only [plug]; exact plug_io_congr (br_io_congr (br_io_congr rfl rfl) rfl)
    · simp only [plug]
      refine plug_io_congr ?_
      simp only [br_flip, Frame.fill]
      exact br_io_congr (br_io_congr rfl rfl) rfl

/-- Uncle black: the tree below the grandparent is rearranged and the loop ends. -/
theorem fixup_black {d e d' : Dir} {h : Heap} {t : Tree} {k : Ctx} {L R S U : T} {p vp g vg z vz : Nat} {ng nu : Node}
    (w : At t.nil h t.root (⟨e, true, p, vp, S⟩ :: ⟨d, false, g, vg, U⟩ :: k) (br d' true L z vz R))
    (hg : h g = some ng) (hu : h (U.root t.nil) = some nu) (hr : nu.red = false)
    (rL : noRR L) (rR : noRR R) (rS : noRR S) (rU : noRR U)
    (cL : L.col = false) (cR : R.col = false) (cS : S.col = false) (cU : U.col = false) :
    ∃ h' r' z' X, insertFixupD d h t z p g ng = some (h', { t with root := r' }, z') ∧
      At t.nil h' r' k X ∧ X.io = (br d false (br e true (br d' true L z vz R) p vp S) g vg U).io ∧
      Off h h' (plug (⟨e, true, p, vp, S⟩ :: ⟨d, false, g, vg, U⟩ :: k) (br d' true L z vz R)) ∧
      (∃ nz np, h' z' = some nz ∧ h' nz.parent = some np ∧ np.red = false) ∧
      noRR X ∧ X.col = false ∧
      (∀ m, X.lv m = (br d false (br e true (br d' true L z vz R) p vp S) g vg U).lv m) ∧
      (e = d → X = br d false (br d' true L z vz R) p vp (br d true S g vg U)) := by
  have w1 := at_fill.1 w
  have hg' := w1.up
  simp only [Frame.fill, br_root] at hg'
  rw [hg] at hg'
  obtain rfl := Option.some.inj hg'
  have hp := w.up
  simp only [br_root] at hp
  by_cases hde : e = d
  · subst hde
    have hne : z ≠ S.root t.nil := fun h => w.sib_ne h.symm
    -- bring the focus into the direction of the side
    obtain ⟨L', R', hbr, rL', rR', cL', cR', hio, hbal⟩ : ∃ L' R', br d' true L z vz R = br e true L' z vz R' ∧ noRR L' ∧ noRR R' ∧
        L'.col = false ∧ R'.col = false ∧ True ∧ True := by
      by_cases h : d' = e
      · subst h; exact ⟨L, R, rfl, rL, rR, cL, cR, trivial, trivial⟩
      · have := Dir.ne_iff.1 h; subst this
        exact ⟨R, L, br_flip, rR, rL, cR, cL, trivial, trivial⟩
    rw [hbr] at w1 ⊢
    obtain ⟨h', r', e1, w', o⟩ := fixup_outer w1
    refine ⟨h', r', z, _, ?_, w', ?_, o, ?_, ?_, br_col, ?_, fun _ => rfl⟩
    · unfold insertFixupD
      simp only [mkNode_flip, hu, Option.bind_eq_bind, Option.bind_some, hr, Bool.false_eq_true, if_false, hp, if_neg hne]
      simpa only [Option.bind_eq_bind] using e1
    · rw [← br_flip, ← br_flip (x := U), rotate_io, br_flip, br_flip]
      exact br_io_congr (br_io_congr rfl rfl) rfl
    · have w2 : At t.nil h' r' (⟨e, false, p, vp, br e true S g vg U⟩ :: k) (br e true L' z vz R') := at_fill.2 w'
      exact ⟨_, _, w2.node, (by rw [mkNode_parent]; exact w2.up), mkNode_red⟩
    · simp [noRR_br, rL', rR', cL', cR', rS, rU, cS, cU]
    · intro m
      cases e <;> simp [lv_br]
  · have := Dir.ne_iff.1 hde
    subst this
    obtain ⟨L', R', hbr, rL', rR', cL', cR'⟩ : ∃ L' R', br d' true L z vz R = br d true L' z vz R' ∧ noRR L' ∧ noRR R' ∧
        L'.col = false ∧ R'.col = false := by
      by_cases h : d' = d
      · subst h; exact ⟨L, R, rfl, rL, rR, cL, cR⟩
      · have := Dir.ne_iff.1 h; subst this
        exact ⟨R, L, br_flip, rR, rL, cR, cL⟩
    rw [hbr] at w w1 ⊢
    have w2 : At t.nil h t.root (⟨d, false, g, vg, U⟩ :: k) (br d true S p vp (br d true L' z vz R')) := by
      have := w1
      simpa only [Frame.fill, br_flip] using this
    obtain ⟨h1, r1, e1, w3, o1⟩ := turn w2
    obtain ⟨h', r', e2, w', o⟩ := fixup_outer (t := { t with root := r1 }) w3
    refine ⟨h', r', p, _, ?_, w', ?_, ?_, ?_, ?_, br_col, ?_, fun h => absurd h hde⟩
    · unfold insertFixupD
      simp only [mkNode_flip, hu, Option.bind_eq_bind, Option.bind_some, hr, Bool.false_eq_true, if_false, hp, mkNode_child, if_true,
        e1, Option.map_some]
      simpa only [Option.bind_eq_bind] using e2
    · rw [← br_flip, ← br_flip (x := U), rotate_io, br_flip, br_flip]
      refine br_io_congr ?_ rfl
      refine (br_io_congr (c' := true) rfl rfl).trans ?_
      rw [rotate_io, br_flip]
    · have i1 : (plug (⟨d, false, g, vg, U⟩ :: k) (br d true (br d true S p vp L') z vz R')).io =
          (plug (⟨d, false, g, vg, U⟩ :: k) (br d true S p vp (br d true L' z vz R'))).io := plug_io_congr rotate_io
      have i2 : plug (⟨d.flip, true, p, vp, S⟩ :: ⟨d, false, g, vg, U⟩ :: k) (br d true L' z vz R') =
          plug (⟨d, false, g, vg, U⟩ :: k) (br d true S p vp (br d true L' z vz R')) := by
        simp only [plug, Frame.fill, br_flip]
      rw [i2]
      exact o1.trans o i1
    · have w2 : At t.nil h' r' (⟨d, false, z, vz, br d true R' g vg U⟩ :: k) (br d true S p vp L') := at_fill.2 w'
      exact ⟨_, _, w2.node, (by rw [mkNode_parent]; exact w2.up), mkNode_red⟩
    · simp [noRR_br, rL', rR', cL', cR', rS, rU, cS, cU]
    · intro m
      cases d <;> simp [lv_br, Dir.flip]

theorem Off.nil {N : Nat} {h h' : Heap} {r : Nat} {k : Ctx} {X : T} (w : At N h r k X) (o : Off h h' (plug k X)) : h' N = h N := by
  refine o N ?_
  rw [← mem_addrs_io, mem_plug]
  intro h
  exact w.nin h rfl

theorem parent_cons {N : Nat} {f : Frame} {k : Ctx} : Ctx.parent N (f :: k) = f.a := rfl
theorem parent_nil {N : Nat} : Ctx.parent N [] = N := rfl

/-! ### Trees grown at the right end

When every element is placed at the right end, the subtrees that hang to the left of the right edge have a known shape: all their nodes are black, save
perhaps the topmost.  Deletion at the right end relies on this (`Verif/RBStack.lean`). -/

/-- All nodes are black, and there is no right child without a left one. -/
def T.solid : T → Prop
  | .nil => True
  | .node c l _ _ r => c = false ∧ l.solid ∧ r.solid ∧ (l = .nil → r = .nil)

/-- All nodes below the topmost are black, and there is no right child without a left one. -/
def T.side : T → Prop
  | .nil => True
  | .node _ l _ _ r => l.solid ∧ r.solid ∧ (l = .nil → r = .nil)

/-- Nothing, or a red leaf. -/
def T.thin : T → Prop
  | .nil => True
  | .node c l _ _ r => c = true ∧ l = .nil ∧ r = .nil

/-- What hangs to the left of the right edge is `side`. -/
def T.stacked : T → Prop
  | .nil => True
  | .node _ l _ _ r => l.side ∧ r.stacked ∧ (l = .nil → r.thin)

theorem T.side.solid : ∀ {t : T}, t.side → t.col = false → t.solid
  | .nil, _, _ => trivial
  | .node _ _ _ _ _, h, e => ⟨e, h⟩

theorem T.solid.side : ∀ {t : T}, t.solid → t.side
  | .nil, _ => trivial
  | .node _ _ _ _ _, h => h.2

theorem T.solid.col : ∀ {t : T}, t.solid → t.col = false
  | .nil, _ => rfl
  | .node _ _ _ _ _, h => h.1

theorem T.solid.stacked : ∀ {t : T}, t.solid → t.stacked
  | .nil, _ => trivial
  | .node _ _ _ _ _, h => ⟨h.2.1.side, h.2.2.1.stacked, fun e => by rw [h.2.2.2 e]; trivial⟩

theorem T.side.stacked : ∀ {t : T}, t.side → t.stacked
  | .nil, _ => trivial
  | .node _ _ _ _ _, h => ⟨h.1.side, h.2.1.stacked, fun e => by rw [h.2.2 e]; trivial⟩

/-- The focus is on the right edge, and each of the nodes above has something to its left. -/
def Deep (k : Ctx) : Prop := ∀ f ∈ k, f.d = .r ∧ f.s.side ∧ f.s ≠ .nil

/-- As `Deep`, but the two nodes next above the focus may have nothing to their left. -/
def Ready : Ctx → T → Prop
  | [], _ => True
  | [f], t => f.d = .r ∧ f.s.side ∧ (f.s = .nil → t.thin)
  | f :: g :: k, t => (f.d = .r ∧ f.s.side ∧ (f.s = .nil → t.thin)) ∧ (g.d = .r ∧ g.s.side ∧ (g.s = .nil → f.s = .nil ∧ f.c = true)) ∧ Deep k

theorem Deep.ready : ∀ {k : Ctx} {t : T}, Deep k → Ready k t
  | [], _, _ => trivial
  | [f], _, h => by
    obtain ⟨h1, h2, h3⟩ := h f (by simp)
    exact ⟨h1, h2, fun e => absurd e h3⟩
  | f :: g :: k, _, h => by
    obtain ⟨h1, h2, h3⟩ := h f (by simp)
    obtain ⟨i1, i2, i3⟩ := h g (by simp)
    exact ⟨⟨h1, h2, fun e => absurd e h3⟩, ⟨i1, i2, fun e => absurd e i3⟩, fun x hx => h x (by simp [hx])⟩

theorem Deep.stacked : ∀ {k : Ctx} {t : T}, Deep k → t.stacked → (plug k t).stacked
  | [], _, _, ht => ht
  | ⟨d, c, a, v, s⟩ :: k, t, h, ht => by
    obtain ⟨rfl, h2, h3⟩ := h ⟨d, c, a, v, s⟩ (by simp)
    exact Deep.stacked (k := k) (fun x hx => h x (by simp [hx])) ⟨h2, ht, fun e => absurd e h3⟩

/-- The parent is black, so the tree is as it should be. -/
theorem Ready.stacked : ∀ {k : Ctx} {t : T}, Ready k t → Ctx.col k = false → t.stacked → (plug k t).stacked
  | [], _, _, _, ht => ht
  | [⟨d, c, a, v, s⟩], t, h, _, ht => by
    obtain ⟨rfl, h2, h3⟩ := h
    exact ⟨h2, ht, h3⟩
  | ⟨d, c, a, v, s⟩ :: ⟨d', c', a', v', s'⟩ :: k, t, h, hc, ht => by
    obtain ⟨⟨rfl, h2, h3⟩, ⟨rfl, i2, i3⟩, hk⟩ := h
    obtain rfl : c = false := hc
    exact hk.stacked (t := .node c' s' a' v' (.node false s a v t)) ⟨i2, ⟨h2, ht, h3⟩, fun e => by cases (i3 e).2⟩

/-- The loop: the elements keep their order, no red node has a red child, and the black depths are as before. -/
theorem fixup_loop : ∀ (n : Nat) {k : Ctx} {d : Dir} {h : Heap} {t : Tree} {L R : T} {z vz : Nat} {nn : Node},
    k.length < n → At t.nil h t.root k (br d true L z vz R) → h t.nil = some nn → nn.red = false →
    noRR L → noRR R → L.col = false → R.col = false → kRR k → kBlack k →
    ∃ h' r' X, insertFixupLoop n h t z = some (h', { t with root := r' }) ∧ At t.nil h' r' [] X ∧
      X.io = (plug k (br d true L z vz R)).io ∧ Off h h' X ∧ noRR X ∧
      (∀ b, X.lv b = (plug k (br d true L z vz R)).lv b) ∧
      (Ready k (br d true L z vz R) → (br d true L z vz R).stacked → X.stacked)
  | 0, _, _, _, _, _, _, _, _, _, hl, _, _, _, _, _, _, _, _, _ => absurd hl (Nat.not_lt_zero _)
  | n + 1, k, d, h, t, L, R, z, vz, nn, hl, w, hn, hc, rL, rR, cL, cR, kr, kb => by
    have hz := w.node
    rw [insertFixupLoop, hz]
    simp only [Option.bind_eq_bind, Option.bind_some, mkNode_parent]
    have stop : Ctx.col k = false → noRR (plug k (br d true L z vz R)) := fun h =>
      noRR_plug.2 ⟨kr, noRR_br.2 ⟨fun _ => ⟨cL, cR⟩, rL, rR⟩, fun h' => by rw [h] at h'; cases h'⟩
    have whole : At t.nil h t.root [] (plug k (br d true L z vz R)) := at_plug.1 (by rw [List.append_nil]; exact w)
    match k with
    | [] =>
      simp only [parent_nil, hn, Option.bind_some, hc, Bool.false_eq_true, if_false]
      exact ⟨h, t.root, _, rfl, whole, rfl, Off.refl, stop rfl, fun _ => rfl, fun _ h => h⟩
    | f :: k =>
      have hp := w.up
      simp only [parent_cons, hp, Option.bind_some, mkNode_red]
      cases hfc : f.c with
      | false =>
        simp only [Bool.false_eq_true, if_false]
        exact ⟨h, t.root, _, rfl, whole, rfl, Off.refl, stop hfc, fun _ => rfl, fun h h' => h.stacked hfc h'⟩
      | true =>
        simp only [if_true, mkNode_parent]
        obtain ⟨e, c, p, vp, S⟩ := f
        simp only at hfc
        subst hfc
        match k with
        | [] => cases kb
        | ⟨dg, cg, g, vg, U⟩ :: k =>
          obtain ⟨k1, k2, k3, k4, k5⟩ := kr
          obtain ⟨cS, hcg⟩ := k1 rfl
          simp only [Ctx.col] at hcg
          subst hcg
          have w1 := at_fill.1 w
          have hg := w1.up
          simp only [Frame.fill, br_root] at hg
          have hside : (if p = (mkNode dg (Ctx.parent t.nil k) p (U.root t.nil) false vg).left
              then insertFixupLeft h t z p g (mkNode dg (Ctx.parent t.nil k) p (U.root t.nil) false vg)
              else insertFixupRight h t z p g (mkNode dg (Ctx.parent t.nil k) p (U.root t.nil) false vg)) =
              insertFixupD dg h t z p g (mkNode dg (Ctx.parent t.nil k) p (U.root t.nil) false vg) := by
            cases dg
            · exact if_pos rfl
            · exact if_neg fun h => (w1.sib_ne (f := ⟨.r, false, g, vg, U⟩) h.symm).elim
          simp only [parent_cons, hg, Option.bind_some, hside]
          cases hU : U.col with
          | true =>
            obtain ⟨U1, y, vy, U2, rfl⟩ : ∃ U1 y vy U2, U = br .l true U1 y vy U2 := by
              cases U with
              | nil => cases hU
              | node c l a v r => simp only [T.col] at hU; subst hU; exact ⟨l, a, v, r, rfl⟩
            obtain ⟨h1, e1, w2, o1⟩ := fixup_red (z := z) w hg
            rw [e1, Option.bind_some]
            have rU := noRR_br.1 (show noRR (br .l true U1 y vy U2) from k4)
            obtain ⟨h', r', X, e2, w', i2, o2, r2, b2, y2⟩ := fixup_loop n (k := k) (by simp only [List.length_cons] at hl; omega) w2
              (by rw [o1.nil w]; exact hn) hc
              (noRR_br.2 ⟨(by intro h; cases h), noRR_br.2 ⟨fun _ => ⟨cL, cR⟩, rL, rR⟩, k2⟩)
              (noRR_br.2 ⟨(by intro h; cases h), rU.2.1, rU.2.2⟩) br_col br_col k5 (kBlack_tail (kBlack_tail kb))
            have i3 : X.io = (plug (⟨e, true, p, vp, S⟩ :: ⟨dg, false, g, vg, br .l true U1 y vy U2⟩ :: k) (br d true L z vz R)).io := by
              rw [i2]; simp only [plug]
              exact plug_io_congr (br_io_congr (br_io_congr rfl rfl) (br_io_congr rfl rfl))
            refine ⟨h', r', X, e2, w', i3, fun u hu => ?_, r2, fun b => (b2 b).trans ?_, fun q1 q2 => ?_⟩
            · rw [o2 u hu]; exact o1 u (by rw [← i3]; exact hu)
            · simp only [plug]
              refine lv_plug_congr (fun m => ?_) b
              cases dg <;> cases e <;> simp [lv_br, Frame.fill]
            · obtain ⟨⟨rfl, p2, p3⟩, ⟨rfl, p5, -⟩, p7⟩ := q1
              exact y2 p7.ready ⟨p5, ⟨p2, q2, p3⟩, fun h => by cases h⟩
          | false =>
            obtain ⟨nu, hu, hur⟩ : ∃ nu, h (U.root t.nil) = some nu ∧ nu.red = false := by
              cases U with
              | nil => exact ⟨nn, hn, hc⟩
              | node c l a v r =>
                simp only [T.col] at hU
                exact ⟨_, (at_turn.1 w1).sub.1, hU⟩
            obtain ⟨h', r', z', X, e1, w', i1, o1, ⟨nz, np, hz', hp', hb'⟩, rX, cX, bX, yX⟩ :=
              fixup_black w hg hu hur rL rR k2 k4 cL cR cS hU
            rw [e1, Option.bind_some]
            have : ∃ m, n = m + 1 := ⟨n - 1, by simp only [List.length_cons] at hl; omega⟩
            obtain ⟨m, rfl⟩ := this
            have i3 : (plug k X).io = (plug (⟨e, true, p, vp, S⟩ :: ⟨dg, false, g, vg, U⟩ :: k) (br d true L z vz R)).io := by
              simp only [plug]; exact plug_io_congr i1
            refine ⟨h', r', plug k X, ?_, at_plug.1 (by rw [List.append_nil]; exact w'), i3, fun u hu => o1 u (by rw [← i3]; exact hu),
              noRR_plug.2 ⟨k5, rX, fun _ => cX⟩, fun b => ?_, fun q1 q2 => ?_⟩
            · show insertFixupLoop (m + 1) h' { t with root := r' } z' = _
              rw [insertFixupLoop, hz']
              simp [hp', hb']
            · simp only [plug]
              exact lv_plug_congr bX b
            · obtain ⟨⟨rfl, p2, p3⟩, ⟨rfl, p5, p6⟩, p7⟩ := q1
              rw [yX rfl]
              exact p7.stacked (t := .node false (.node true U g vg S) p vp (br d true L z vz R))
                ⟨⟨p5.solid hU, p2.solid cS, fun h => (p6 h).1⟩, q2, fun h => by cases h⟩

end Rcpr.RB
