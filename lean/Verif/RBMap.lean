import Verif.RBInsert

/-! Descent, insertion and lookup on the heap, related to trees and sorted lists. -/
namespace Rcpr.RB

open Rcpr

/-! ### Position of the focus -/

def Ctx.pre : Ctx → List (Nat × Nat)
  | [] => []
  | f :: k => Ctx.pre k ++ match f.d with | .l => [] | .r => f.s.io ++ [(f.a, f.v)]

def Ctx.post : Ctx → List (Nat × Nat)
  | [] => []
  | f :: k => (match f.d with | .l => (f.a, f.v) :: f.s.io | .r => []) ++ Ctx.post k

theorem plug_io : ∀ {k : Ctx} {t : T}, (plug k t).io = Ctx.pre k ++ (t.io ++ Ctx.post k)
  | [], t => by simp [plug, Ctx.pre, Ctx.post]
  | ⟨d, c, a, v, s⟩ :: k, t => by
    rw [plug, plug_io, Frame.fill, br_io]
    cases d <;> simp [Ctx.pre, Ctx.post]

theorem At.frame {N : Nat} {h h' : Heap} {r : Nat} {k : Ctx} {t : T} (w : At N h r k t)
    (e : ∀ a, a ∈ t.addrs ∨ a ∈ Ctx.addrs k → h' a = h a) : At N h' r k t :=
  ⟨w.ctx.frame fun a ha => e a (.inr ha), w.sub.frame fun a ha => e a (.inl ha), w.root, w.nd⟩

theorem plug_append : ∀ {k k2 : Ctx} {t : T}, plug (k ++ k2) t = plug k2 (plug k t)
  | [], _, _ => rfl
  | _ :: k, _, _ => plug_append (k := k)

/-! ### Insertion -/

section
variable {K : Type} (o : Order K)

/-- The context is the one a descent with key `k` takes. -/
def Path (k : K) (c : Ctx) : Prop := ∀ f ∈ c, f.d = if o.cmp k (o.key f.v) = .lt then .l else .r

theorem descend {N : Nat} {h : Heap} {r : Nat} {key : K} : ∀ {t : T} {n : Nat} {k : Ctx}, t.size < n → At N h r k t →
    ∃ k2, insertDescend o h N key n (t.root N) (Ctx.parent N k) = some (Ctx.parent N (k2 ++ k)) ∧
      plug (k2 ++ k) .nil = plug k t ∧ Path o key k2 ∧ k2.length ≤ t.size
  | .nil, n + 1, k, _, _ => ⟨[], by simp [insertDescend, T.root], rfl, by simp [Path], Nat.le_refl _⟩
  | .node c l a v r', n + 1, k, hs, w => by
    have hne : a ≠ N := w.nin (.inl (by simp [T.addrs]))
    simp only [T.size] at hs
    simp only [insertDescend, T.root, hne, if_false, w.sub.1, Option.bind_eq_bind, Option.bind_some]
    by_cases hc : o.cmp key (o.key v) = .lt
    · rw [if_pos hc]
      have w' : At N h r (⟨.l, c, a, v, r'⟩ :: k) l := at_fill.2 w
      obtain ⟨k2, e1, e2, e3, e4⟩ := descend (n := n) (by omega) w'
      refine ⟨k2 ++ [⟨.l, c, a, v, r'⟩], by rw [List.append_assoc]; exact e1, by rw [List.append_assoc]; exact e2, ?_, ?_⟩
      · intro f hf
        rcases List.mem_append.1 hf with hf | hf
        · exact e3 f hf
        · simp only [List.mem_singleton] at hf; subst hf; simp [hc]
      · simp [T.size]; omega
    · rw [if_neg hc]
      have w' : At N h r (⟨.r, c, a, v, l⟩ :: k) r' := at_fill.2 w
      obtain ⟨k2, e1, e2, e3, e4⟩ := descend (n := n) (by omega) w'
      refine ⟨k2 ++ [⟨.r, c, a, v, l⟩], by rw [List.append_assoc]; exact e1, by rw [List.append_assoc]; exact e2, ?_, ?_⟩
      · intro f hf
        rcases List.mem_append.1 hf with hf | hf
        · exact e3 f hf
        · simp only [List.mem_singleton] at hf; subst hf; simp [hc]
      · simp [T.size]; omega

/-- The part of `insertNode` that links the new node. -/
def link (h : Heap) (t : Tree) (z y : Nat) (k : K) : Option (Heap × Tree) := do
  let h ← setParent h z y
  let (h, t) ←
    (if y = t.nil then some (h, { t with root := z })
     else do
       let ny ← h y
       if o.cmp k (o.key ny.value) = .lt then some (← setLeft h y z, t)
       else some (← setRight h y z, t))
  let h ← setLeft h z t.nil
  let h ← setRight h z t.nil
  let h ← setRed h z true
  some (h, t)

theorem insertNode_eq {fuel : Nat} {h : Heap} {t : Tree} {z : Nat} : insertNode o fuel h t z =
    (h z).bind fun nz => (insertDescend o h t.nil (o.key nz.value) fuel t.root t.nil).bind fun y =>
    (link o h t z y (o.key nz.value)).bind fun (h, t) => (insertFixup fuel h t z).bind fun (h, t) =>
    (resetNil h t).bind fun h => some (h, { t with count := t.count + 1 }) := by
  simp only [insertNode, link, Option.bind_eq_bind, Option.bind_assoc]
  rfl

theorem finish {h : Heap} {z p v n : Nat} {x y : Nat} {c : Bool} (hz : h z = some ⟨p, x, y, c, v⟩) :
    ((setLeft h z n).bind fun h => (setRight h z n).bind fun h => setRed h z true) = some (put h z ⟨p, n, n, true, v⟩) := by
  simp only [setLeft, setRight, setRed, hz, Option.map_some, Option.bind_some, put_same]
  congr 1
  funext u
  simp only [put]
  split <;> rfl

theorem link_at {h : Heap} {t : Tree} {k : Ctx} {z v p x y : Nat} {c : Bool} {key : K} (w : At t.nil h t.root k .nil)
    (hz : h z = some ⟨p, x, y, c, v⟩) (hzN : z ≠ t.nil) (hzk : z ∉ Ctx.addrs k) (hp : Path o key k) :
    ∃ h' r', link o h t z (Ctx.parent t.nil k) key = some (h', { t with root := r' }) ∧
      At t.nil h' r' k (.node true .nil z v .nil) ∧ (∀ u, u ≠ z → u ∉ Ctx.addrs k → h' u = h u) := by
  have nd : (t.nil :: ((T.node true .nil z v .nil).addrs ++ Ctx.addrs k)).Nodup := by
    have := w.nd
    simp only [T.addrs, List.nodup_cons, List.nil_append, List.cons_append, List.append_nil, List.mem_cons, not_or] at this ⊢
    exact ⟨⟨hzN.symm, this.1⟩, hzk, this.2⟩
  have hsp : ∀ q, setParent h z q = some (put h z ⟨q, x, y, c, v⟩) := fun q => by simp [setParent, hz]
  cases k with
  | nil =>
    refine ⟨put (put h z ⟨t.nil, x, y, c, v⟩) z ⟨t.nil, t.nil, t.nil, true, v⟩, z, ?_, ?_, ?_⟩
    · simp only [link, parent_nil, hsp, Option.bind_eq_bind, Option.bind_some, if_true]
      have := finish (n := t.nil) (put_same (h := h) (a := z) (n := ⟨t.nil, x, y, c, v⟩))
      simp only [← Option.bind_assoc] at this ⊢
      rw [this]; rfl
    · exact ⟨trivial, ⟨put_same, trivial, trivial⟩, rfl, nd⟩
    · intro u h1 _; rw [put_ne h1, put_ne h1]
  | cons f k =>
    have hf : f.a ≠ t.nil := w.nin (.inr (by simp [Ctx.addrs]))
    have hfz : f.a ≠ z := fun e => hzk (by simp [Ctx.addrs, e])
    have hup := w.up
    have h1 : put h z ⟨f.a, x, y, c, v⟩ f.a = some (mkNode f.d (Ctx.parent t.nil k) (T.nil.root t.nil) (f.s.root t.nil) f.c f.v) := by
      rw [put_ne hfz, hup]
    have hd := hp f (by simp)
    have hset : (if o.cmp key (o.key f.v) = .lt then (setLeft (put h z ⟨f.a, x, y, c, v⟩) f.a z).map fun h => (h, t)
        else (setRight (put h z ⟨f.a, x, y, c, v⟩) f.a z).map fun h => (h, t)) =
        some (put (put h z ⟨f.a, x, y, c, v⟩) f.a (mkNode f.d (Ctx.parent t.nil k) z (f.s.root t.nil) f.c f.v), t) := by
      by_cases hc : o.cmp key (o.key f.v) = .lt
      · rw [if_pos hc] at hd ⊢
        rw [hd] at h1 ⊢
        rw [show setLeft = setChild .l from rfl, setChild_eq h1]; rfl
      · rw [if_neg hc] at hd ⊢
        rw [hd] at h1 ⊢
        rw [show setRight = setChild .r from rfl, setChild_eq h1]; rfl
    have hz2 : put (put h z ⟨f.a, x, y, c, v⟩) f.a (mkNode f.d (Ctx.parent t.nil k) z (f.s.root t.nil) f.c f.v) z =
        some ⟨f.a, x, y, c, v⟩ := by rw [put_ne hfz.symm, put_same]
    have hnd := (List.nodup_cons.1 (List.nodup_cons.1 w.nd).2).1
    refine ⟨put (put (put h z ⟨f.a, x, y, c, v⟩) f.a (mkNode f.d (Ctx.parent t.nil k) z (f.s.root t.nil) f.c f.v)) z
        ⟨f.a, t.nil, t.nil, true, v⟩, t.root, ?_, ⟨⟨?_, ?_, ?_⟩, ⟨put_same, trivial, trivial⟩, ?_, nd⟩, ?_⟩
    · simp only [link, parent_cons, hsp, Option.bind_eq_bind, Option.bind_some, hf, if_false, h1, mkNode_value]
      have e2 : (if o.cmp key (o.key f.v) = .lt then (setLeft (put h z ⟨f.a, x, y, c, v⟩) f.a z).bind fun h => some (h, t)
        else (setRight (put h z ⟨f.a, x, y, c, v⟩) f.a z).bind fun h => some (h, t)) =
        some (put (put h z ⟨f.a, x, y, c, v⟩) f.a (mkNode f.d (Ctx.parent t.nil k) z (f.s.root t.nil) f.c f.v), t) := by
        rw [← hset]; split <;> rw [Option.map_eq_bind] <;> rfl
      rw [e2, Option.bind_some]
      have := finish (n := t.nil) hz2
      simp only [← Option.bind_assoc] at this ⊢
      rw [this]; rfl
    · rw [put_ne hfz, put_same]; rfl
    · refine w.ctx.2.1.frame fun u hu => ?_
      have : u ≠ z := fun e => hzk (by simp [Ctx.addrs, ← e, hu])
      have h2 : u ≠ f.a := fun e => hnd (by simp [← e, hu])
      rw [put_ne this, put_ne h2, put_ne this]
    · refine w.ctx.2.2.frame fun u hu => ?_
      have : u ≠ z := fun e => hzk (by simp [Ctx.addrs, ← e, hu])
      have h2 : u ≠ f.a := fun e => hnd (by simp [← e, hu])
      rw [put_ne this, put_ne h2, put_ne this]
    · rw [w.root]; rfl
    · intro u h1 h2
      have : u ≠ f.a := fun e => h2 (by simp [Ctx.addrs, e])
      rw [put_ne h1, put_ne this, put_ne h1]

end

/-- The cell of the sentinel between operations. -/
def nilNode (N v : Nat) : Node := ⟨N, N, N, false, v⟩

/-- The heap holds the tree `X`: its nodes, the sentinel, and the count. -/
structure Holds (h : Heap) (t : Tree) (X : T) : Prop where
  here : At t.nil h t.root [] X
  nil : ∃ n, h t.nil = some n ∧ n.red = false
  count : t.count = X.size

/-- What every operation relies on: no red node has a red child, the root is black. -/
structure Fit (X : T) : Prop where
  rr : noRR X
  black : X.col = false

theorem io_length : ∀ {t : T}, t.io.length = t.size
  | .nil => rfl
  | .node _ l _ _ r => by simp [T.io, T.size, io_length (t := l), io_length (t := r)]; omega

theorem kBlack_plug : ∀ {k : Ctx} {t : T}, (plug k t).col = false → kBlack k
  | [], _, _ => trivial
  | [f], t, h => by rw [plug, plug, Frame.fill, br_col] at h; exact h
  | _ :: g :: k, t, h => kBlack_plug (k := g :: k) h

theorem resetNil_holds {h : Heap} {t : Tree} {X : T} {n : Node} (w : At t.nil h t.root [] X) (hn : h t.nil = some n) :
    resetNil h t = some (put h t.nil (nilNode t.nil n.value)) ∧ At t.nil (put h t.nil (nilNode t.nil n.value)) t.root [] X := by
  refine ⟨by simp [resetNil, hn, nilNode], w.frame fun a ha => put_ne (w.nin ha)⟩

/-- What the shape of the whole tree says about the nodes above a place on the right edge. -/
def Ctx.stacked : Ctx → T → Prop
  | [], _ => True
  | f :: k, t => f.s.side ∧ (f.s = .nil → t.thin) ∧ Ctx.stacked k (.node f.c f.s f.a f.v t)

theorem stacked_plug : ∀ {k : Ctx} {t : T}, (∀ f ∈ k, f.d = .r) → ((plug k t).stacked ↔ Ctx.stacked k t ∧ t.stacked)
  | [], _, _ => by simp [plug, Ctx.stacked]
  | ⟨d, c, a, v, s⟩ :: k, t, h => by
    obtain rfl : d = .r := h ⟨d, c, a, v, s⟩ (by simp)
    rw [plug, stacked_plug fun f hf => h f (by simp [hf])]
    show Ctx.stacked k (.node c s a v t) ∧ s.side ∧ t.stacked ∧ (s = .nil → t.thin) ↔ _
    simp only [Ctx.stacked]
    exact ⟨fun ⟨h1, h2, h3, h4⟩ => ⟨⟨h2, h4, h1⟩, h3⟩, fun ⟨⟨h2, h4, h1⟩, h3⟩ => ⟨h1, h2, h3, h4⟩⟩

/-- Above something that is not thin every node has something to its left. -/
theorem deep_of : ∀ {k : Ctx} {t : T}, (∀ f ∈ k, f.d = .r) → Ctx.stacked k t → ¬ t.thin → Deep k
  | [], _, _, _, _ => fun _ h => by cases h
  | f :: k, t, hk, hs, ht => by
    obtain ⟨h1, h2, h3⟩ := hs
    have hd := deep_of (k := k) (fun g hg => hk g (by simp [hg])) h3 fun h => ht (by rw [h.2.2]; trivial)
    intro g hg
    rcases List.mem_cons.1 hg with rfl | hg
    · exact ⟨hk g (by simp), h1, fun e => ht (h2 e)⟩
    · exact hd g hg

theorem ready_leaf {z v : Nat} : ∀ {k : Ctx}, (∀ f ∈ k, f.d = .r) → (plug k .nil).stacked → Ready k (br .l true .nil z v .nil)
  | [], _, _ => trivial
  | [f], hk, hs => by
    obtain ⟨⟨h1, h2, -⟩, -⟩ := (stacked_plug hk).1 hs
    exact ⟨hk f (by simp), h1, fun _ => ⟨rfl, rfl, rfl⟩⟩
  | f :: g :: k, hk, hs => by
    obtain ⟨⟨h1, h2, i1, i2, i3⟩, -⟩ := (stacked_plug hk).1 hs
    refine ⟨⟨hk f (by simp), h1, fun _ => ⟨rfl, rfl, rfl⟩⟩, ⟨hk g (by simp), i1, fun e => ?_⟩, deep_of (fun x hx => hk x (by simp [hx])) i3 ?_⟩
    · exact ⟨(i2 e).2.1, (i2 e).1⟩
    · intro h; cases h.2.2

section
variable {K : Type} (o : Order K)

theorem frame_io : ∀ {k : Ctx} {f : Frame}, f ∈ k → (f.a, f.v) ∈ Ctx.pre k ++ Ctx.post k
  | g :: k, f, h => by
    rcases List.mem_cons.1 h with rfl | h
    · cases hd : f.d <;> simp [Ctx.pre, Ctx.post, hd]
    · have := frame_io h
      simp only [Ctx.pre, Ctx.post, List.mem_append] at this ⊢
      rcases this with h | h
      · exact .inl (.inl h)
      · exact .inr (.inr h)

/-- A key that is smaller than none leads to the right end. -/
theorem right_of_path {key : K} {k : Ctx} (hp : Path o key k) (h : ∀ x ∈ (Ctx.pre k ++ Ctx.post k).map Prod.snd, o.cmp key (o.key x) ≠ .lt) :
    ∀ f ∈ k, f.d = .r := by
  intro f hf
  rw [hp f hf, if_neg (h f.v (List.mem_map.2 ⟨_, frame_io hf, rfl⟩))]

/-- Insertion of a new node: the tree afterwards, with the element placed where the descent leads. -/
theorem insertNode_holds {h : Heap} {t : Tree} {X : T} {z v p x y : Nat} {c : Bool} (w : Holds h t X) (fit : Fit X)
    (hz : h z = some ⟨p, x, y, c, v⟩) (hzN : z ≠ t.nil) (hzX : z ∉ X.addrs) :
    ∃ h' r' X' k, insertNode o (t.count + 2) h t z = some (h', { t with root := r', count := t.count + 1 }) ∧
      Holds h' { t with root := r', count := t.count + 1 } X' ∧ Fit X' ∧
      X.io = Ctx.pre k ++ Ctx.post k ∧ X'.io = Ctx.pre k ++ (z, v) :: Ctx.post k ∧ Path o (o.key v) k ∧ X = plug k .nil ∧
      ((∃ b, Bal b X) → ∃ b, Bal b X') ∧ (Rises X → Rises X') ∧ (∃ n, h' t.nil = some (nilNode t.nil n)) ∧
      (∀ u, u ≠ z → u ≠ t.nil → u ∉ X.addrs → h' u = h u) ∧
      ((∀ f ∈ k, f.d = .r) → X.stacked → X'.stacked) := by
  obtain ⟨wX, ⟨vn, hn, hnr⟩, hcount⟩ := w
  obtain ⟨k, e1, e2, e3, e4⟩ := descend o (key := o.key v) (n := t.count + 2) (by omega) wX
  rw [List.append_nil] at e1 e2
  have e2' : plug k .nil = X := e2
  have wk : At t.nil h t.root k .nil := by
    have : At t.nil h t.root [] (plug k .nil) := by rw [e2']; exact wX
    have := at_plug.2 this
    rwa [List.append_nil] at this
  have hmem : ∀ u, u ∈ X.addrs ↔ u ∈ Ctx.addrs k := by
    intro u; rw [← e2', mem_plug]; simp [T.addrs]
  obtain ⟨h1, r1, l1, w1, o1⟩ := link_at o wk hz hzN (fun hh => hzX ((hmem z).2 hh)) e3
  have kr : kRR k ∧ _ := noRR_plug.1 (by rw [e2']; exact fit.rr)
  have kb : kBlack k := kBlack_plug (t := .nil) (by rw [e2']; exact fit.black)
  obtain ⟨h2, r2, X2, f2, w2, i2, o2, rr2, b2, y2⟩ := fixup_loop (t.count + 2) (t := { t with root := r1 }) (d := .l) (by omega) w1
    (by rw [show ({ t with root := r1 } : Tree).nil = t.nil from rfl, o1 t.nil hzN.symm (fun hh => wk.nin (.inr hh) rfl)]; exact hn) hnr
    trivial trivial rfl rfl kr.1 kb
  -- the root is painted black
  cases hX2 : X2 with
  | nil =>
    subst hX2
    have : (z, v) ∈ (plug k (br .l true .nil z v .nil)).io := by rw [plug_io]; simp [br_io]
    rw [← i2] at this; cases this
  | node c2 l2 a2 v2 r2' =>
    subst hX2
    obtain ⟨h3, p3, w3, o3⟩ := paint (d := .l) (c' := false) w2
    have hroot : r2 = a2 := w2.root
    have io' : (br .l false l2 a2 v2 r2').io = Ctx.pre k ++ (z, v) :: Ctx.post k := by
      rw [show (br .l false l2 a2 v2 r2').io = (T.node c2 l2 a2 v2 r2').io from rfl, i2, plug_io]; simp [br_io, T.io]
    have ioX : X.io = Ctx.pre k ++ Ctx.post k := by rw [← e2', plug_io]; simp [T.io]
    have hn3 : h3 t.nil = some vn := by
      have a1 : h1 t.nil = h t.nil := o1 t.nil hzN.symm (fun hh => wk.nin (.inr hh) rfl)
      have a2 : h2 t.nil = h1 t.nil := by
        refine o2 _ ?_
        rw [← mem_addrs_io]; intro hh; exact w2.nin (.inl hh) rfl
      have a3 : h3 t.nil = h2 t.nil := o3.nil w2
      rw [a3, a2, a1, hn]
    obtain ⟨rn, wn⟩ := resetNil_holds (t := { t with root := r2 }) w3 hn3
    refine ⟨_, r2, br .l false l2 a2 v2 r2', k, ?_, ⟨wn, ⟨_, put_same, rfl⟩, ?_⟩, ⟨?_, rfl⟩, ioX, io', e3, e2'.symm, ?_, ?_, ⟨_, put_same⟩, ?_, ?_⟩
    · have e1' : insertDescend o h t.nil (o.key v) (t.count + 2) t.root t.nil = some (Ctx.parent t.nil k) := by
        have := wX.root
        rw [this]; exact e1
      simp only [insertNode_eq, hz, Option.bind_some, e1', l1, insertFixup, Option.bind_eq_bind, f2]
      rw [show setRed h2 r2 false = some h3 by rw [hroot]; exact p3]
      simp only [Option.bind_some]
      rw [rn]
      rfl
    · show t.count + 1 = _
      rw [← io_length, io', hcount, ← io_length, ioX]; simp; omega
    · rw [noRR_br]; exact ⟨(by intro h; cases h), rr2.2⟩
    · rintro ⟨b, hb⟩
      have : Bal b (T.node c2 l2 a2 v2 r2') := by
        rw [bal_lv (d := 0), b2 0, ← bal_lv]
        rw [← e2'] at hb
        refine bal_plug_congr ?_ hb
        intro m hm
        exact ⟨hm, hm⟩
      cases c2 with
      | true => exact ⟨b + 1, b, rfl, this⟩
      | false => exact ⟨b, this⟩
    · intro hr
      have : Rises (T.node c2 l2 a2 v2 r2') := by
        rw [Rises, b2 0]
        obtain ⟨A, m, B, hl⟩ := lv_plug (k := k) (b := 0)
        rw [Rises, ← e2', hl] at hr
        rw [hl]
        show (A ++ (m :: ([m] ++ B))).Pairwise _
        rw [List.pairwise_append] at hr ⊢
        refine ⟨hr.1, List.pairwise_cons.2 ⟨fun x hx => ?_, hr.2.1⟩, fun x hx y hy => ?_⟩
        · rcases List.mem_cons.1 hx with rfl | hx
          · exact Nat.le_refl _
          · exact (List.pairwise_cons.1 hr.2.1).1 x hx
        · rcases List.mem_cons.1 hy with rfl | hy
          · exact hr.2.2 x hx _ (by simp [T.lv])
          · exact hr.2.2 x hx y hy
      cases c2 with
      | true => exact (rises_lv 1).1 this
      | false => exact this
    · intro u h1' h2' h3'
      rw [put_ne h2']
      have hu : u ∉ (T.node c2 l2 a2 v2 r2').addrs := by
        rw [mem_addrs_io, i2, ← mem_addrs_io, mem_plug]
        rintro (hh | hh)
        · simp [br, T.addrs] at hh; exact h1' hh
        · exact h3' ((hmem u).2 hh)
      rw [o3 u (by rw [← mem_addrs_io]; exact hu), o2 u (by rw [← mem_addrs_io]; exact hu)]
      exact o1 u h1' (fun hh => h3' ((hmem u).2 hh))
    · intro hk hs
      rw [← e2'] at hs
      exact y2 (ready_leaf hk hs) ⟨trivial, trivial, fun _ => trivial⟩

/-! ### Lookup -/

end

def T.height : T → Nat
  | .nil => 0
  | .node _ l _ _ r => max l.height r.height + 1

theorem height_le_size : ∀ {t : T}, t.height ≤ t.size
  | .nil => Nat.le_refl _
  | .node _ l _ _ r => by
    have := height_le_size (t := l)
    have := height_le_size (t := r)
    simp only [T.height, T.size]; omega

section
variable {K : Type} (o : Order K)

theorem find_at {N : Nat} {h : Heap} {r : Nat} {key : K} : ∀ {t : T} {n : Nat} {k : Ctx}, t.height < n → At N h r k t →
    (∃ c L a v R k2, findNode o h N key n (t.root N) = some (some a) ∧ plug (k2 ++ k) (.node c L a v R) = plug k t ∧
      o.cmp key (o.key v) = .eq ∧ Path o key k2) ∨
    (∃ k2, findNode o h N key n (t.root N) = some none ∧ plug (k2 ++ k) .nil = plug k t ∧ Path o key k2 ∧
      ∀ f ∈ k2, o.cmp key (o.key f.v) ≠ .eq)
  | .nil, n + 1, k, _, _ => .inr ⟨[], by simp [findNode, T.root], rfl, by simp [Path], by simp⟩
  | .node c l a v r', n + 1, k, hs, w => by
    have hne : a ≠ N := w.nin (.inl (by simp [T.addrs]))
    simp only [T.height] at hs
    simp only [findNode, T.root, hne, if_false, w.sub.1, Option.bind_eq_bind, Option.bind_some]
    have snoc : ∀ {d : Dir} {s : T} {k2 : Ctx}, Path o key k2 → (d = if o.cmp key (o.key v) = .lt then .l else .r) →
        Path o key (k2 ++ [⟨d, c, a, v, s⟩]) := by
      intro d s k2 h1 h2 f hf
      rcases List.mem_append.1 hf with hf | hf
      · exact h1 f hf
      · simp only [List.mem_singleton] at hf; subst hf; exact h2
    have snoc2 : ∀ {d : Dir} {s : T} {k2 : Ctx}, (∀ f ∈ k2, o.cmp key (o.key f.v) ≠ .eq) → o.cmp key (o.key v) ≠ .eq →
        ∀ f ∈ k2 ++ [⟨d, c, a, v, s⟩], o.cmp key (o.key f.v) ≠ .eq := by
      intro d s k2 h1 h2 f hf
      rcases List.mem_append.1 hf with hf | hf
      · exact h1 f hf
      · simp only [List.mem_singleton] at hf; subst hf; exact h2
    cases hc : o.cmp key (o.key v) with
    | eq => exact .inl ⟨c, l, a, v, r', [], rfl, rfl, hc, by simp [Path]⟩
    | lt =>
      have w' : At N h r (⟨.l, c, a, v, r'⟩ :: k) l := at_fill.2 w
      rcases find_at (n := n) (key := key) (by omega) w' with ⟨c1, L, a1, v1, R, k2, e1, e2, e3, e4⟩ | ⟨k2, e1, e2, e3, e4⟩
      · exact .inl ⟨c1, L, a1, v1, R, k2 ++ [⟨.l, c, a, v, r'⟩], e1, by rw [List.append_assoc]; exact e2, e3, snoc e4 (by simp [hc])⟩
      · exact .inr ⟨k2 ++ [⟨.l, c, a, v, r'⟩], e1, by rw [List.append_assoc]; exact e2, snoc e3 (by simp [hc]), snoc2 e4 (by simp [hc])⟩
    | gt =>
      have w' : At N h r (⟨.r, c, a, v, l⟩ :: k) r' := at_fill.2 w
      rcases find_at (n := n) (key := key) (by omega) w' with ⟨c1, L, a1, v1, R, k2, e1, e2, e3, e4⟩ | ⟨k2, e1, e2, e3, e4⟩
      · exact .inl ⟨c1, L, a1, v1, R, k2 ++ [⟨.r, c, a, v, l⟩], e1, by rw [List.append_assoc]; exact e2, e3, snoc e4 (by simp [hc])⟩
      · exact .inr ⟨k2 ++ [⟨.r, c, a, v, l⟩], e1, by rw [List.append_assoc]; exact e2, snoc e3 (by simp [hc]), snoc2 e4 (by simp [hc])⟩

end

end Rcpr.RB
