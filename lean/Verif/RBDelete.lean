import Verif.RBMap

/-! Unlinking a node. -/
namespace Rcpr.RB

open Rcpr

theorem transplant_raw {h : Heap} {t : Tree} {u v P : Nat} {nu nv : Node} (hu : h u = some nu) (hpar : nu.parent = P)
    (hv : h v = some nv) (uv : u ≠ v) (Pu : P ≠ u) (Pv : P ≠ t.nil → P ≠ v)
    (hP : P ≠ t.nil → ∃ e q s c w, h P = some (mkNode e q u s c w) ∧ s ≠ u) :
    ∃ h' r', transplant h t u v = some (h', { t with root := r' }) ∧ h' u = some nu ∧
      h' v = some { nv with parent := P } ∧
      (P = t.nil → r' = v) ∧
      (P ≠ t.nil → r' = t.root ∧ ∀ e q s c w, h P = some (mkNode e q u s c w) → h' P = some (mkNode e q v s c w)) ∧
      (∀ b, b ≠ v → (b = P → P = t.nil) → h' b = h b) := by
  unfold transplant
  simp only [hu, Option.bind_eq_bind, Option.bind_some, hpar]
  rw [show relinkLeft = relink .l from rfl]
  by_cases hPn : P = t.nil
  · rw [hPn, relink_nil]
    simp only [Option.bind_some, hu, hpar, setParent_some hv]
    refine ⟨_, _, rfl, by rw [put_ne uv, hu], by rw [put_same, hPn], fun _ => rfl, fun h => absurd rfl h, ?_⟩
    intro b h1 _; exact put_ne h1
  · obtain ⟨e, q, s, c, w, hp, hs⟩ := hP hPn
    rw [relink_some hPn hp hs]
    have hu' : put h P (mkNode e q v s c w) u = some nu := by rw [put_ne (Ne.symm Pu), hu]
    have hv' : put h P (mkNode e q v s c w) v = some nv := by rw [put_ne (Ne.symm (Pv hPn)), hv]
    simp only [Option.bind_some, hu', hpar, setParent_some hv']
    refine ⟨_, t.root, rfl, by rw [put_ne uv, hu'], put_same, fun h => absurd h hPn, fun _ => ⟨rfl, ?_⟩, ?_⟩
    · intro e2 q2 s2 c2 w2 hp2
      rw [put_ne (Pv hPn), put_same]
      rw [hp] at hp2
      have := Option.some.inj hp2
      have hs' := hs.symm
      cases e <;> cases e2 <;> simp [mkNode] at this ⊢ <;> simp_all
    · intro b h1 h2
      rw [put_ne h1, put_ne (fun e => hPn (h2 e))]

theorem parent_cases {N : Nat} {h : Heap} {k : Ctx} {x : Nat} (w : RepC N h k x) (xN : x ≠ N) (xk : x ∉ Ctx.addrs k) :
    Ctx.parent N k ≠ N → ∃ e q s c w, h (Ctx.parent N k) = some (mkNode e q x s c w) ∧ s ≠ x := by
  cases k with
  | nil => intro h; exact absurd rfl h
  | cons f k =>
    intro _
    refine ⟨f.d, _, f.s.root N, f.c, f.v, w.1, ?_⟩
    intro e
    rcases mem_root (N := N) (t := f.s) with h | h
    · exact xN (e.symm.trans h)
    · exact xk (by rw [← e]; simp [Ctx.addrs, h])

/-- The context after `transplant` put another subtree into the focus. -/
theorem repC_move {N : Nat} {h h' : Heap} {k : Ctx} {x v : Nat} (w : RepC N h k x)
    (nd : (Ctx.addrs k).Nodup) (nN : N ∉ Ctx.addrs k) (xv : v ∉ Ctx.addrs k)
    (e1 : Ctx.parent N k ≠ N → ∀ e q s c w, h (Ctx.parent N k) = some (mkNode e q x s c w) →
      h' (Ctx.parent N k) = some (mkNode e q v s c w))
    (e2 : ∀ b, b ≠ v → (b = Ctx.parent N k → Ctx.parent N k = N) → h' b = h b) : RepC N h' k v := by
  cases k with
  | nil => trivial
  | cons f k =>
    have hf : f.a ≠ N := fun e => nN (by simp [Ctx.addrs, e])
    simp only [Ctx.addrs, List.nodup_cons, List.mem_append, not_or] at nd
    refine ⟨e1 hf _ _ _ _ _ w.1, w.2.1.frame fun b hb => ?_, w.2.2.frame fun b hb => ?_⟩
    · refine e2 b (fun e => xv (by simp [Ctx.addrs, ← e, hb])) (fun e => ?_)
      rw [parent_cons] at e; exact absurd (e ▸ hb) nd.1.1
    · refine e2 b (fun e => xv (by simp [Ctx.addrs, ← e, hb])) (fun e => ?_)
      rw [parent_cons] at e; exact absurd (e ▸ hb) nd.1.2

theorem parent_mem {N : Nat} {k : Ctx} : Ctx.parent N k ≠ N → Ctx.parent N k ∈ Ctx.addrs k := by
  cases k with
  | nil => intro e; exact absurd rfl e
  | cons f k => intro _; simp [Ctx.addrs, Ctx.parent]

/-- A node with at most one child is replaced by that child. -/
theorem transplant_child {d : Dir} {h : Heap} {t : Tree} {k : Ctx} {c : Bool} {z vz : Nat} {Y : T} {vn : Node}
    (w : At t.nil h t.root k (br d c .nil z vz Y)) (hn : h t.nil = some vn) :
    ∃ h' r' nn, transplant h t z (Y.root t.nil) = some (h', { t with root := r' }) ∧ At t.nil h' r' k Y ∧
      h' z = h z ∧ h' t.nil = some nn ∧ nn.red = vn.red ∧ nn.value = vn.value ∧ nn.left = vn.left ∧ nn.right = vn.right ∧
      (∀ b, b ≠ z → b ≠ t.nil → b ∉ Y.addrs → b ∉ Ctx.addrs k → h' b = h b) := by
  have nd := nodup_count (l' := t.nil :: z :: (Y.addrs ++ Ctx.addrs k))
    (fun a => by simp only [List.count_cons, List.count_append, count_br, beq_iff_eq, T.addrs, List.count_nil]; omega) w.nd
  have nd' := nd
  simp only [List.nodup_cons, List.mem_cons, List.mem_append, not_or, List.nodup_append] at nd
  obtain ⟨⟨Nz, NY, Nk⟩, ⟨zY, zk⟩, ndY, ndk, dY⟩ := nd
  obtain ⟨hz, -, rY⟩ := rep_br.1 w.sub
  have hk := w.ctx
  rw [br_root] at hk
  obtain ⟨nv, hv⟩ : ∃ nv, h (Y.root t.nil) = some nv := by
    cases Y with
    | nil => exact ⟨vn, hn⟩
    | node c l a v r => exact ⟨_, rY.1⟩
  have hYz : z ≠ Y.root t.nil := by
    rcases mem_root (N := t.nil) (t := Y) with e | e
    · rw [e]; exact Ne.symm Nz
    · exact fun h => zY (h ▸ e)
  have hYk : Y.root t.nil ∉ Ctx.addrs k := by
    rcases mem_root (N := t.nil) (t := Y) with e | e
    · rw [e]; exact Nk
    · exact fun h => dY _ e _ h rfl
  have hPz : Ctx.parent t.nil k ≠ z := by
    by_cases e : Ctx.parent t.nil k = t.nil
    · rw [e]; exact Nz
    · exact fun h => zk (h ▸ parent_mem e)
  obtain ⟨h', r', e, e1, e2, e3, e4, e5⟩ := transplant_raw (t := t) hz mkNode_parent hv hYz hPz
    (fun hp e => hYk (e ▸ parent_mem hp)) (parent_cases hk (Ne.symm Nz) zk)
  have hkeep : ∀ b, b ≠ Y.root t.nil → b ∉ Ctx.addrs k → h' b = h b := by
    intro b h1 h2
    exact e5 b h1 fun e => Classical.byContradiction fun hn => h2 (e ▸ parent_mem hn)
  have hnil : ∃ nn, h' t.nil = some nn ∧ nn.red = vn.red ∧ nn.value = vn.value ∧ nn.left = vn.left ∧ nn.right = vn.right := by
    by_cases hY : t.nil = Y.root t.nil
    · rw [← hY] at hv e2
      rw [hn] at hv
      obtain rfl := Option.some.inj hv
      exact ⟨_, e2, rfl, rfl, rfl, rfl⟩
    · exact ⟨vn, by rw [hkeep _ hY Nk, hn], rfl, rfl, rfl, rfl⟩
  obtain ⟨nn, hnn, hnr, hnv, hnl, hnR⟩ := hnil
  refine ⟨h', r', nn, e, ⟨repC_move hk ndk Nk hYk (fun hp => (e4 hp).2) e5, ?_, ?_, (List.nodup_cons.2
    ⟨by simp only [List.mem_append, not_or]; exact ⟨NY, Nk⟩, (List.nodup_cons.1 (List.nodup_cons.1 nd').2).2⟩)⟩,
    by rw [e1, hz], hnn, hnr, hnv, hnl, hnR, ?_⟩
  · refine rY.reparent ndY fun b hb => ?_
    split
    · next hbe => rw [hbe, hv, e2]; rfl
    · next hbe => exact hkeep b hbe fun hh => dY b hb b hh rfl
  · by_cases hp : Ctx.parent t.nil k = t.nil
    · cases k with
      | nil => exact e3 hp
      | cons f k => exact absurd hp fun e => Nk (by rw [← e]; simp [Ctx.addrs, Ctx.parent])
    · rw [(e4 hp).1, w.root, br_root]
      cases k with
      | nil => exact absurd rfl hp
      | cons f k => rfl
  · intro b h1 h2 h3 h4
    refine hkeep b ?_ h4
    intro e
    rcases mem_root (N := t.nil) (t := Y) with h | h
    · exact h2 (e.trans h)
    · exact h3 (e ▸ h)

/-! ### The minimum -/

/-- The way to the least element: left turns only. -/
theorem minimum_at {N : Nat} {h : Heap} {r : Nat} : ∀ {t : T} {n : Nat} {k : Ctx}, t ≠ .nil → t.size < n → At N h r k t →
    ∃ k2 c a v Y, minimum h N n (t.root N) = some a ∧ plug (k2 ++ k) (.node c .nil a v Y) = plug k t ∧
      plug k2 (.node c .nil a v Y) = t ∧ ∀ f ∈ k2, f.d = .l
  | .nil, _, _, h, _, _ => absurd rfl h
  | .node c l a v r', n + 1, k, _, hs, w => by
    simp only [T.size] at hs
    rw [minimum]
    simp only [T.root, w.sub.1, Option.bind_eq_bind, Option.bind_some]
    cases l with
    | nil =>
      simp only [T.root, ne_eq, not_true, if_false]
      exact ⟨[], c, a, v, r', rfl, rfl, rfl, by simp⟩
    | node c' l' a' v' r'' =>
      have hne : a' ≠ N := w.nin (.inl (by simp [T.addrs]))
      have w' : At N h r (⟨.l, c, a, v, r'⟩ :: k) (.node c' l' a' v' r'') := at_fill.2 w
      obtain ⟨k2, c2, a2, v2, Y, e1, e2, e3, e4⟩ := minimum_at (n := n) (by simp) (by omega) w'
      simp only [T.root, ne_eq, hne, not_false_eq_true, if_true]
      refine ⟨k2 ++ [⟨.l, c, a, v, r'⟩], c2, a2, v2, Y, e1, ?_, ?_, ?_⟩
      · rw [List.append_assoc]; exact e2
      · rw [plug_append, e3]; rfl
      · intro f hf
        rcases List.mem_append.1 hf with hf | hf
        · exact e4 f hf
        · simp only [List.mem_singleton] at hf; subst hf; rfl

/-! ### Unlinking -/

theorem root_node {N : Nat} {c : Bool} {l r : T} {a v : Nat} : (T.node c l a v r).root N = a := rfl
theorem root_nil {N : Nat} : T.nil.root N = N := rfl

/-- The last part of the unlinking of a node with two children: its successor takes its place. -/
def spliceTail (h : Heap) (t : Tree) (z y : Nat) : Option (Heap × Tree) := do
  let (h, t) ← transplant h t z y
  let nz ← h z
  let h ← setLeft h y nz.left
  let ny' ← h y
  let h ← setParent h ny'.left y
  let nz ← h z
  let h ← setRed h y nz.red
  some (h, t)

theorem splice_tail {h : Heap} {t : Tree} {k : Ctx} {L R : T} {z y vz vy rz py ly : Nat} {cz cy : Bool}
    (hk : RepC t.nil h k z) (hz : h z = some ⟨Ctx.parent t.nil k, L.root t.nil, rz, cz, vz⟩) (hL : Rep t.nil h z L) (hLn : L ≠ .nil)
    (hy : h y = some ⟨py, ly, R.root t.nil, cy, vy⟩) (hR : Rep t.nil h y R) (hr : t.root = Ctx.top k z)
    (nd : (t.nil :: z :: y :: (L.addrs ++ (R.addrs ++ Ctx.addrs k))).Nodup) :
    ∃ h' r', spliceTail h t z y = some (h', { t with root := r' }) ∧ At t.nil h' r' k (.node cz L y vy R) ∧
      h' z = h z ∧ h' t.nil = h t.nil ∧
      (∀ b, b ≠ y → b ∉ L.addrs → b ∉ Ctx.addrs k → h' b = h b) := by
  have nd' := nd
  simp only [List.nodup_cons, List.mem_cons, List.mem_append, not_or, List.nodup_append] at nd
  obtain ⟨⟨Nz, Ny, NL, NR, Nk⟩, ⟨zy, zL, zR, zk⟩, ⟨yL, yR, yk⟩, ndL, ⟨ndR, ndk, dRk⟩, dL⟩ := nd
  obtain ⟨cL, LL, la, lv, LR, rfl⟩ : ∃ c l a v r, L = .node c l a v r := by
    cases L with
    | nil => exact absurd rfl hLn
    | node c l a v r => exact ⟨c, l, a, v, r, rfl⟩
  have hPz : Ctx.parent t.nil k ≠ z := by
    by_cases e : Ctx.parent t.nil k = t.nil
    · rw [e]; exact Nz
    · exact fun h => zk (h ▸ parent_mem e)
  obtain ⟨h1, r1, e, e1, e2, e3, e4, e5⟩ := transplant_raw (t := t) hz rfl hy zy hPz
    (fun hp e => yk (e ▸ parent_mem hp)) (parent_cases hk (Ne.symm Nz) zk)
  have hkeep : ∀ b, b ≠ y → b ∉ Ctx.addrs k → h1 b = h b := by
    intro b h1 h2
    exact e5 b h1 fun e => Classical.byContradiction fun hn => h2 (e ▸ parent_mem hn)
  have lay : la ≠ y := fun e => yL (by simp [T.addrs, e])
  have laz : la ≠ z := fun e => zL (by simp [T.addrs, e])
  have lak : la ∉ Ctx.addrs k := fun e => dL la (by simp [T.addrs]) la (.inr e) rfl
  have laN : la ≠ t.nil := fun e => NL (by simp [T.addrs, e])
  have hla : h1 la = some ⟨z, LL.root t.nil, LR.root t.nil, cL, lv⟩ := by rw [hkeep la lay lak]; exact hL.1
  -- the cells after the last assignments
  have s1 : setLeft h1 y la = some (put h1 y ⟨Ctx.parent t.nil k, la, R.root t.nil, cy, vy⟩) := by simp [setLeft, e2]
  have s2 : put h1 y ⟨Ctx.parent t.nil k, la, R.root t.nil, cy, vy⟩ la = some ⟨z, LL.root t.nil, LR.root t.nil, cL, lv⟩ := by
    rw [put_ne lay, hla]
  have s3 := setParent_some (z := y) s2
  have s4 : put (put h1 y ⟨Ctx.parent t.nil k, la, R.root t.nil, cy, vy⟩) la ⟨y, LL.root t.nil, LR.root t.nil, cL, lv⟩ y =
      some ⟨Ctx.parent t.nil k, la, R.root t.nil, cy, vy⟩ := by rw [put_ne lay.symm, put_same]
  have s5 : put (put h1 y ⟨Ctx.parent t.nil k, la, R.root t.nil, cy, vy⟩) la ⟨y, LL.root t.nil, LR.root t.nil, cL, lv⟩ z =
      some ⟨Ctx.parent t.nil k, la, rz, cz, vz⟩ := by rw [put_ne laz.symm, put_ne zy, e1]; rfl
  have keep2 : ∀ b, b ≠ y → b ≠ la → b ∉ Ctx.addrs k →
      put (put (put h1 y ⟨Ctx.parent t.nil k, la, R.root t.nil, cy, vy⟩) la ⟨y, LL.root t.nil, LR.root t.nil, cL, lv⟩) y
        ⟨Ctx.parent t.nil k, la, R.root t.nil, cz, vy⟩ b = h b := by
    intro b h1 h2 h3
    rw [put_ne h1, put_ne h2, put_ne h1, hkeep b h1 h3]
  refine ⟨put (put (put h1 y ⟨Ctx.parent t.nil k, la, R.root t.nil, cy, vy⟩) la ⟨y, LL.root t.nil, LR.root t.nil, cL, lv⟩) y
    ⟨Ctx.parent t.nil k, la, R.root t.nil, cz, vy⟩, r1, ?_, ⟨?_, ⟨put_same, ?_, ?_⟩, ?_, ?_⟩, ?_, ?_, ?_⟩
  · unfold spliceTail
    simp only [e, Option.bind_eq_bind, Option.bind_some, e1, root_node, s1, put_same, s3, s5, setRed, s4, Option.map_some]
  · refine RepC.frame (repC_move hk ndk Nk yk (fun hp => (e4 hp).2) e5) fun b hb => ?_
    have h1' : b ≠ y := fun e => yk (e ▸ hb)
    have h2' : b ≠ la := fun e => lak (e ▸ hb)
    rw [put_ne h1', put_ne h2', put_ne h1']
  · refine hL.reparent ndL fun b hb => ?_
    have hby : b ≠ y := fun e => yL (e ▸ hb)
    have hbk : b ∉ Ctx.addrs k := fun e => dL b hb b (.inr e) rfl
    split
    · next hbe =>
      rw [hbe]; simp only [T.root]
      rw [put_ne lay, put_same, show h la = _ from hL.1]; rfl
    · next hbe => exact keep2 b hby hbe hbk
  · refine hR.frame fun b hb => ?_
    exact keep2 b (fun e => yR (e ▸ hb)) (fun e => dL la (by simp [T.addrs]) b (.inl hb) e.symm) (fun e => dRk b hb b e rfl)
  · by_cases hp : Ctx.parent t.nil k = t.nil
    · cases k with
      | nil => exact e3 hp
      | cons f k => exact absurd hp fun e => Nk (by rw [← e]; simp [Ctx.addrs, Ctx.parent])
    · rw [(e4 hp).1, hr]
      cases k with
      | nil => exact absurd rfl hp
      | cons f k => rfl
  · refine nodup_count (l := t.nil :: y :: ((T.node cL LL la lv LR).addrs ++ (R.addrs ++ Ctx.addrs k))) (fun a => ?_) ?_
    · simp only [T.addrs, List.count_cons, List.count_append]; omega
    · refine List.Nodup.sublist ?_ nd'
      exact List.Sublist.cons_cons _ (List.sublist_cons_self _ _)
  · rw [keep2 z zy laz.symm zk]
  · rw [keep2 _ Ny laN.symm Nk]
  · intro b h1 h2 h3
    exact keep2 b h1 (fun e => h2 (by simp [T.addrs, e])) h3

theorem removeSplice_eq {fuel : Nat} {h : Heap} {t : Tree} {z : Nat} : removeSplice fuel h t z =
    (h z).bind fun nz =>
      if nz.left = t.nil then (transplant h t z nz.right).bind fun (h, t) => some (h, t, nz.right, nz.red)
      else if nz.right = t.nil then (transplant h t z nz.left).bind fun (h, t) => some (h, t, nz.left, nz.red)
      else (minimum h t.nil fuel nz.right).bind fun y => (h y).bind fun ny =>
        (if ny.parent = z then (setParent h ny.right y).bind fun h => some (h, t)
         else (transplant h t y ny.right).bind fun (h, t) => (h z).bind fun nz => (setRight h y nz.right).bind fun h =>
           (h y).bind fun ny => (setParent h ny.right y).bind fun h => some (h, t)).bind fun (h, t) =>
        (spliceTail h t z y).bind fun (h, t) => some (h, t, ny.right, ny.red) := by
  unfold removeSplice
  simp only [spliceTail, Option.bind_eq_bind, Option.bind_assoc]
  rfl

theorem count_plug : ∀ {k : Ctx} {t : T} {b : Nat}, (plug k t).addrs.count b = t.addrs.count b + (Ctx.addrs k).count b
  | [], _, _ => by simp [plug, Ctx.addrs]
  | f :: k, t, b => by
    rw [plug, count_plug, Frame.fill, count_br, Ctx.addrs]
    simp only [List.count_cons, List.count_append, beq_iff_eq]; omega

theorem pre_left : ∀ {k : Ctx}, (∀ f ∈ k, f.d = .l) → Ctx.pre k = []
  | [], _ => rfl
  | f :: k, h => by
    rw [Ctx.pre, h f (by simp), pre_left (k := k) fun g hg => h g (by simp [hg])]; rfl

theorem root_plug {N : Nat} {f : Frame} : ∀ {k : Ctx} {t : T}, (plug (f :: k) t).root N ∈ (plug (f :: k) t).addrs
  | [], t => by rw [plug, plug, Frame.fill, br_root]; exact mem_br.2 (.inl rfl)
  | g :: k, t => by rw [plug]; exact root_plug (f := g) (k := k)

theorem parent_append_cons {N : Nat} {f : Frame} {k k' : Ctx} : Ctx.parent N ((f :: k) ++ k') = f.a := rfl

theorem bal_zero {t : T} (h : Bal 0 t) : t = .nil ∨ t.col = true := by
  cases t with
  | nil => exact .inl rfl
  | node c l a v r =>
    cases c with
    | true => exact .inr rfl
    | false => obtain ⟨m, e, _⟩ := h; cases e

/-- The only child of a node is red. -/
def oneRed : T → Prop
  | .nil => True
  | .node _ l _ _ r => (l = .nil → r = .nil ∨ r.col = true) ∧ (r = .nil → l = .nil ∨ l.col = true) ∧ oneRed l ∧ oneRed r

theorem oneRed_br {d : Dir} {c : Bool} {x y : T} {a v : Nat} : oneRed (br d c x a v y) ↔
    (x = .nil → y = .nil ∨ y.col = true) ∧ (y = .nil → x = .nil ∨ x.col = true) ∧ oneRed x ∧ oneRed y := by
  cases d
  · exact Iff.rfl
  · exact ⟨fun ⟨a, b, c, d⟩ => ⟨b, a, d, c⟩, fun ⟨a, b, c, d⟩ => ⟨b, a, d, c⟩⟩

theorem bal_oneRed : ∀ {t : T} {n : Nat}, Bal n t → oneRed t
  | .nil, _, _ => trivial
  | .node c l a v r, n, h => by
    obtain ⟨m, -, h1, h2⟩ := bal_br.1 (show Bal n (br .l c l a v r) from h)
    refine ⟨fun e => ?_, fun e => ?_, bal_oneRed h1, bal_oneRed h2⟩
    · subst e; have : m = 0 := h1; subst this; exact bal_zero h2
    · subst e; have : m = 0 := h2; subst this; exact bal_zero h1

theorem oneRed_sub : ∀ {k : Ctx} {t : T}, oneRed (plug k t) → oneRed t
  | [], _, h => h
  | _ :: k, _, h => (oneRed_br.1 (oneRed_sub (k := k) h)).2.2.1

theorem br_ne_nil {d : Dir} {c : Bool} {x y : T} {a v : Nat} : br d c x a v y ≠ .nil := by cases d <;> simp [br]

theorem oneRed_congr : ∀ {k : Ctx} {t t' : T}, (t = .nil ↔ t' = .nil) → t.col = t'.col → (oneRed t → oneRed t') →
    oneRed (plug k t) → oneRed (plug k t')
  | [], _, _, _, _, h, h' => h h'
  | f :: k, t, t', h1, h2, h3, h => by
    refine oneRed_congr (k := k) (by simp [Frame.fill, br_ne_nil]) (by simp [Frame.fill]) ?_ h
    simp only [Frame.fill, oneRed_br]
    rintro ⟨a, b, c, d⟩
    exact ⟨fun e => a (h1.2 e), fun e => by rw [← h1, ← h2]; exact b e, h3 c, d⟩

/-- The least node of the tree is red or has a red child. -/
def leastSpare : T → Prop
  | .nil => False
  | .node c .nil _ _ r => c = true ∨ r.col = true
  | .node _ (.node c l a v r) _ _ _ => leastSpare (.node c l a v r)

/-- What goes when the root is deleted, the root itself or the least node of its right subtree, is red or has
a red child. -/
def spareT : T → Prop
  | .nil => False
  | .node c .nil _ _ r => c = true ∨ r.col = true
  | .node c l _ _ .nil => c = true ∨ l.col = true
  | .node _ _ _ _ r => leastSpare r

theorem leastSpare_plug : ∀ {k : Ctx} {c : Bool} {a v : Nat} {Y : T}, (∀ f ∈ k, f.d = .l) →
    (leastSpare (plug k (.node c .nil a v Y)) ↔ c = true ∨ Y.col = true) := by
  intro k c a v Y hk
  have gen : ∀ (k : Ctx) (t : T), t ≠ .nil → (∀ f ∈ k, f.d = .l) → (leastSpare (plug k t) ↔ leastSpare t) := by
    intro k
    induction k with
    | nil => intro t _ _; exact Iff.rfl
    | cons f k ih =>
      intro t ht hk
      rw [plug, ih _ (by simp [Frame.fill, br_ne_nil]) fun g hg => hk g (by simp [hg])]
      obtain ⟨d, c, a, v, s⟩ := f
      obtain rfl : d = .l := hk ⟨d, c, a, v, s⟩ (by simp)
      cases t with
      | nil => exact absurd rfl ht
      | node => exact Iff.rfl
  rw [gen k _ (by simp) hk]; exact Iff.rfl

/-- Replacing a proper subtree of a balanced tree by one of another black height unbalances it. -/
theorem bal_plug_other {f : Frame} {k : Ctx} {t t' : T} {n n' m m' : Nat} (h : Bal n (plug (f :: k) t)) (ht : Bal m t)
    (h' : Bal n' (plug (f :: k) t')) (ht' : Bal m' t') : m = m' := by
  obtain ⟨q, hq, -⟩ := bal_plug (k := k) h
  obtain ⟨q', hq', -⟩ := bal_plug (k := k) h'
  obtain ⟨p, -, h1, h2⟩ := bal_br.1 hq
  obtain ⟨p', -, h1', h2'⟩ := bal_br.1 hq'
  rw [bal_inj ht h1, bal_inj ht' h1', bal_inj h2 h2']

/-- What the unlinking leaves: the focus is the subtree that took the place of the node removed (`cy` is
that node's colour), the element is gone from the order, and apart from the removed node the colours are
those of before. -/
theorem splice_at {h : Heap} {t : Tree} {k : Ctx} {L R : T} {z vz : Nat} {cz : Bool} {vn : Node} {fuel : Nat}
    (w : At t.nil h t.root k (.node cz L z vz R)) (hn : h t.nil = some vn) (hf : R.size < fuel) :
    ∃ h' r' nn kx Y cy d a v, removeSplice fuel h t z = some (h', { t with root := r' }, Y.root t.nil, cy) ∧
      At t.nil h' r' kx Y ∧ (∃ nz, h' z = some nz ∧ nz.value = vz) ∧ h' t.nil = some nn ∧ nn.red = vn.red ∧ nn.value = vn.value ∧
      (plug kx Y).io = Ctx.pre k ++ (L.io ++ (R.io ++ Ctx.post k)) ∧
      (noRR (plug k (.node cz L z vz R)) → noRR (plug kx (br d cy .nil a v Y))) ∧
      (oneRed (plug k (.node cz L z vz R)) → oneRed (plug kx (br d cy .nil a v Y))) ∧
      (plug kx (br d cy .nil a v Y)).col = (plug k (.node cz L z vz R)).col ∧
      (∀ b, Bal b (plug k (.node cz L z vz R)) → Bal b (plug kx (br d cy .nil a v Y))) ∧
      (spareT (.node cz L z vz R) ↔ cy = true ∨ Y.col = true) ∧
      (∀ b, b ≠ t.nil → b ∉ (plug k (.node cz L z vz R)).addrs → h' b = h b) := by
  have hz : h z = some ⟨Ctx.parent t.nil k, L.root t.nil, R.root t.nil, cz, vz⟩ := w.sub.1
  rw [removeSplice_eq, hz]
  simp only [Option.bind_some]
  cases L with
  | nil =>
    obtain ⟨h', r', nn, e1, e2, e3, e4, e5, e6, -, -, e7⟩ := transplant_child (d := .l) (Y := R) w hn
    refine ⟨h', r', nn, k, R, cz, .l, z, vz, ?_, e2, ⟨_, e3.trans hz, rfl⟩, e4, e5, e6, ?_, fun h => h, fun h => h, rfl,
      fun _ h => h, Iff.rfl, ?_⟩
    · rw [if_pos root_nil, e1]; rfl
    · rw [plug_io]; rfl
    · intro b h1 h2
      rw [mem_plug] at h2
      simp only [T.addrs, List.nil_append, List.mem_cons, not_or] at h2
      exact e7 b h2.1.1 h1 h2.1.2 h2.2
  | node cl LL la lv LR =>
    have laN : la ≠ t.nil := w.nin (.inl (by simp [T.addrs]))
    rw [if_neg (by rw [root_node]; exact laN)]
    cases hRe : R with
    | nil =>
      subst hRe
      obtain ⟨h', r', nn, e1, e2, e3, e4, e5, e6, -, -, e7⟩ := transplant_child (d := .r) (Y := .node cl LL la lv LR) w hn
      refine ⟨h', r', nn, k, .node cl LL la lv LR, cz, .r, z, vz, ?_, e2, ⟨_, e3.trans hz, rfl⟩, e4, e5, e6, ?_, fun h => h, fun h => h, rfl,
        fun _ h => h, Iff.rfl, ?_⟩
      · rw [if_pos root_nil, e1]; rfl
      · rw [plug_io]; rfl
      · intro b h1 h2
        rw [mem_plug] at h2
        simp only [T.addrs, List.append_nil, List.mem_cons, not_or] at h2
        exact e7 b h2.1.1 h1 (by simpa [T.addrs] using h2.1.2) h2.2
    | node cr RL ra rv RR =>
      have raN : ra ≠ t.nil := w.nin (.inl (by rw [hRe]; simp [T.addrs]))
      rw [if_neg (by rw [root_node]; exact raN), ← hRe]
      have hRn : R ≠ .nil := by rw [hRe]; simp
      clear hRe
      generalize hL : T.node cl LL la lv LR = L at *
      have hLn : L ≠ .nil := by rw [← hL]; simp
      have wR : At t.nil h t.root (⟨.r, cz, z, vz, L⟩ :: k) R := at_fill.2 w
      obtain ⟨k2, cy, y, vy, Y, m1, m2, m3, m4⟩ := minimum_at hRn hf wR
      have wy : At t.nil h t.root (k2 ++ ⟨.r, cz, z, vz, L⟩ :: k) (.node cy .nil y vy Y) := at_plug.2 (by rw [m3]; exact wR)
      have hy : h y = some ⟨Ctx.parent t.nil (k2 ++ ⟨.r, cz, z, vz, L⟩ :: k), t.nil, Y.root t.nil, cy, vy⟩ := wy.sub.1
      rw [m1, Option.bind_some, hy, Option.bind_some]
      simp only []
      -- all addresses are distinct
      have nd : (t.nil :: z :: y :: (L.addrs ++ ((plug k2 Y).addrs ++ Ctx.addrs k))).Nodup := by
        refine nodup_count (fun a => ?_) w.nd
        rw [← m3]
        simp only [T.addrs, List.count_cons, List.count_append, count_plug, List.count_nil]; omega
      have nds := nd
      simp only [List.nodup_cons, List.mem_cons, List.mem_append, not_or, List.nodup_append] at nds
      obtain ⟨⟨Nz, Ny, NL, NR, Nk⟩, ⟨zy, zL, zR, zk⟩, ⟨yL, yR, yk⟩, ndL, ⟨ndR, ndk, dRk⟩, dL⟩ := nds
      -- the subtree without its least element hangs below `y`, which is detached
      suffices hs : ∃ h1 r1 nn py ly, (if Ctx.parent t.nil (k2 ++ ⟨.r, cz, z, vz, L⟩ :: k) = z
            then (setParent h (Y.root t.nil) y).bind fun h => some (h, t)
            else (transplant h t y (Y.root t.nil)).bind fun (h, t) => (h z).bind fun nz => (setRight h y nz.right).bind fun h =>
              (h y).bind fun ny => (setParent h ny.right y).bind fun h => some (h, t)) = some (h1, ({ t with root := r1 } : Tree)) ∧
          RepC t.nil h1 k z ∧ (∃ rz, h1 z = some ⟨Ctx.parent t.nil k, L.root t.nil, rz, cz, vz⟩) ∧ Rep t.nil h1 z L ∧
          h1 y = some ⟨py, ly, (plug k2 Y).root t.nil, cy, vy⟩ ∧ Rep t.nil h1 y (plug k2 Y) ∧ r1 = Ctx.top k z ∧
          h1 t.nil = some nn ∧ nn.red = vn.red ∧ nn.value = vn.value ∧
          (∀ b, b ≠ t.nil → b ∉ (plug k (.node cz L z vz R)).addrs → h1 b = h b) by
        obtain ⟨h1, r1, nn, py, ly, e1, g1, ⟨rz, g2⟩, g3, g4, g5, g6, g7, g8, g9, g10⟩ := hs
        rw [e1, Option.bind_some]
        obtain ⟨h', r', f1, f2, f3, f4, f5⟩ := splice_tail (t := { t with root := r1 }) g1 g2 g3 hLn g4 g5 g6 nd
        have f2' : At t.nil h' r' (k2 ++ ⟨.r, cz, y, vy, L⟩ :: k) Y :=
          at_plug.2 (at_fill.2 f2)
        have hRio : R.io = (y, vy) :: (plug k2 Y).io := by
          rw [← m3, plug_io, plug_io, pre_left m4]; rfl
        have shape : plug (k2 ++ ⟨.r, cz, y, vy, L⟩ :: k) (.node cy .nil y vy Y) = plug k (.node cz L y vy R) := by
          rw [plug_append, m3]; rfl
        refine ⟨h', r', nn, k2 ++ ⟨.r, cz, y, vy, L⟩ :: k, Y, cy, .l, y, vy, ?_, f2', ⟨_, f3.trans g2, rfl⟩,
          f4.trans g7, g8, g9, ?_, ?_, ?_, ?_, ?_, ?_, ?_⟩
        · simp only [f1, Option.bind_some]
        · rw [plug_append, plug, plug_io, Frame.fill, br_io]
          simp only [hRio, List.append_assoc, List.cons_append]
        · show _ → noRR (plug (k2 ++ ⟨.r, cz, y, vy, L⟩ :: k) (.node cy .nil y vy Y))
          rw [shape, noRR_plug, noRR_plug]
          exact fun h => h
        · show _ → oneRed (plug (k2 ++ ⟨.r, cz, y, vy, L⟩ :: k) (.node cy .nil y vy Y))
          rw [shape]
          exact oneRed_congr (by simp) rfl (fun h => h)
        · show (plug (k2 ++ ⟨.r, cz, y, vy, L⟩ :: k) (.node cy .nil y vy Y)).col = _
          rw [shape]
          cases k with
          | nil => rfl
          | cons f k => 
            have : ∀ (k : Ctx) (f : Frame) (a b : T), (plug (f :: k) a).col = (plug (f :: k) b).col := by
              intro k
              induction k with
              | nil => intro f a b; simp only [plug, Frame.fill, br_col]
              | cons g k ih => intro f a b; rw [plug, plug]; exact ih g _ _
            exact this k f _ _
        · show ∀ b, _ → Bal b (plug (k2 ++ ⟨.r, cz, y, vy, L⟩ :: k) (.node cy .nil y vy Y))
          rw [shape]
          refine fun b => bal_plug_congr fun m h => ?_
          obtain ⟨q, e, hl, hr⟩ := bal_br.1 (show Bal m (br .l cz L z vz R) from h)
          exact (bal_br (d := .l)).2 ⟨q, e, hl, hr⟩
        · rw [← leastSpare_plug (a := y) (v := vy) m4, m3, ← hL]
          cases R with
          | nil => exact absurd rfl hRn
          | node => exact Iff.rfl
        · intro b h1' h2'
          have hb := h2'
          rw [mem_plug, ← m3] at h2'
          simp only [T.addrs, List.mem_cons, List.mem_append, not_or, mem_plug] at h2'
          rw [f5 b h2'.1.2.2.1.1 h2'.1.2.1 h2'.2]
          exact g10 b h1' hb
      cases hk2 : k2 with
      | nil =>
        subst hk2
        rw [if_pos (by rfl)]
        -- only the sentinel can change here
        have hx : ∃ h1 nn, setParent h (Y.root t.nil) y = some h1 ∧ (∀ b, b ≠ t.nil → h1 b = h b) ∧ h1 t.nil = some nn ∧
            nn.red = vn.red ∧ nn.value = vn.value := by
          cases Y with
          | nil =>
            refine ⟨_, _, setParent_some hn, fun b hb => put_ne hb, put_same, rfl, rfl⟩
          | node c l a v r =>
            have ha := wy.sub.2.2.1
            have haN : a ≠ t.nil := wy.nin (.inl (by simp [T.addrs]))
            refine ⟨_, vn, setParent_some ha, fun b _ => ?_, by rw [root_node, put_ne (Ne.symm haN), hn], rfl, rfl⟩
            by_cases e : b = a
            · subst e; rw [root_node, put_same, ha]
            · rw [root_node, put_ne e]
        obtain ⟨h1, nn, e1, e2, e3, e4, e5⟩ := hx
        have hz1 : z ≠ t.nil := Ne.symm Nz
        refine ⟨h1, t.root, nn, z, t.nil, by rw [e1]; rfl, ?_, ⟨_, by rw [e2 z hz1, hz]⟩, ?_, ?_, ?_, w.root, e3, e4, e5, ?_⟩
        · exact w.ctx.frame fun b hb => e2 b (fun e => Nk (e ▸ hb))
        · exact w.sub.2.1.frame fun b hb => e2 b (fun e => NL (e ▸ hb))
        · rw [e2 y (Ne.symm Ny), hy]; rfl
        · exact wy.sub.2.2.frame fun b hb => e2 b (fun e => NR (e ▸ hb))
        · intro b h1 _; exact e2 b h1
      | cons f k3 =>
        have hfz : f.a ≠ z := by
          intro e
          apply zR
          rw [hk2, mem_plug, ← e]
          exact .inr (by simp [Ctx.addrs])
        rw [if_neg (by rw [parent_append_cons]; exact hfz), ← hk2]
        obtain ⟨h1, r1, nn, e1, e2, e3, e4, e5, e6, -, -, e7⟩ := transplant_child (d := .l) (Y := Y) wy hn
        have w1 : At t.nil h1 r1 (⟨.r, cz, z, vz, L⟩ :: k) (plug k2 Y) := at_plug.1 e2
        have hz1 : h1 z = some ⟨Ctx.parent t.nil k, L.root t.nil, (plug k2 Y).root t.nil, cz, vz⟩ := w1.up
        have hmem : (plug k2 Y).root t.nil ∈ (plug k2 Y).addrs := by rw [hk2]; exact root_plug
        generalize hq : (plug k2 Y).root t.nil = q at hmem hz1
        have qy : q ≠ y := fun e => yR (e ▸ hmem)
        have qz : q ≠ z := fun e => zR (e ▸ hmem)
        have qN : q ≠ t.nil := fun e => NR (e ▸ hmem)
        have hy1 : h1 y = some ⟨Ctx.parent t.nil (k2 ++ ⟨.r, cz, z, vz, L⟩ :: k), t.nil, Y.root t.nil, cy, vy⟩ := by rw [e3, hy]
        obtain ⟨nq, hnq⟩ : ∃ nq, h1 q = some nq := by
          have := w1.sub
          cases hp : plug k2 Y with
          | nil => rw [hp] at hmem; cases hmem
          | node c l a v r =>
            rw [hp] at this hq
            rw [← hq]; exact ⟨_, this.1⟩
        have s1 : setRight h1 y q = some (put h1 y ⟨Ctx.parent t.nil (k2 ++ ⟨.r, cz, z, vz, L⟩ :: k), t.nil, q, cy, vy⟩) := by
          simp [setRight, hy1]
        have hnq' : put h1 y ⟨Ctx.parent t.nil (k2 ++ ⟨.r, cz, z, vz, L⟩ :: k), t.nil, q, cy, vy⟩ q = some nq := by rw [put_ne qy, hnq]
        have keep : ∀ b, b ≠ y → b ≠ q → put (put h1 y ⟨Ctx.parent t.nil (k2 ++ ⟨.r, cz, z, vz, L⟩ :: k), t.nil, q, cy, vy⟩) q
            { nq with parent := y } b = h1 b := by
          intro b h1 h2; rw [put_ne h2, put_ne h1]
        refine ⟨put (put h1 y ⟨Ctx.parent t.nil (k2 ++ ⟨.r, cz, z, vz, L⟩ :: k), t.nil, q, cy, vy⟩) q { nq with parent := y },
          r1, nn, _, t.nil, ?_, ?_, ⟨_, by rw [keep z zy (Ne.symm qz), hz1]⟩, ?_, by rw [put_ne (Ne.symm qy), put_same], ?_, ?_, ?_, e5, e6, ?_⟩
        · simp only [e1, Option.bind_some, hz1, s1, put_same, setParent_some hnq']
        · refine w1.ctx.2.2.frame fun b hb => keep b (fun e => yk (e ▸ hb)) (fun e => dRk q hmem b hb e.symm)
        · refine w1.ctx.2.1.frame fun b hb => keep b (fun e => yL (e ▸ hb)) (fun e => dL b hb q (.inl hmem) e)
        · refine w1.sub.reparent ndR fun b hb => ?_
          have hby : b ≠ y := fun e => yR (e ▸ hb)
          rw [hq]
          split
          · next e => rw [e, put_same, hnq]; rfl
          · next e => exact keep b hby e
        · exact w1.root
        · rw [keep _ Ny (Ne.symm qN), e4]
        · intro b h1' h2'
          rw [mem_plug, ← m3] at h2'
          simp only [T.addrs, List.mem_cons, List.mem_append, List.nil_append, not_or, mem_plug] at h2'
          obtain ⟨⟨hbz, hbL, ⟨hby, hbY⟩, hbk2⟩, hbk⟩ := h2'
          rw [keep b hby ?_]
          · refine e7 b hby h1' hbY ?_
            have : ∀ {k k' : Ctx} {b : Nat}, b ∈ Ctx.addrs (k ++ k') ↔ b ∈ Ctx.addrs k ∨ b ∈ Ctx.addrs k' := by
              intro k k' b
              induction k with
              | nil => simp [Ctx.addrs]
              | cons f k ih => simp [Ctx.addrs, ih, or_assoc]
            rw [this]
            simp only [Ctx.addrs, List.mem_cons, List.mem_append, not_or]
            exact ⟨hbk2, hbz, hbL, hbk⟩
          · intro e
            rw [← e, mem_plug] at hmem
            exact hmem.elim hbY hbk2

/-- Removal from a tree in which an only child is red: the element is gone, the rest keeps its order, the
structure is fit for further operations. The fix-up loop is not entered. -/
theorem removeNode_holds {h : Heap} {t : Tree} {X : T} {k : Ctx} {L R : T} {z vz : Nat} {cz : Bool} (w : Holds h t X)
    (fit : Fit X) (hX : X = plug k (.node cz L z vz R)) (hb : oneRed X) :
    ∃ h' r' X' nz, removeNode (t.count + 2) h t z = some (h', { t with root := r', count := t.count - 1 }) ∧
      Holds h' { t with root := r', count := t.count - 1 } X' ∧ Fit X' ∧
      X'.io = Ctx.pre k ++ (L.io ++ (R.io ++ Ctx.post k)) ∧ h' z = some nz ∧ nz.value = vz ∧ z ∉ X'.addrs ∧
      (∃ n, h' t.nil = some (nilNode t.nil n)) ∧
      (∀ b, Bal b X → (spareT (.node cz L z vz R) → Bal b X') ∧
        (¬ spareT (.node cz L z vz R) → X'.size ≠ 0 → ∀ b', ¬ Bal b' X')) ∧
      (∀ u, u ≠ t.nil → u ∉ X.addrs → h' u = h u) := by
  obtain ⟨wX, ⟨vn, hn, hnr0⟩, hcount⟩ := w
  have wk : At t.nil h t.root k (.node cz L z vz R) := by
    rw [hX] at wX
    have := at_plug.2 wX
    rwa [List.append_nil] at this
  have hXio : X.io = Ctx.pre k ++ ((L.io ++ (z, vz) :: R.io) ++ Ctx.post k) := by rw [hX, plug_io]; rfl
  have hsz : X.size = (Ctx.pre k).length + (L.size + R.size + 1 + (Ctx.post k).length) := by
    rw [← io_length, hXio]; simp [io_length]; omega
  obtain ⟨h1, r1, nn, kx, Y, cy, d, a, v, e1, w1, ⟨nz, hz1, hzv⟩, hn1, hnr, hnv, hio, hrr, hbal, hcol, hblack, hspare, hfr⟩ :=
    splice_at (fuel := t.count + 2) wk hn (by omega)
  have hrr' := hrr (by rw [← hX]; exact fit.rr)
  have hbal' := hbal (by rw [← hX]; exact hb)
  have hcol' : (plug kx (br d cy .nil a v Y)).col = false := by rw [hcol, ← hX]; exact fit.black
  obtain ⟨q1, q2, q3⟩ := noRR_plug.1 hrr'
  rw [noRR_br] at q2
  rw [br_col] at q3
  have hY : cy = true ∨ Y = .nil ∨ Y.col = true := by
    cases cy with
    | true => exact .inl rfl
    | false =>
      exact .inr ((oneRed_br.1 (oneRed_sub hbal')).1 rfl)
  have kb : kBlack kx := kBlack_plug hcol'
  have hXmem : ∀ u, u ∉ X.addrs → u ∉ Y.addrs ∧ u ∉ Ctx.addrs kx := by
    intro u hu
    rw [← not_or, ← mem_plug, mem_addrs_io, hio]
    rw [mem_addrs_io, hXio] at hu
    simp only [List.map_append, List.map_cons, List.mem_append, List.mem_cons, not_or] at hu ⊢
    exact ⟨hu.1, hu.2.1.1, hu.2.1.2.2, hu.2.2⟩
  have hzX : z ∈ X.addrs := by rw [hX, mem_plug]; simp [T.addrs]
  have zN : z ≠ t.nil := wX.nin (.inl hzX)
  have hzkx : z ∉ Y.addrs ∧ z ∉ Ctx.addrs kx := by
    rw [← not_or, ← mem_plug, mem_addrs_io, hio]
    have nd := wk.nd
    have c1 : (plug k (.node cz L z vz R)).addrs.Nodup := by
      refine nodup_count (fun a => count_plug.trans ?_) (List.nodup_cons.1 nd).2
      rw [List.count_append]
    have c2 := List.nodup_iff_count.1 c1 z
    rw [count_plug] at c2
    simp only [T.addrs, List.count_cons, List.count_append, beq_self_eq_true, if_true] at c2
    have z1 : z ∉ L.addrs := fun hh => by have := List.count_pos_iff.2 hh; omega
    have z2 : z ∉ R.addrs := fun hh => by have := List.count_pos_iff.2 hh; omega
    have z3 : z ∉ Ctx.addrs k := fun hh => by have := List.count_pos_iff.2 hh; omega
    have z4 : z ∉ (plug k .nil).addrs := by rw [mem_plug]; simp [T.addrs, z3]
    rw [mem_addrs_io, plug_io] at z4
    simp only [T.io, List.nil_append, List.map_append, List.mem_append, not_or] at z4
    rw [mem_addrs_io] at z1 z2
    simp only [List.map_append, List.mem_append, not_or]
    exact ⟨z4.1, z1, z2, z4.2⟩
  -- the fix-up, if it runs, only paints
  suffices hs : ∃ h2 nn2 Y2, (if cy = false then deleteFixup (t.count + 2) h1 { t with root := r1 } (Y.root t.nil) else some (h1, { t with root := r1 })) =
      some (h2, { t with root := r1 }) ∧ At t.nil h2 r1 kx Y2 ∧ Y2.io = Y.io ∧ noRR (plug kx Y2) ∧ (plug kx Y2).col = false ∧
      h2 t.nil = some nn2 ∧ nn2.value = nn.value ∧
      (∀ b, Bal b (br d cy .nil a v Y) → ((cy = true ∨ Y.col = true) → Bal b Y2) ∧ (¬ (cy = true ∨ Y.col = true) → Y2 = .nil ∧ b = 1)) ∧
      (∀ u, u ≠ t.nil → u ∉ Y.addrs → u ∉ Ctx.addrs kx → h2 u = h1 u) by
    obtain ⟨h2, nn2, Y2, e2, w2, i2, rr2, c2, hn2, hv2, b2, f2⟩ := hs
    have w3 : At t.nil h2 r1 [] (plug kx Y2) := at_plug.1 (by rw [List.append_nil]; exact w2)
    obtain ⟨rn, wn⟩ := resetNil_holds (t := { t with root := r1 }) w3 hn2
    have io2 : (plug kx Y2).io = Ctx.pre k ++ (L.io ++ (R.io ++ Ctx.post k)) := by rw [plug_io_congr i2, hio]
    refine ⟨_, r1, plug kx Y2, nz, ?_, ⟨wn, ⟨_, put_same, rfl⟩, ?_⟩, ⟨rr2, c2⟩, io2, ?_, hzv, ?_, ⟨_, put_same⟩, ?_, ?_⟩
    · unfold removeNode
      simp only [e1, Option.bind_eq_bind, Option.bind_some, e2, rn]
    · show t.count - 1 = _
      rw [← io_length, io2, hcount, hsz]; simp [io_length]; omega
    · rw [put_ne zN, f2 z zN hzkx.1 hzkx.2, hz1]
    · rw [mem_addrs_io, plug_io_congr i2, ← mem_addrs_io, mem_plug, not_or]; exact hzkx
    · intro b hb
      have hb' := hblack b (by rw [← hX]; exact hb)
      obtain ⟨m, hm, hk⟩ := bal_plug hb'
      rw [hspare]
      refine ⟨fun h => hk _ ((b2 m hm).1 h), fun h hs b' hb2 => ?_⟩
      obtain ⟨rfl, rfl⟩ := (b2 m hm).2 h
      cases kx with
      | nil => exact hs rfl
      | cons f kx =>
        have := bal_plug_other hb' hm hb2 (show Bal 0 .nil from rfl)
        cases this
    · intro u h1' h2'
      obtain ⟨a1, a2⟩ := hXmem u h2'
      rw [put_ne h1', f2 u h1' a1 a2]
      exact hfr u h1' (by rw [← hX]; exact h2')
  have colk : ∀ {Z : T}, Z.col = false → (plug kx Z).col = false := by
    intro Z hZ
    cases kx with
    | nil => exact hZ
    | cons f kx =>
      have : ∀ (k : Ctx) (f : Frame) (a b : T), (plug (f :: k) a).col = (plug (f :: k) b).col := by
        intro k
        induction k with
        | nil => intro f a b; simp only [plug, Frame.fill, br_col]
        | cons g k ih => intro f a b; rw [plug, plug]; exact ih g _ _
      rw [this kx f _ (br d cy .nil a v Y)]; exact hcol'
  cases cy with
  | true =>
    refine ⟨h1, nn, Y, by simp, w1, rfl, noRR_plug.2 ⟨q1, q2.2.2, ?_⟩, colk (q2.1 rfl).2, hn1, rfl, ?_, fun _ _ _ _ => rfl⟩
    · exact fun _ => (q2.1 rfl).2
    · intro b hb
      obtain ⟨m, e, -, hm⟩ := bal_br.1 hb
      exact ⟨fun _ => by rw [if_pos rfl] at e; rw [e]; exact hm, fun h => absurd (.inl rfl) h⟩
  | false =>
    rw [if_pos rfl]
    cases Y with
    | nil =>
      have hset : setRed h1 t.nil false = some (put h1 t.nil { nn with red := false }) := by simp [setRed, hn1]
      refine ⟨put h1 t.nil { nn with red := false }, _, .nil, ?_, w1.frame fun u hu => put_ne (w1.nin hu), rfl,
        noRR_plug.2 ⟨q1, trivial, fun _ => rfl⟩, colk rfl, put_same, rfl, ?_, fun u h1 _ _ => put_ne h1⟩
      · simp [deleteFixup, deleteFixupLoop, T.root, hn1, hset]
      · intro b hb
        obtain ⟨m, e, hm, -⟩ := bal_br.1 hb
        have hm : m = 0 := hm
        refine ⟨fun h => by simp [T.col] at h, fun _ => ⟨rfl, ?_⟩⟩
        rw [e, hm]; rfl
    | node cY YL y vy YR =>
      have hc : cY = true := by
        rcases hY with h | h | h
        · cases h
        · cases h
        · exact h
      subst hc
      obtain ⟨h2, p2, w2, o2⟩ := setRed_at (d := .l) (c' := false) w1
      have hy : h1 y = some ⟨Ctx.parent t.nil kx, YL.root t.nil, YR.root t.nil, true, vy⟩ := w1.sub.1
      have yN : t.nil ≠ y := Ne.symm (w1.nin (.inl (by simp [T.addrs])))
      refine ⟨h2, nn, .node false YL y vy YR, ?_, w2, rfl, noRR_plug.2 ⟨q1, ⟨(by intro h; cases h), q2.2.2.2⟩, fun _ => rfl⟩, colk rfl, ?_, rfl, ?_, ?_⟩
      · simp [deleteFixup, deleteFixupLoop, root_node, hy, p2]
      · rw [o2 t.nil (by simpa using yN), hn1]
      · intro b hb
        obtain ⟨m, e, -, hm⟩ := bal_br.1 hb
        refine ⟨fun _ => ?_, fun h => absurd (.inr rfl) h⟩
        rw [if_neg (by simp)] at e
        exact ⟨m, e, hm.1, hm.2⟩
      · intro u _ h2 _
        exact o2 u (by simp [T.addrs] at h2 ⊢; exact h2.1)

end Rcpr.RB
