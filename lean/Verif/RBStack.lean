import Verif.RBMin

/-!
Deletion of the greatest element of a tree that was grown at the right end: the fix-up loop climbs the right edge, finds a
sibling with two black children each time, paints it red, and never rotates.
-/
namespace Rcpr.RB

open Rcpr

section
variable {h : Heap} {t : Tree} {k : Ctx} {X A B : T} {c cw : Bool} {p vp b vb : Nat}

/-- Painting the sibling on the left. -/
theorem paint_left {c' : Bool} {N r : Nat} (w : At N h r (⟨.r, c, p, vp, .node cw A b vb B⟩ :: k) X) :
    ∃ h', setRed h b c' = some h' ∧ At N h' r (⟨.r, c, p, vp, .node c' A b vb B⟩ :: k) X ∧
      Off h h' (plug (⟨.r, c, p, vp, .node cw A b vb B⟩ :: k) X) := by
  have w1 := at_turn.1 w
  obtain ⟨h', e, w2, o⟩ := paint (d := .l) (c' := c') w1
  refine ⟨h', e, ?_, ?_⟩
  · have := at_turn.1 w2
    exact this
  · have : plug (⟨.r, c, p, vp, .node cw A b vb B⟩ :: k) X =
        plug (Frame.turn ⟨.r, c, p, vp, .node cw A b vb B⟩ X :: k) (T.node cw A b vb B) := by
      simp only [plug]
      rw [fill_turn (f := ⟨.r, c, p, vp, .node cw A b vb B⟩)]
    rw [this]; exact o

theorem left_read {N r : Nat} (w : At N h r (⟨.r, c, p, vp, .node cw A b vb B⟩ :: k) X) :
    h b = some ⟨p, A.root N, B.root N, cw, vb⟩ ∧ h p = some ⟨Ctx.parent N k, b, X.root N, c, vp⟩ ∧ Rep N h b A ∧ Rep N h b B :=
  ⟨w.ctx.2.1.1, w.ctx.1, w.ctx.2.1.2.1, w.ctx.2.1.2.2⟩

/-- The body on the right side, when the sibling has two black children. -/
theorem right_both {nn : Node} {l r : T} {a v : Nat} (w : At t.nil h t.root (⟨.r, c, p, vp, .node cw A b vb B⟩ :: k) (.node false l a v r))
    (hn : h t.nil = some nn) (hr : nn.red = false) (hA : A.col = false) (hB : B.col = false) :
    ∃ h', deleteFixupRight h t a = some (h', t, p) ∧ At t.nil h' t.root (⟨.r, c, p, vp, .node true A b vb B⟩ :: k) (.node false l a v r) ∧
      Off h h' (plug (⟨.r, c, p, vp, .node cw A b vb B⟩ :: k) (.node false l a v r)) := by
  obtain ⟨s1, s2, s3, s4⟩ := left_read w
  obtain ⟨na, ha, ha'⟩ := col_read s3 hn hr
  obtain ⟨nb, hb, hb'⟩ := col_read s4 hn hr
  have hx : h a = some ⟨p, l.root t.nil, r.root t.nil, false, v⟩ := w.sub.1
  obtain ⟨h', e, w', o⟩ := paint_left (c' := true) w
  have hx' : h' a = some ⟨p, l.root t.nil, r.root t.nil, false, v⟩ := w'.sub.1
  refine ⟨h', ?_, w', o⟩
  simp only [deleteFixupRight, hx, Option.bind_eq_bind, Option.bind_some, s2, Bool.false_eq_true, if_false, s1, ha, hb]
  rw [if_pos ⟨by rw [hb', hB], by rw [ha', hA]⟩]
  simp [e, hx']

end

/-- The fix-up from `x` ends with a tree holding `L` that meets all conditions; nothing else has changed since `h0`. -/
def MendsR (n : Nat) (h : Heap) (t : Tree) (x : Nat) (h0 : Heap) (L : List (Nat × Nat)) : Prop :=
  ∃ h' r' Y nn', deleteFixup n h t x = some (h', { t with root := r' }) ∧ At t.nil h' r' [] Y ∧ Y.io = L ∧ noRR Y ∧ Y.col = false ∧
    Y.stacked ∧ h' t.nil = some nn' ∧ ∀ u, u ≠ t.nil → u ∉ L.map Prod.fst → h' u = h0 u

/-- The loop from a node on the right edge. -/
theorem fixup_max : ∀ (n : Nat) {k : Ctx} {h : Heap} {t : Tree} {c : Bool} {l r : T} {a v : Nat} {nn : Node},
    k.length ≤ n → At t.nil h t.root k (.node c l a v r) → Deep k →
    h t.nil = some nn → nn.left = t.nil → nn.right = t.nil → nn.red = false →
    (T.node c l a v r).stacked → kRR k → kBlack k → noRR l → noRR r →
    MendsR (n + 2) h t a h (plug k (.node c l a v r)).io
  | n, k, h, t, true, l, r, a, v, nn, _, w, hk, hn, _, _, _, hs, kr, kb, nl, nr => by
    have ha : h a = some ⟨Ctx.parent t.nil k, l.root t.nil, r.root t.nil, true, v⟩ := w.sub.1
    obtain ⟨h', e, w', o⟩ := paint (d := .l) (c' := false) w
    have io : (plug k (.node false l a v r)).io = (plug k (.node true l a v r)).io := plug_io_congr rfl
    refine ⟨h', t.root, plug k (.node false l a v r), nn, ?_, at_plug.1 (by rw [List.append_nil]; exact w'), io,
      noRR_plug.2 ⟨kr, ⟨(fun h => by cases h), nl, nr⟩, fun _ => rfl⟩, col_plug kb fun _ => rfl, hk.stacked hs,
      by rw [o.nil w]; exact hn, fun u _ hu => o u hu⟩
    rw [deleteFixup_eq, ha, Option.bind_some, if_neg (by simp), show setRed h a false = some h' from e, Option.bind_some]
  | n, [], h, t, false, l, r, a, v, nn, _, w, hk, hn, hl, hr, hc, hs, kr, kb, nl, nr => by
    obtain ⟨h', nn', e1, e2, e3, -, e5⟩ := fixup_root (n := n) w hn hl hr hc
    exact ⟨h', t.root, _, nn', e1, e2, rfl, ⟨(fun h => by cases h), nl, nr⟩, rfl, hs, e3, fun u hu _ => e5 u hu⟩
  | 0, f :: k, h, t, false, l, r, a, v, nn, hf, _, _, _, _, _, _, _, _, _, _, _ => absurd hf (by simp)
  | n + 1, ⟨d, c, p, vp, W⟩ :: k, h, t, false, l, r, a, v, nn, hf, w, hk, hn, hl, hr, hc, hs, kr, kb, nl, nr => by
    obtain ⟨rfl, hW, hne⟩ := hk ⟨d, c, p, vp, W⟩ (by simp)
    simp only at hW hne
    have hk' : Deep k := fun f hf => hk f (by simp [hf])
    cases W with
    | nil => exact absurd rfl hne
    | node cw A b vb B =>
      obtain ⟨hA, hB, hAB⟩ := hW
      have haN : a ≠ t.nil := w.nin (.inl (by simp [T.addrs]))
      have hab : a ≠ b := fun h => (w.sib_ne (d := .l)) h.symm
      have ha : h a = some ⟨p, l.root t.nil, r.root t.nil, false, v⟩ := w.sub.1
      obtain ⟨-, hp, -, -⟩ := left_read w
      obtain ⟨k1, ⟨k2, k3, k4⟩, k5⟩ := kr
      obtain ⟨h1, e1, w1, o1⟩ := right_both w hn hc hA.col hB.col
      have io : (plug (⟨.r, c, p, vp, .node cw A b vb B⟩ :: k) (.node false l a v r)).io =
        (plug k (.node c (.node true A b vb B) p vp (.node false l a v r))).io := by rw [plug]; exact plug_io_congr rfl
      obtain ⟨h', r', Y, nn', f1, f2, f3, f4, f5, f6, f7, f8⟩ := fixup_max n (by simp at hf; omega) (at_fill.1 w1) hk'
        (by rw [o1.nil w]; exact hn) hl hr hc ⟨⟨hA, hB, hAB⟩, hs, fun h => by cases h⟩ k5 (kBlack_tail kb)
        ⟨fun _ => ⟨hA.col, hB.col⟩, k3, k4⟩ ⟨(fun h => by cases h), nl, nr⟩
      refine ⟨h', r', Y, nn', ?_, f2, f3.trans io.symm, f4, f5, f6, f7, fun u h1 h2 => (f8 u h1 fun h3 => h2 ?_).trans (o1 u h2)⟩
      rotate_left
      · rw [io]; exact h3
      rw [deleteFixup_eq, ha, Option.bind_some, if_pos ⟨haN, rfl⟩]
      simp only [hp, Option.bind_some, if_neg hab, e1]
      exact f1

/-! ### Removal of the greatest element -/

theorem right_of_post : ∀ {k : Ctx}, Ctx.post k = [] → ∀ f ∈ k, f.d = .r
  | f :: k, h, g, hg => by
    rw [Ctx.post, List.append_eq_nil_iff] at h
    rcases List.mem_cons.1 hg with rfl | hg
    · cases hd : g.d with
      | r => rfl
      | l => rw [hd] at h; simp at h
    · exact right_of_post h.2 g hg

theorem post_right : ∀ {k : Ctx}, (∀ f ∈ k, f.d = .r) → Ctx.post k = []
  | [], _ => rfl
  | f :: k, h => by
    rw [Ctx.post, h f (by simp), post_right fun g hg => h g (by simp [hg])]
    rfl

theorem max_removes {s : St} {X : T} {k : Ctx} {c : Bool} {L : T} {z vz : Nat} (w : Holds s.heap s.tree X) (cl : Clean s) (fit : Fit X)
    (hS : X.stacked) (hX : X = plug k (.node c L z vz .nil)) (hk : ∀ f ∈ k, f.d = .r) : Removes s X k L z vz .nil T.stacked := by
  obtain ⟨wX, -, hcount⟩ := w
  obtain ⟨n0, hn⟩ := cl
  have wk : At s.tree.nil s.heap s.tree.root k (.node c L z vz .nil) := by
    rw [hX] at wX
    have := at_plug.2 wX
    rwa [List.append_nil] at this
  obtain ⟨h1, r1, nn, e1, w1, hz1, hn1, hnr, -, hnl, hnr', hfr⟩ := transplant_child (d := .r) wk hn
  have hzn : s.heap z = some ⟨Ctx.parent s.tree.nil k, L.root s.tree.nil, s.tree.nil, c, vz⟩ := wk.sub.1
  obtain ⟨q1, q2, q3⟩ := noRR_plug.1 (by rw [← hX]; exact fit.rr)
  have kb : kBlack k := kBlack_plug (by rw [← hX]; exact fit.black)
  obtain ⟨hkS, hLs, -, -⟩ := (stacked_plug hk).1 (by rw [← hX]; exact hS)
  have hXio : X.io = Ctx.pre k ++ (L.io ++ [(z, vz)]) := by rw [hX, plug_io, post_right hk]; simp [T.io]
  have hzX : z ∈ X.addrs := by rw [mem_addrs_io, hXio]; simp
  have zN : z ≠ s.tree.nil := wX.nin (.inl hzX)
  have hlen : k.length ≤ s.tree.count := by
    rw [hcount, hX]; have := length_le_plug (k := k) (t := .node c L z vz .nil); omega
  have hnd : (Ctx.pre k ++ (L.io ++ [(z, vz)])).map Prod.fst |>.Nodup := by rw [← hXio]; exact wX.io_nodup
  have hioL : (plug k L).io = Ctx.pre k ++ L.io := by rw [plug_io, post_right hk, List.append_nil]
  suffices hs : ∃ h2 r2 Y nn2, (if c = false then deleteFixup (s.tree.count + 2) h1 { s.tree with root := r1 } (L.root s.tree.nil)
        else some (h1, { s.tree with root := r1 })) = some (h2, { s.tree with root := r2 }) ∧ At s.tree.nil h2 r2 [] Y ∧
      Y.io = Ctx.pre k ++ L.io ∧ noRR Y ∧ Y.col = false ∧ Y.stacked ∧ h2 s.tree.nil = some nn2 ∧
      (∀ u, u ≠ s.tree.nil → u ∉ (Ctx.pre k ++ L.io).map Prod.fst → h2 u = h1 u) by
    obtain ⟨h2, r2, Y, nn2, e2, w2, io2, rr2, c2, R2, hn2, f2⟩ := hs
    obtain ⟨rn, wn⟩ := resetNil_holds (t := { s.tree with root := r2 }) w2 hn2
    have zY : z ∉ (Ctx.pre k ++ L.io).map Prod.fst := by
      rw [← List.append_assoc, List.map_append, List.nodup_append] at hnd
      intro h
      exact hnd.2.2 z h z (by simp) rfl
    refine ⟨_, r2, Y, ⟨Ctx.parent s.tree.nil k, L.root s.tree.nil, s.tree.nil, c, vz⟩, ?_, ⟨wn, ⟨_, put_same, rfl⟩, ?_⟩, ⟨rr2, c2⟩, ?_, ?_, rfl, ?_,
      ⟨_, put_same⟩, R2, ?_⟩
    · unfold removeNode
      by_cases hL : L.root s.tree.nil = s.tree.nil
      · rw [hL] at e1 e2
        simp only [removeSplice_eq, hzn, Option.bind_some, hL, if_true, e1, Option.bind_eq_bind, e2, rn]
      · simp only [removeSplice_eq, hzn, Option.bind_some, if_neg hL, if_true, e1, Option.bind_eq_bind, e2, rn]
    · show s.tree.count - 1 = _
      rw [← io_length, io2, hcount, ← io_length, hXio]; simp
    · rw [io2, post_right hk]; simp [T.io]
    · rw [put_ne zN, f2 z zN zY, hz1, hzn]
    · rw [mem_addrs_io, io2]; exact zY
    · intro u h1' h2'
      rw [mem_addrs_io, hXio, ← List.append_assoc, List.map_append, List.mem_append, not_or] at h2'
      rw [put_ne h1', f2 u h1' h2'.1]
      have : u ∉ (plug k L).addrs := by rw [mem_addrs_io, hioL]; exact h2'.1
      rw [mem_plug, not_or] at this
      exact hfr u (by simpa using h2'.2) h1' this.1 this.2
  have ws : At s.tree.nil h1 r1 [] (plug k L) := at_plug.1 (by rw [List.append_nil]; exact w1)
  cases c with
  | true =>
    refine ⟨h1, r1, plug k L, nn, by simp, ws, hioL, noRR_plug.2 ⟨q1, q2.2.1, fun _ => (q2.1 rfl).1⟩,
      col_plug kb fun _ => (q2.1 rfl).1, ?_, hn1, fun _ _ _ => rfl⟩
    cases k with
    | nil => exact hLs.stacked
    | cons f k =>
      have hk' : ∀ g ∈ k, g.d = .r := fun g hg => hk g (by simp [hg])
      obtain ⟨j1, j2, j3⟩ := hkS
      have hd := deep_of hk' j3 fun h => by cases h.2.2
      obtain ⟨d, c, a, v, S⟩ := f
      obtain rfl : d = .r := hk _ List.mem_cons_self
      refine hd.stacked (t := .node c S a v L) ⟨j1, hLs.stacked, fun e => ?_⟩
      rw [(j2 e).2.1]; trivial
  | false =>
    have hd := deep_of hk hkS fun h => by cases h.1
    cases L with
    | nil =>
      have s2 : setRed h1 s.tree.nil false = some (put h1 s.tree.nil { nn with red := false }) := by simp [setRed, hn1]
      refine ⟨put h1 s.tree.nil { nn with red := false }, r1, plug k .nil, _, ?_, ws.frame fun u hu => put_ne (ws.nin hu), hioL,
        noRR_plug.2 ⟨q1, trivial, fun _ => rfl⟩, col_plug kb fun _ => rfl, hd.stacked trivial, put_same, fun u hu _ => put_ne hu⟩
      rw [if_pos rfl, root_nil, deleteFixup_eq, hn1, Option.bind_some, if_neg (by simp), s2, Option.bind_some]
    | node c l a v r =>
      obtain ⟨h2, r2, Y, nn2, f1, f2, f3, f4, f5, f6, f7, f9⟩ := fixup_max (t := { s.tree with root := r1 }) s.tree.count hlen w1 hd hn1
        (hnl.trans rfl) (hnr'.trans rfl) (hnr.trans rfl) hLs.stacked q1 kb q2.2.1.2.1 q2.2.1.2.2
      rw [hioL] at f3 f9
      exact ⟨h2, r2, Y, nn2, by rw [if_pos rfl]; exact f1, f2, f3, f4, f5, f6, f7, f9⟩

/-! ### Calls -/

section
variable {K : Type} (o : Order K) [Std.TransCmp o.cmp]

/-- One call, when values come and go at the upper end. -/
theorem call_stack {e : Env} {s : St} {X : T} {v : Spec.View} {op : Spec.Op K} {h : List (Spec.Op K × Spec.Out)} (i : Inv o s X v) (cl : Clean s)
    (hS : X.stacked) (hL : Legal s op) (hP : Stack o h s op) :
    ∃ out s' X' v', call o e s op = some (out, s') ∧ Spec.Step o e v op out v' ∧ Inv o s' X' v' ∧ Clean s' ∧ X'.stacked := by
  cases op with
  | insert u a st =>
    obtain ⟨out, s', X', v', e1, e2, e3, -, -, -, e5, -, e6⟩ := insert_ok o i hL.1 hL.2
    refine ⟨(out, 0), s', X', v', by simp [call, e1], e2 e, e3, e5 cl, e6 (fun x hx => ?_) hS⟩
    rw [← i.items, List.mem_map] at hx
    obtain ⟨⟨b, y⟩, hb, rfl⟩ := hx
    obtain ⟨t1, n1, g1, rfl⟩ := in_tree i.holds hb
    exact hP t1 g1
  | find k =>
    obtain ⟨out, e1, e2⟩ := find_ok o (k := k) i
    exact ⟨out, s, X, v, by simp [call, e1], e2 e, i, cl, hS⟩
  | delete k take =>
    have hrem : ∀ kk c L a u R, X = plug kk (.node c L a u R) → Spec.Match o k u → Removes s X kk L a u R T.stacked := by
      intro kk c L a u R hX hm
      have hXio : X.io = (Ctx.pre kk ++ L.io) ++ (a, u) :: (R.io ++ Ctx.post kk) := by rw [hX, plug_io]; simp [T.io]
      have hempty : R.io ++ Ctx.post kk = [] := by
        cases hl : R.io ++ Ctx.post kk with
        | nil => rfl
        | cons x xs =>
          exfalso
          rw [hl] at hXio
          obtain ⟨b, y⟩ := x
          obtain ⟨t1, n1, g1, rfl⟩ := in_tree i.holds (b := b) (u := y) (by rw [hXio]; simp)
          obtain ⟨t2, n2, g2, rfl⟩ := in_tree i.holds (b := a) (u := u) (by rw [hXio]; simp)
          have hs := i.sorted
          rw [← i.items, hXio, List.map_append, Spec.Sorted, List.pairwise_append] at hs
          have h1 := (List.pairwise_cons.1 hs.2.1).1 n1.value (by simp)
          have hba : b ≠ a := by
            rintro rfl
            have hd := i.holds.here.io_nodup
            rw [hXio, List.map_append, List.nodup_append] at hd
            have := (List.nodup_cons.1 hd.2.1).1
            simp at this
          have h2 := hP t2 g2 hm t1 g1 hba
          have h3 : (o.cmp k (o.key n1.value)).isLE := Std.TransCmp.isLE_trans (by rw [hm]; rfl) (Ordering.isLE_iff_ne_gt.2 h1)
          rw [h2] at h3
          cases h3
      rw [List.append_eq_nil_iff] at hempty
      have hRn : R = .nil := by
        cases R with
        | nil => rfl
        | node => simp [T.io] at hempty
      subst hRn
      exact max_removes i.holds cl i.fit hS hX (right_of_post hempty.2)
    obtain ⟨st, val, s', X', v', e1, e2, e3, -, e4, e5⟩ := delete_of o (e := e) (k := k) (take := take) i hrem (fun _ => hS)
    exact ⟨(st, val), s', X', v', by simp [call, e1], e2, e3, e4 cl, e5⟩
  | clear =>
    obtain ⟨out, s', X', v', e1, e2, e3, -, -, e4⟩ := call_ok o (e := e) (op := .clear) i hL (fun h => by cases h)
    refine ⟨out, s', X', v', e1, e2, e3, e4 cl, ?_⟩
    have hit : v'.items = [] := by cases e2; rfl
    have : X' = .nil := by
      have h := e3.items
      rw [hit, List.map_eq_nil_iff] at h
      cases X' with
      | nil => rfl
      | node => simp [T.io] at h
    rw [this]; trivial

end

end Rcpr.RB
