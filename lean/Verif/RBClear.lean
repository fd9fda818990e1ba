import Verif.RBOrder

/-! Releasing the nodes of a tree. -/
namespace Rcpr.RB

open Rcpr

theorem io_nodup : ∀ {t : T}, t.addrs.Nodup → (t.io.map Prod.fst).Nodup
  | .nil, _ => by simp [T.io]
  | .node c l a v r, h => by
    refine (List.perm_iff_count.2 ?_).nodup_iff.1 h
    intro b
    have : ∀ t : T, t.addrs.count b = (t.io.map Prod.fst).count b := by
      intro t
      induction t with
      | nil => rfl
      | node c l a v r ih1 ih2 => simp [T.addrs, T.io, List.count_append, List.count_cons, ih1, ih2]; omega
    exact this _

/-- One node. -/
theorem nodeRelease_at {e : Env} {h : Heap} {log : List Nat} {a : Nat} {n : Node} (hn : h a = some n) (hv : n.value ≠ 0) :
    ∃ st h', nodeRelease e h log a = some (st, h', log ++ [n.value]) ∧ (∀ b, b ≠ a → h' b = h b) ∧
      (st = SUCCESS → e.release n.value = SUCCESS ∧ e.reclaim a = SUCCESS) ∧
      (st ≠ SUCCESS → st = e.release n.value ∨ st = e.reclaim a) ∧
      (h' a = none ↔ e.release n.value = SUCCESS ∧ e.reclaim a = SUCCESS) ∧
      st = (if e.release n.value ≠ SUCCESS then e.release n.value else e.reclaim a) := by
  unfold nodeRelease
  simp only [hn, Option.bind_eq_bind, Option.bind_some, hv, ne_eq, not_false_eq_true, if_true]
  by_cases h1 : e.release n.value = SUCCESS
  · by_cases h2 : e.reclaim a = SUCCESS
    · refine ⟨SUCCESS, _, by simp only [h1, h2, not_true_eq_false, if_false]; rfl, ?_, fun _ => ⟨h1, h2⟩, fun h => absurd rfl h, ?_, by simp [h1, h2]⟩
      · intro b hb; simp [hb, put]
      · simp [h1, h2]
    · refine ⟨e.reclaim a, _, by simp only [h1, h2, not_true_eq_false, not_false_eq_true, if_true, if_false]; rfl, ?_, fun h => absurd h h2, fun _ => .inr rfl, ?_, by simp [h1]⟩
      · intro b hb; simp [hb, put]
      · simp [put, h2]
  · refine ⟨e.release n.value, _, by simp only [h1, not_false_eq_true, if_true]; rfl, ?_, fun h => absurd h h1, fun _ => .inl rfl, ?_, by simp [h1]⟩
    · intro b hb; simp [hb, put]
    · simp [put, h1]

/-- A subtree: every value is released once, in some order; the status is a failure iff something failed;
exactly the nodes for which all went well are freed. -/
theorem deleteNodes_rep {e : Env} {N : Nat} : ∀ {t : T} {n : Nat} {h : Heap} {log : List Nat} {p : Nat}, t ≠ .nil → t.size < n →
    Rep N h p t → (N :: t.addrs).Nodup → (∀ x ∈ t.io, x.2 ≠ 0) →
    ∃ st h' vals, deleteNodes e N n h log (t.root N) = some (st, h', log ++ vals) ∧ vals.Perm (t.io.map Prod.snd) ∧
      (∀ b, b ∉ t.addrs → h' b = h b) ∧
      (st = SUCCESS → ∀ x ∈ t.io, e.release x.2 = SUCCESS ∧ e.reclaim x.1 = SUCCESS) ∧
      (st ≠ SUCCESS → ∃ x ∈ t.io, st = e.release x.2 ∨ st = e.reclaim x.1) ∧
      (∀ x ∈ t.io, h' x.1 = none ↔ e.release x.2 = SUCCESS ∧ e.reclaim x.1 = SUCCESS)
  | .nil, _, _, _, _, h, _, _, _, _ => absurd rfl h
  | .node c l a v r, n + 1, h, log, p, _, hs, w, nd, hv => by
    obtain ⟨ha, hl, hr⟩ := w
    simp only [T.size] at hs
    simp only [T.addrs, List.nodup_cons, List.mem_cons, List.mem_append, not_or, List.nodup_append] at nd
    obtain ⟨⟨Na, Nl, Nr⟩, ⟨al, ar⟩, ndl, ndr, dlr⟩ := nd
    have hvl : ∀ x ∈ l.io, x.2 ≠ 0 := fun x hx => hv x (by simp [T.io, hx])
    have hvr : ∀ x ∈ r.io, x.2 ≠ 0 := fun x hx => hv x (by simp [T.io, hx])
    have hva : v ≠ 0 := hv (a, v) (by simp [T.io])
    -- the left side
    have L : ∃ sl h1 vl, (if N ≠ l.root N then deleteNodes e N n h log (l.root N) else some (SUCCESS, h, log)) = some (sl, h1, log ++ vl) ∧
        vl.Perm (l.io.map Prod.snd) ∧ (∀ b, b ∉ l.addrs → h1 b = h b) ∧
        (sl = SUCCESS → ∀ x ∈ l.io, e.release x.2 = SUCCESS ∧ e.reclaim x.1 = SUCCESS) ∧
        (sl ≠ SUCCESS → ∃ x ∈ l.io, sl = e.release x.2 ∨ sl = e.reclaim x.1) ∧
        (∀ x ∈ l.io, h1 x.1 = none ↔ e.release x.2 = SUCCESS ∧ e.reclaim x.1 = SUCCESS) := by
      by_cases hln : l = .nil
      · subst hln
        refine ⟨SUCCESS, h, [], by simp [T.root], by simp [T.io], fun _ _ => rfl, by simp [T.io], fun h => absurd rfl h, by simp [T.io]⟩
      · have : N ≠ l.root N := by
          rcases mem_root (N := N) (t := l) with h | h
          · cases l with
            | nil => exact absurd rfl hln
            | node c l a v r => intro e; exact Nl (by rw [e]; simp [T.addrs, T.root])
          · exact fun e => Nl (e ▸ h)
        rw [if_pos this]
        exact deleteNodes_rep hln (by omega) hl (List.nodup_cons.2 ⟨Nl, ndl⟩) hvl
    obtain ⟨sl, h1, vl, e1, p1, f1, s1, t1, n1⟩ := L
    have ha1 : h1 a = some ⟨p, l.root N, r.root N, c, v⟩ := by rw [f1 a al, ha]
    have hr1 : Rep N h1 a r := hr.frame fun b hb => f1 b fun hbl => dlr b hbl b hb rfl
    have R : ∃ sr h2 vr, (if N ≠ r.root N then deleteNodes e N n h1 (log ++ vl) (r.root N) else some (SUCCESS, h1, log ++ vl)) =
          some (sr, h2, (log ++ vl) ++ vr) ∧
        vr.Perm (r.io.map Prod.snd) ∧ (∀ b, b ∉ r.addrs → h2 b = h1 b) ∧
        (sr = SUCCESS → ∀ x ∈ r.io, e.release x.2 = SUCCESS ∧ e.reclaim x.1 = SUCCESS) ∧
        (sr ≠ SUCCESS → ∃ x ∈ r.io, sr = e.release x.2 ∨ sr = e.reclaim x.1) ∧
        (∀ x ∈ r.io, h2 x.1 = none ↔ e.release x.2 = SUCCESS ∧ e.reclaim x.1 = SUCCESS) := by
      by_cases hrn : r = .nil
      · subst hrn
        refine ⟨SUCCESS, h1, [], by simp [T.root], by simp [T.io], fun _ _ => rfl, by simp [T.io], fun h => absurd rfl h, by simp [T.io]⟩
      · have : N ≠ r.root N := by
          rcases mem_root (N := N) (t := r) with h | h
          · cases r with
            | nil => exact absurd rfl hrn
            | node c l a v r => intro e; exact Nr (by rw [e]; simp [T.addrs, T.root])
          · exact fun e => Nr (e ▸ h)
        rw [if_pos this]
        exact deleteNodes_rep hrn (by omega) hr1 (List.nodup_cons.2 ⟨Nr, ndr⟩) hvr
    obtain ⟨sr, h2, vr, e2, p2, f2, s2, t2, n2⟩ := R
    have ha2 : h2 a = some ⟨p, l.root N, r.root N, c, v⟩ := by rw [f2 a ar, ha1]
    obtain ⟨sn, h3, e3, f3, s3, t3, n3, -⟩ := nodeRelease_at (e := e) (log := log ++ vl ++ vr) ha2 hva
    refine ⟨if sl ≠ SUCCESS then sl else if sr ≠ SUCCESS then sr else sn, h3, vl ++ vr ++ [v], ?_, ?_, ?_, ?_, ?_, ?_⟩
    · rw [deleteNodes]
      simp only [root_node, ha, Option.bind_eq_bind, Option.bind_some, e1, ha1, e2, e3]
      simp
    · simp only [T.io, List.map_append, List.map_cons, List.append_assoc]
      refine (p1.append ?_)
      refine List.Perm.trans (List.Perm.append_right _ p2) ?_
      exact List.perm_append_comm
    · intro b hb
      simp only [T.addrs, List.mem_cons, List.mem_append, not_or] at hb
      rw [f3 b hb.1, f2 b hb.2.2, f1 b hb.2.1]
    · intro hst x hx
      have hsl : sl = SUCCESS := Classical.byContradiction fun hn => by rw [if_pos hn] at hst; exact hn hst
      rw [if_neg (by simp [hsl])] at hst
      have hsr : sr = SUCCESS := Classical.byContradiction fun hn => by rw [if_pos hn] at hst; exact hn hst
      rw [if_neg (by simp [hsr])] at hst
      simp only [T.io, List.mem_append, List.mem_cons] at hx
      rcases hx with hx | rfl | hx
      · exact s1 hsl x hx
      · exact s3 hst
      · exact s2 hsr x hx
    · intro hst
      by_cases hsl : sl = SUCCESS
      · rw [if_neg (by simp [hsl])] at hst ⊢
        by_cases hsr : sr = SUCCESS
        · rw [if_neg (by simp [hsr])] at hst ⊢
          exact ⟨(a, v), by simp [T.io], t3 hst⟩
        · rw [if_pos hsr]
          obtain ⟨x, hx, h⟩ := t2 hsr
          exact ⟨x, by simp [T.io, hx], h⟩
      · rw [if_pos hsl]
        obtain ⟨x, hx, h⟩ := t1 hsl
        exact ⟨x, by simp [T.io, hx], h⟩
    · intro x hx
      simp only [T.io, List.mem_append, List.mem_cons] at hx
      rcases hx with hx | rfl | hx
      · have hm : x.1 ∈ l.addrs := mem_addrs_io.2 (List.mem_map_of_mem hx)
        rw [f3 x.1 (fun e => al (e ▸ hm)), f2 x.1 (fun h => dlr _ hm _ h rfl)]
        exact n1 x hx
      · exact n3
      · have hm : x.1 ∈ r.addrs := mem_addrs_io.2 (List.mem_map_of_mem hx)
        rw [f3 x.1 (fun e => ar (e ▸ hm))]
        exact n2 x hx

end Rcpr.RB
