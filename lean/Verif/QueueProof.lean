import Verif.Queue

/-! Refinement proof for queues, on top of the slist refinement. -/
namespace Rcpr.Queue

open Rcpr.SList (Addr Env okEnv upd upd_same upd_ne Out Seq FreshNode FreshList OOM_ne)

/-- Each queue with its list and the list's abstract contents. -/
structure Rep (m : Mem) (s : Spec) (T : List (Addr × Addr × Seq)) : Prop where
  abs : s.queues = T.map (fun t => (t.1, Seq.children t.2.2))
  inv : SList.Inv m.sl ⟨T.map (fun t => t.2), s.released⟩
  keys : (T.map Prod.fst).Nodup
  ptr : ∀ t ∈ T, m.queues t.1 = some t.2.1
  none : ∀ q, q ∉ T.map Prod.fst → m.queues q = none

def QInv (m : Mem) (s : Spec) : Prop := ∃ T, Rep m s T

theorem QInv.empty : QInv Mem.empty Spec.empty :=
  ⟨[], rfl, SList.Inv.empty, by simp, by simp, by simp [Mem.empty]⟩

theorem Rep.split {m A B q cs R T} (h : Rep m ⟨A ++ (q, cs) :: B, R⟩ T) :
    ∃ T1 T2 l xs, T = T1 ++ (q, l, xs) :: T2 ∧ cs = Seq.children xs ∧
      A = T1.map (fun t => (t.1, Seq.children t.2.2)) ∧
      B = T2.map (fun t => (t.1, Seq.children t.2.2)) := by
  have h1 := h.abs
  obtain ⟨T1, T', rfl, h2, h3⟩ := List.map_eq_append_iff.1 h1.symm
  obtain ⟨⟨q', l, xs⟩, T2, rfl, h4, h5⟩ := List.map_eq_cons_iff.1 h3
  simp at h4
  obtain ⟨rfl, h4⟩ := h4
  exact ⟨T1, T2, l, xs, rfl, h4.symm, h2.symm, h5.symm⟩

theorem fresh_node {m : SList.Mem} {s : SList.Spec} (inv : SList.Inv m s) {a : Addr} (h0 : a ≠ 0)
    (h : m.nodes a = none) : FreshNode s.lists a := by
  refine ⟨h0, ?_⟩
  intro l xs hm ha
  obtain ⟨_, n, hn, _⟩ := SList.seg_mem (inv.segs l xs hm) ha
  rw [h] at hn; simp at hn

theorem fresh_list {m : SList.Mem} {s : SList.Spec} (inv : SList.Inv m s) {l : Addr} (h0 : l ≠ 0)
    (h : m.lists l = none) : FreshList s.lists l := by
  refine ⟨h0, ?_⟩
  intro xs hm
  have := inv.hdr l xs hm
  rw [h] at this; simp at this

/-- Changing the contents of one list. -/
theorem Rep.replace {m : Mem} {A B q cs R R' T1 T2 l xs xs'} {sl : SList.Mem}
    (h : Rep m ⟨A ++ (q, cs) :: B, R⟩ (T1 ++ (q, l, xs) :: T2))
    (hA : A = T1.map (fun t => (t.1, Seq.children t.2.2)))
    (hB : B = T2.map (fun t => (t.1, Seq.children t.2.2)))
    (inv : SList.Inv sl ⟨T1.map (fun t => t.2) ++ (l, xs') :: T2.map (fun t => t.2), R'⟩) :
    QInv { m with sl := sl } ⟨A ++ (q, Seq.children xs') :: B, R'⟩ := by
  refine ⟨T1 ++ (q, l, xs') :: T2, ?_, ?_, ?_, ?_, ?_⟩
  · simp [hA, hB]
  · simpa using inv
  · simpa using h.keys
  · intro t ht
    have hp := h.ptr
    simp only [List.mem_append, List.mem_cons] at ht hp
    rcases ht with ht | rfl | ht
    · exact hp t (.inl ht)
    · exact hp (q, l, xs) (.inr (.inl rfl))
    · exact hp t (.inr (.inr ht))
  · intro p hp; exact h.none p (by simpa using hp)

theorem step_refines {m s op o s'} (inv : QInv m s) (hl : Legal m op) (h : SpecStep s op o s') :
    ∃ m', step okEnv m op = some (o, m') ∧ QInv m' s' := by
  obtain ⟨T, rep⟩ := inv
  cases h with
  | @create_fail _ qa la h =>
    cases qa with
    | none => exact ⟨m, rfl, T, rep⟩
    | some q =>
      cases la with
      | some l => simp at h
      | none =>
        refine ⟨{ m with queues := upd (upd m.queues q (some 0)) q none }, ?_, T, rep.abs, rep.inv, rep.keys,
          ?_, ?_⟩
        · simp [step, create, SList.create, OOM_ne, okEnv]
        · intro t ht
          have := rep.ptr t ht
          have hq := (hl.1 q rfl).2
          have : t.1 ≠ q := by rintro h; rw [h, hq] at this; simp at this
          show upd (upd m.queues q _) q _ _ = _
          rw [upd_ne _ _ this, upd_ne _ _ this]; exact rep.ptr t ht
        · intro p hp
          show upd (upd m.queues q _) q _ _ = _
          by_cases hpq : p = q
          · subst hpq; exact upd_same _ _ _
          · rw [upd_ne _ _ hpq, upd_ne _ _ hpq]; exact rep.none p hp
  | @create_ok _ q l =>
    obtain ⟨hq, hll⟩ := hl
    obtain ⟨hq0, hq⟩ := hq q rfl
    obtain ⟨hl0, hl⟩ := hll l rfl
    have hinv := SList.create_refines rep.inv (fresh_list rep.inv hl0 hl)
    have hqT : q ∉ T.map Prod.fst := by
      intro hm
      obtain ⟨t, ht, rfl⟩ := List.mem_map.1 hm
      have := rep.ptr t ht
      rw [hq] at this; simp at this
    refine ⟨{ sl := { m.sl with lists := upd m.sl.lists l (some ⟨0, 0, 0#64⟩) },
              queues := upd (upd m.queues q (some 0)) q (some l) }, ?_, (q, l, []) :: T, ?_, ?_, ?_, ?_, ?_⟩
    · simp [step, create, SList.create]
    · simp [rep.abs, Seq.children]
    · simpa using hinv
    · simp only [List.map_cons, List.nodup_cons]; exact ⟨hqT, rep.keys⟩
    · intro t ht
      show upd (upd m.queues q _) q _ _ = _
      simp only [List.mem_cons] at ht
      rcases ht with rfl | ht
      · exact upd_same _ _ _
      · have : t.1 ≠ q := by rintro h; exact hqT (h ▸ List.mem_map.2 ⟨t, ht, rfl⟩)
        rw [upd_ne _ _ this, upd_ne _ _ this]; exact rep.ptr t ht
    · intro p hp
      simp only [List.map_cons, List.mem_cons, not_or] at hp
      show upd (upd m.queues q _) q _ _ = _
      rw [upd_ne _ _ hp.1, upd_ne _ _ hp.1]; exact rep.none p hp.2
  | append_fail hr =>
    obtain ⟨T1, T2, l, xs, rfl, rfl, rfl, rfl⟩ := rep.split
    have hq := rep.ptr _ (List.mem_append_right _ (List.mem_cons_self ..))
    have hh := rep.inv.hdr l xs (by simp)
    refine ⟨m, ?_, _, rep⟩
    simp only at hq
    simp [step, append, hq, SList.appendTail, SList.nodeCreate, hh, OOM_ne]
  | @append_ok A B q cs R r a hr =>
    obtain ⟨T1, T2, l, xs, rfl, rfl, hA, hB⟩ := rep.split
    have hq := rep.ptr _ (List.mem_append_right _ (List.mem_cons_self ..))
    obtain ⟨ha0, ha⟩ := hl a rfl
    have hinv : SList.Inv m.sl ⟨T1.map (fun t => t.2) ++ (l, xs) :: T2.map (fun t => t.2), R⟩ := by
      simpa using rep.inv
    obtain ⟨sl, h1, h2⟩ := SList.appendTail_refines hinv hr (fresh_node hinv ha0 ha)
    refine ⟨{ m with sl := sl }, ?_, ?_⟩
    · simp only at hq
      simp [step, append, hq, h1]
    · have := rep.replace hA hB h2
      simpa [Seq.children] using this
  | insert_fail hr =>
    obtain ⟨T1, T2, l, xs, rfl, rfl, rfl, rfl⟩ := rep.split
    have hq := rep.ptr _ (List.mem_append_right _ (List.mem_cons_self ..))
    have hh := rep.inv.hdr l xs (by simp)
    refine ⟨m, ?_, _, rep⟩
    simp only at hq
    simp [step, insert, hq, SList.insertHead, SList.nodeCreate, hh, OOM_ne]
  | @insert_ok A B q cs R r a hr =>
    obtain ⟨T1, T2, l, xs, rfl, rfl, hA, hB⟩ := rep.split
    have hq := rep.ptr _ (List.mem_append_right _ (List.mem_cons_self ..))
    obtain ⟨ha0, ha⟩ := hl a rfl
    have hinv : SList.Inv m.sl ⟨T1.map (fun t => t.2) ++ (l, xs) :: T2.map (fun t => t.2), R⟩ := by
      simpa using rep.inv
    obtain ⟨sl, h1, h2⟩ := SList.insertHead_refines hinv hr (fresh_node hinv ha0 ha)
    refine ⟨{ m with sl := sl }, ?_, ?_⟩
    · simp only at hq
      simp [step, insert, hq, h1]
    · have := rep.replace hA hB h2
      simpa [Seq.children] using this
  | @pop_empty A B q R rIn =>
    obtain ⟨T1, T2, l, xs, rfl, h0, hA, hB⟩ := rep.split
    have hxs : xs = [] := by simpa [Seq.children] using h0
    subst hxs
    have hq := rep.ptr _ (List.mem_append_right _ (List.mem_cons_self ..))
    have hh := rep.inv.hdr l [] (by simp)
    refine ⟨m, ?_, _, rep⟩
    simp only at hq
    simp [step, pop, hq, SList.pop, hh, SList.hdrOf, Seq.first]
  | @pop_ok A B q c cs R rIn =>
    obtain ⟨T1, T2, l, xs, rfl, h0, hA, hB⟩ := rep.split
    obtain ⟨⟨n, c'⟩, xs, rfl, hc, hcs⟩ := List.map_eq_cons_iff.1 h0.symm
    simp only at hc; subst hc
    have hq := rep.ptr _ (List.mem_append_right _ (List.mem_cons_self ..))
    have hinv : SList.Inv m.sl ⟨T1.map (fun t => t.2) ++ (l, (n, c') :: xs) :: T2.map (fun t => t.2), R⟩ := by
      simpa using rep.inv
    obtain ⟨sl, h1, h2⟩ := SList.pop_refines (rIn := rIn) hinv
    refine ⟨{ m with sl := sl }, ?_, ?_⟩
    · simp only at hq
      simp [step, pop, hq, h1]
    · rw [← hcs]; exact rep.replace hA hB h2
  | @count_ok s q cs h =>
    rw [rep.abs] at h
    obtain ⟨⟨q', l, xs⟩, ht, he⟩ := List.mem_map.1 h
    simp only [Prod.mk.injEq] at he
    obtain ⟨rfl, rfl⟩ := he
    have hq := rep.ptr _ ht
    have hh := rep.inv.hdr l xs (List.mem_map.2 ⟨_, ht, rfl⟩)
    refine ⟨m, ?_, T, rep⟩
    simp only at hq
    simp [step, count, hq, SList.count, hh, SList.hdrOf, Seq.children]
  | @release_ok A B q cs R f hf =>
    obtain ⟨T1, T2, l, xs, rfl, rfl, hA, hB⟩ := rep.split
    have hq := rep.ptr _ (List.mem_append_right _ (List.mem_cons_self ..))
    have hh := rep.inv.hdr l xs (by simp)
    have hinv : SList.Inv m.sl ⟨T1.map (fun t => t.2) ++ (l, xs) :: T2.map (fun t => t.2), R⟩ := by
      simpa using rep.inv
    obtain ⟨sl, h1, h2⟩ := SList.release_refines hinv (f := f) (by simpa [Seq.children] using hf)
    refine ⟨{ sl := sl, queues := upd m.queues q none }, ?_, T1 ++ T2, ?_, ?_, ?_, ?_, ?_⟩
    · simp only at hq
      simp only [step, release, hq, hh, h1, Option.bind_eq_bind, Option.bind_some]
      simp [okEnv]
    · simp [hA, hB]
    · simpa using h2
    · have := rep.keys
      simp only [List.map_append, List.map_cons, List.nodup_append, List.nodup_cons, List.mem_cons] at this ⊢
      exact ⟨this.1, this.2.1.2, fun a ha b hb => this.2.2 a ha b (.inr hb)⟩
    · intro t ht
      have hk := rep.keys
      simp only [List.map_append, List.map_cons, List.nodup_append, List.nodup_cons, List.mem_cons] at hk
      have hne : t.1 ≠ q := by
        rintro h
        rcases List.mem_append.1 ht with ht | ht
        · exact hk.2.2 t.1 (List.mem_map.2 ⟨t, ht, rfl⟩) q (.inl rfl) h
        · exact hk.2.1.1 (h ▸ List.mem_map.2 ⟨t, ht, rfl⟩)
      show upd m.queues q none t.1 = _
      rw [upd_ne _ _ hne]
      apply rep.ptr
      rcases List.mem_append.1 ht with ht | ht <;> simp [ht]
    · intro p hp
      show upd m.queues q none p = _
      by_cases hpq : p = q
      · subst hpq; exact upd_same _ _ _
      · rw [upd_ne _ _ hpq]; apply rep.none
        simp only [List.map_append, List.map_cons, List.mem_append, List.mem_cons, not_or] at hp ⊢
        exact ⟨hp.1, hpq, hp.2⟩

theorem run_refines {ops : List Op} : ∀ {m s os s'}, QInv m s → LegalRun okEnv m ops →
    SpecRun s ops os s' → ∃ m', run okEnv m ops = some (os, m') ∧ QInv m' s' := by
  induction ops with
  | nil => intro m s os s' inv _ h; cases h; exact ⟨m, rfl, inv⟩
  | cons op ops ih =>
    intro m s os s' inv hl h
    cases h with
    | cons h t =>
      obtain ⟨m1, h1, inv1⟩ := step_refines inv hl.1 h
      obtain ⟨m2, h2, inv2⟩ := ih inv1 (hl.2 _ _ h1) t
      exact ⟨m2, by simp [run, h1, h2], inv2⟩

end Rcpr.Queue
