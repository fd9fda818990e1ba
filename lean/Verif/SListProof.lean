import Verif.SListSpec

/-! Every call of the pointer-level list refines the specification. -/
namespace Rcpr.SList

theorem OOM_ne : ERROR_GENERAL_OUT_OF_MEMORY ≠ SUCCESS := by decide

theorem ofNat_succ (n : Nat) : BitVec.ofNat 64 n + 1 = BitVec.ofNat 64 (n + 1) := by
  apply BitVec.eq_of_toNat_eq; simp

theorem ofNat_pred (n : Nat) : BitVec.ofNat 64 (n + 1) - 1 = BitVec.ofNat 64 n := by
  rw [← ofNat_succ]; exact BitVec.add_sub_cancel _ _

theorem insertHead_refines {m A B l xs R r a} (inv : Inv m ⟨A ++ (l, xs) :: B, R⟩) (hr : r ≠ 0)
    (hf : FreshNode (A ++ (l, xs) :: B) a) :
    ∃ m', insertHead m (some a) l r = some (SUCCESS, m') ∧ Inv m' ⟨A ++ (l, (a, r) :: xs) :: B, R⟩ := by
  have hh := inv.hdr l xs (by simp)
  have hfr := inv.fresh hf
  have hax : a ∉ Seq.addrs xs := hf.2 l xs (by simp)
  have hseg := inv.segs l xs (by simp)
  refine ⟨{ m with
    nodes := upd m.nodes a (some ⟨l, hdOr xs 0, r⟩)
    lists := upd m.lists l (some (hdrOf ((a, r) :: xs))) }, ?_, ?_⟩
  · have hupd : ∀ (v w : Option Node), upd (upd m.nodes a v) a w = upd m.nodes a w := by
      intro v w; funext x; by_cases hx : x = a <;> simp [upd, hx]
    have hupl : ∀ (v w : Option Hdr), upd (upd m.lists l v) l w = upd m.lists l w := by
      intro v w; funext x; by_cases hx : x = l <;> simp [upd, hx]
    cases xs with
    | nil =>
      simp [insertHead, nodeCreate, hh, Mem.modNode, Mem.modList, upd_same, hdrOf, Seq.first, Seq.last,
        hupd, hupl, hdOr, SUCCESS]
    | cons p xs =>
      have hp : p.1 ≠ 0 := hseg.1
      simp [insertHead, nodeCreate, hh, Mem.modNode, Mem.modList, upd_same, hdrOf, Seq.first,
        hupd, hupl, hdOr, SUCCESS, hp, last_cons_cons]
      rw [show (1#64) = 1 from rfl]
      congr 1
      rw [← ofNat_succ (xs.length + 1)]
  · refine inv.update rfl ?_ ?_ ?_ ?_ ?_ inv.rel
    · refine ⟨hf.1, hr, by simp [upd_same], seg_congr ?_ hseg⟩
      intro b hb; exact upd_ne _ _ (by rintro rfl; exact hax hb)
    · simp only [addrs_cons, List.nodup_cons]; exact ⟨hax, inv.nodup l xs (by simp)⟩
    · intro b _ hb; exact upd_ne _ _ (by rintro rfl; simp at hb)
    · intro b hb; simp at hb; rcases hb with rfl | hb
      · exact Or.inr hfr
      · exact Or.inl hb
    · intro b hb hb'; simp [hb] at hb'

theorem updn_upd {β} (f : Addr → β) (a : Addr) (v w : β) : upd (upd f a v) a w = upd f a w := by
  funext x; by_cases hx : x = a <;> simp [upd, hx]

theorem appendTail_refines {m A B l xs R r a} (inv : Inv m ⟨A ++ (l, xs) :: B, R⟩) (hr : r ≠ 0)
    (hf : FreshNode (A ++ (l, xs) :: B) a) :
    ∃ m', appendTail m (some a) l r = some (SUCCESS, m') ∧
      Inv m' ⟨A ++ (l, xs ++ [(a, r)]) :: B, R⟩ := by
  have hh := inv.hdr l xs (by simp)
  have hfr := inv.fresh hf
  have hax : a ∉ Seq.addrs xs := hf.2 l xs (by simp)
  have hseg := inv.segs l xs (by simp)
  have hnd := inv.nodup l xs (by simp)
  rcases List.eq_nil_or_concat xs with rfl | ⟨ys, ⟨t, c⟩, rfl⟩
  · refine ⟨{ m with
      nodes := upd m.nodes a (some ⟨l, 0, r⟩)
      lists := upd m.lists l (some (hdrOf [(a, r)])) }, ?_, ?_⟩
    · simp [appendTail, nodeCreate, hh, Mem.modList, upd_same, hdrOf, Seq.first, Seq.last,
        updn_upd, SUCCESS]
    · refine inv.update rfl ?_ ?_ ?_ ?_ ?_ inv.rel
      · exact ⟨hf.1, hr, by simp [upd_same, hdOr], trivial⟩
      · simp
      · intro b _ hb; exact upd_ne _ _ (by rintro rfl; simp at hb)
      · intro b hb; simp at hb; subst hb; exact Or.inr hfr
      · intro b hb; simp at hb
  · rw [List.concat_eq_append] at *
    obtain ⟨hs1, hs2⟩ := (seg_append _ _ _ _ _).1 hseg
    obtain ⟨ht0, hc0, ht, -⟩ := hs2
    have hta : t ≠ a := by rintro rfl; simp at hax
    simp only [addrs_append, addrs_cons, addrs_nil, List.nodup_append, List.mem_append,
      List.mem_singleton] at hnd hax
    have hty : t ∉ Seq.addrs ys := fun h => hnd.2.2 t h t (by simp) rfl
    refine ⟨{ m with
      nodes := upd (upd m.nodes a (some ⟨l, 0, r⟩)) t (some ⟨l, a, c⟩)
      lists := upd m.lists l (some (hdrOf (ys ++ [(t, c)] ++ [(a, r)]))) }, ?_, ?_⟩
    · have h1 : Seq.last (ys ++ [(t, c)]) = t := last_append _ _
      have h2 : Seq.first (ys ++ [(t, c)] ++ [(a, r)]) = Seq.first (ys ++ [(t, c)]) := by
        cases ys <;> simp [Seq.first]
      have h3 : Seq.last (ys ++ [(t, c)] ++ [(a, r)]) = a := last_append _ _
      have h4 := ofNat_succ (ys ++ [(t, c)]).length
      have h5 : (ys ++ [(t, c)] ++ [(a, r)]).length = (ys ++ [(t, c)]).length + 1 := by simp
      simp only [appendTail, nodeCreate, hh, hdrOf, Option.bind_eq_bind, Option.bind_some, ne_eq,
        not_true_eq_false, if_false, h1, ht0, not_false_eq_true, if_true, Mem.modNode, upd_ne _ _ hta, ht,
        Mem.modList, upd_same, updn_upd, h2, h3, h4, h5]
      rfl
    · refine inv.update rfl ?_ ?_ ?_ ?_ ?_ inv.rel
      · rw [List.append_assoc, seg_append]
        refine ⟨seg_congr ?_ hs1, ?_⟩
        · intro b hb
          show upd (upd m.nodes a _) t _ b = _
          rw [upd_ne _ _ (by rintro rfl; exact hty hb), upd_ne _ _ (by rintro rfl; exact hax (.inl hb))]
        · exact ⟨ht0, hc0, by simp [upd_same, hdOr], hf.1, hr,
            by simp [upd_ne _ _ (Ne.symm hta), upd_same, hdOr], trivial⟩
      · simp only [addrs_append, addrs_cons, addrs_nil, List.nodup_append]
        refine ⟨⟨hnd.1, by simp, by simpa using hnd.2.2⟩, by simp, ?_⟩
        intro b hb d hd
        simp only [List.mem_singleton] at hd; subst hd
        rintro rfl; exact hax (by simpa using hb)
      · intro b hb1 hb2
        simp at hb1 hb2
        show upd (upd m.nodes a _) t _ b = _
        rw [upd_ne _ _ hb1.2, upd_ne _ _ hb2.2.2]
      · intro b hb; simp at hb ⊢; rcases hb with hb | rfl | rfl
        · exact .inl (.inl hb)
        · exact .inl (.inr rfl)
        · exact .inr hfr
      · intro b hb hb'; simp at hb hb'; rcases hb with hb | rfl
        · exact absurd hb hb'.1
        · exact absurd rfl hb'.2.1

theorem append_refines {m A B l xs n c ys R r a}
    (inv : Inv m ⟨A ++ (l, xs ++ (n, c) :: ys) :: B, R⟩) (hr : r ≠ 0)
    (hf : FreshNode (A ++ (l, xs ++ (n, c) :: ys) :: B) a) :
    ∃ m', append m (some a) n r = some (SUCCESS, m') ∧
      Inv m' ⟨A ++ (l, xs ++ (n, c) :: (a, r) :: ys) :: B, R⟩ := by
  have hh := inv.hdr l _ (List.mem_append_right _ (List.mem_cons_self ..))
  have hfr := inv.fresh hf
  have hax : a ∉ Seq.addrs (xs ++ (n, c) :: ys) := hf.2 l _ (by simp)
  have hseg := inv.segs l _ (List.mem_append_right _ (List.mem_cons_self ..))
  have hnd := inv.nodup l _ (List.mem_append_right _ (List.mem_cons_self ..))
  obtain ⟨hs1, hn0, hc0, hn, hs2⟩ := (seg_append _ _ _ _ _).1 hseg
  simp only [addrs_append, addrs_cons, List.nodup_append, List.nodup_cons, List.mem_append,
    List.mem_cons, not_or] at hnd hax
  have hna : n ≠ a := fun h => hax.2.1 h.symm
  have han : a ≠ n := hax.2.1
  have hnx : n ∉ Seq.addrs xs := fun h => hnd.2.2 n h n (.inl rfl) rfl
  have hlast : n = Seq.last (xs ++ (n, c) :: ys) ↔ ys = [] := by
    rw [last_append_cons]
    constructor
    · intro h
      cases ys with
      | nil => rfl
      | cons q ys =>
        rw [last_cons_cons] at h
        exact absurd (h ▸ last_mem (by simp)) hnd.2.1.1
    · rintro rfl; simp [Seq.last]
  refine ⟨{ m with
    nodes := upd (upd m.nodes a (some ⟨l, hdOr ys 0, r⟩)) n (some ⟨l, a, c⟩)
    lists := upd m.lists l (some (hdrOf (xs ++ (n, c) :: (a, r) :: ys))) }, ?_, ?_⟩
  · have hfirst : Seq.first (xs ++ (n, c) :: ys) = Seq.first (xs ++ (n, c) :: (a, r) :: ys) := by
      cases xs <;> simp [Seq.first]
    by_cases hy : ys = []
    · subst hy
      simp [append, hn, nodeCreate, hh, Mem.modNode, Mem.modList, upd_same, upd_ne _ _ hna,
        updn_upd, SUCCESS, hdrOf, last_append, hfirst, hdOr]
      congr 3
      · simp [Seq.last]
      · exact ofNat_succ _
    · have hl2 : ¬ n = Seq.last (xs ++ (n, c) :: ys) := fun h => hy (hlast.1 h)
      have hl3 : Seq.last (xs ++ (n, c) :: ys) = Seq.last (xs ++ (n, c) :: (a, r) :: ys) := by
        rw [last_append_cons, last_append_cons, last_cons_cons]
        cases ys with
        | nil => exact absurd rfl hy
        | cons q ys => simp [last_cons_cons]
      simp [append, hn, nodeCreate, hh, Mem.modNode, Mem.modList, upd_same, upd_ne _ _ hna,
        updn_upd, SUCCESS, hdrOf, hl2]
      congr 3 <;> first | exact hfirst | exact hl3 | exact ofNat_succ _
  · refine inv.update rfl ?_ ?_ ?_ ?_ ?_ inv.rel
    · rw [seg_append]
      refine ⟨seg_congr ?_ hs1, hn0, hc0, by simp [upd_same, hdOr], hf.1, hr,
        by simp [upd_ne _ _ han, upd_same], seg_congr ?_ hs2⟩
      · intro b hb
        show upd (upd m.nodes a _) n _ b = _
        rw [upd_ne _ _ (by rintro rfl; exact hnx hb), upd_ne _ _ (by rintro rfl; exact hax.1 hb)]
      · intro b hb
        show upd (upd m.nodes a _) n _ b = _
        rw [upd_ne _ _ (by rintro rfl; exact hnd.2.1.1 hb),
          upd_ne _ _ (by rintro rfl; exact hax.2.2 hb)]
    · simp only [addrs_append, addrs_cons, List.nodup_append, List.nodup_cons, List.mem_cons, not_or]
      refine ⟨hnd.1, ⟨⟨hna, hnd.2.1.1⟩, hax.2.2, hnd.2.1.2⟩, ?_⟩
      intro b hb d hd
      rcases hd with rfl | rfl | hd
      · exact hnd.2.2 b hb _ (.inl rfl)
      · rintro rfl; exact hax.1 hb
      · exact hnd.2.2 b hb d (.inr hd)
    · intro b hb1 hb2
      simp at hb1 hb2
      show upd (upd m.nodes a _) n _ b = _
      rw [upd_ne _ _ hb1.2.1, upd_ne _ _ hb2.2.2.1]
    · intro b hb; simp at hb ⊢; rcases hb with hb | rfl | rfl | hb
      · exact .inl (.inl hb)
      · exact .inl (.inr (.inl rfl))
      · exact .inr hfr
      · exact .inl (.inr (.inr hb))
    · intro b hb hb'; simp at hb hb'; rcases hb with hb | rfl | hb
      · exact absurd hb hb'.1
      · exact absurd rfl hb'.2.1
      · exact absurd hb hb'.2.2.2

/-- In `okEnv`, releasing a node whose child has been taken frees it. -/
theorem finishPop_ok {m : Mem} {t r : Addr} {n : Node} (h : m.nodes t = some n) (hc : n.child = 0) :
    finishPop okEnv m t r = some (SUCCESS, r, { m with nodes := upd m.nodes t none }) := by
  simp [finishPop, nodeRelease, h, hc, okEnv, SUCCESS]

theorem pop_refines {m A B l n c xs R rIn} (inv : Inv m ⟨A ++ (l, (n, c) :: xs) :: B, R⟩) :
    ∃ m', pop okEnv m l rIn = some (SUCCESS, c, m') ∧ Inv m' ⟨A ++ (l, xs) :: B, R⟩ := by
  have hh := inv.hdr l _ (List.mem_append_right _ (List.mem_cons_self ..))
  have hseg := inv.segs l _ (List.mem_append_right _ (List.mem_cons_self ..))
  have hnd := inv.nodup l _ (List.mem_append_right _ (List.mem_cons_self ..))
  obtain ⟨hn0, hc0, hn, hs⟩ := hseg
  simp only [addrs_cons, List.nodup_cons] at hnd
  have hlast : n = Seq.last ((n, c) :: xs) ↔ xs = [] := by
    constructor
    · intro h
      cases xs with
      | nil => rfl
      | cons q ys =>
        rw [last_cons_cons] at h
        exact absurd (h ▸ last_mem (by simp)) hnd.1
    · rintro rfl; simp [Seq.last]
  refine ⟨{ m with
    nodes := upd m.nodes n none
    lists := upd m.lists l (some (hdrOf xs)) }, ?_, ?_⟩
  · have hdec := ofNat_pred xs.length
    by_cases hy : xs = []
    · subst hy
      have h1 : n = Seq.last [(n, c)] := hlast.2 rfl
      have h2 : Seq.first [(n, c)] = n := rfl
      simp [pop, hh, hdrOf, h2, hn0, Mem.modNode, Mem.modList, upd_same, hn, ← h1]
      rw [finishPop_ok (n := ⟨0, 0, 0⟩) (by simp [upd_same]) rfl]
      simp [updn_upd, hdOr, Seq.first, Seq.last]
    · have h1 : ¬ n = Seq.last ((n, c) :: xs) := fun h => hy (hlast.1 h)
      have h2 : Seq.first ((n, c) :: xs) = n := rfl
      simp [pop, hh, hdrOf, h2, hn0, Mem.modNode, Mem.modList, upd_same, hn, h1]
      rw [finishPop_ok (n := ⟨0, 0, 0⟩) (by simp [upd_same]) rfl]
      have h3 : Seq.last ((n, c) :: xs) = Seq.last xs := by
        cases xs with
        | nil => exact absurd rfl hy
        | cons q ys => simp [last_cons_cons]
      have h4 : BitVec.ofNat 64 (xs.length + 1) - 1#64 = BitVec.ofNat 64 xs.length := hdec
      simp only [updn_upd, first_eq, h3, h4]
  · refine inv.update rfl ?_ hnd.2 ?_ ?_ ?_ inv.rel
    · exact seg_congr (fun b hb => upd_ne _ _ (by rintro rfl; exact hnd.1 hb)) hs
    · intro b hb1 hb2; simp at hb1; exact upd_ne _ _ hb1.1
    · intro b hb; exact .inl (by simp [hb])
    · intro b hb hb'; simp at hb; rcases hb with rfl | hb
      · simp [upd_same]
      · exact absurd hb hb'

theorem nextPop_refines {m A B l xs n c n' c' ys R rIn}
    (inv : Inv m ⟨A ++ (l, xs ++ (n, c) :: (n', c') :: ys) :: B, R⟩) :
    ∃ m', nextPop okEnv m n rIn = some (SUCCESS, c', m') ∧
      Inv m' ⟨A ++ (l, xs ++ (n, c) :: ys) :: B, R⟩ := by
  have hh := inv.hdr l _ (List.mem_append_right _ (List.mem_cons_self ..))
  have hseg := inv.segs l _ (List.mem_append_right _ (List.mem_cons_self ..))
  have hnd := inv.nodup l _ (List.mem_append_right _ (List.mem_cons_self ..))
  obtain ⟨hs1, hn0, hc0, hn, hn0', hc0', hn', hs2⟩ := (seg_append _ _ _ _ _).1 hseg
  simp only [addrs_append, addrs_cons, List.nodup_append, List.nodup_cons, List.mem_cons, not_or] at hnd
  have hnn : n ≠ n' := hnd.2.1.1.1
  have hnn' : n' ≠ n := Ne.symm hnn
  have hnx : n ∉ Seq.addrs xs := fun h => hnd.2.2 n h n (.inl rfl) rfl
  have hnx' : n' ∉ Seq.addrs xs := fun h => hnd.2.2 n' h n' (.inr (.inl rfl)) rfl
  have hlast : n' = Seq.last (xs ++ (n, c) :: (n', c') :: ys) ↔ ys = [] := by
    rw [last_append_cons, last_cons_cons]
    constructor
    · intro h
      cases ys with
      | nil => rfl
      | cons q ys =>
        rw [last_cons_cons] at h
        exact absurd (h ▸ last_mem (by simp)) hnd.2.1.2.1
    · rintro rfl; simp [Seq.last]
  refine ⟨{ m with
    nodes := upd (upd m.nodes n (some ⟨l, hdOr ys 0, c⟩)) n' none
    lists := upd m.lists l (some (hdrOf (xs ++ (n, c) :: ys))) }, ?_, ?_⟩
  · have hdec := ofNat_pred (xs ++ (n, c) :: ys).length
    have hlen : (xs ++ (n, c) :: (n', c') :: ys).length = (xs ++ (n, c) :: ys).length + 1 := by simp; omega
    have hfirst : Seq.first (xs ++ (n, c) :: (n', c') :: ys) = Seq.first (xs ++ (n, c) :: ys) := by
      cases xs <;> simp [Seq.first]
    have hupd : ∀ (v w x y : Option Node), upd (upd (upd (upd m.nodes n' v) n w) n' x) n' y
        = upd (upd m.nodes n w) n' y := by
      intro v w x y; funext z
      by_cases h2 : z = n'
      · subst h2; simp [upd]
      · simp [upd, h2]
    have hnext : hdOr ((n', c') :: ys) 0 = n' := rfl
    by_cases hy : ys = []
    · have h1 := hlast.2 hy
      simp only [nextPop, hn, hh, hdrOf, hnext, Option.bind_eq_bind, Option.bind_some, ne_eq, hn0',
        not_false_eq_true, if_true, ← h1, Mem.modNode, Mem.modList, upd_same, hn', upd_ne _ _ hnn,
        upd_ne _ _ hnn']
      rw [finishPop_ok (n := ⟨0, 0, 0⟩) (by simp [upd_same]) rfl]
      simp only [updn_upd, hupd, hfirst, hlen, hdec]
      subst hy
      simp [last_append]
    · have h1 : ¬ n' = Seq.last (xs ++ (n, c) :: (n', c') :: ys) := fun h => hy (hlast.1 h)
      simp only [nextPop, hn, hh, hdrOf, hnext, Option.bind_eq_bind, Option.bind_some, ne_eq, hn0',
        not_false_eq_true, if_true, h1, if_false, Mem.modNode, Mem.modList, upd_same, hn', upd_ne _ _ hnn,
        upd_ne _ _ hnn']
      rw [finishPop_ok (n := ⟨0, 0, 0⟩) (by simp [upd_same]) rfl]
      simp only [hupd, hfirst, hlen, hdec]
      have : Seq.last (xs ++ (n, c) :: (n', c') :: ys) = Seq.last (xs ++ (n, c) :: ys) := by
        rw [last_append_cons, last_append_cons, last_cons_cons]
        cases ys with
        | nil => exact absurd rfl hy
        | cons q ys => simp [last_cons_cons]
      simp [this]
  · refine inv.update rfl ?_ ?_ ?_ ?_ ?_ inv.rel
    · rw [seg_append]
      refine ⟨seg_congr ?_ hs1, hn0, hc0, by simp [upd_ne _ _ hnn, upd_same], seg_congr ?_ hs2⟩
      · intro b hb
        show upd (upd m.nodes n _) n' _ b = _
        rw [upd_ne _ _ (by rintro rfl; exact hnx' hb), upd_ne _ _ (by rintro rfl; exact hnx hb)]
      · intro b hb
        show upd (upd m.nodes n _) n' _ b = _
        rw [upd_ne _ _ (by rintro rfl; exact hnd.2.1.2.1 hb),
          upd_ne _ _ (by rintro rfl; exact hnd.2.1.1.2 hb)]
    · simp only [addrs_append, addrs_cons, List.nodup_append, List.nodup_cons, List.mem_cons]
      refine ⟨hnd.1, ⟨hnd.2.1.1.2, hnd.2.1.2.2⟩, ?_⟩
      intro b hb d hd
      rcases hd with rfl | hd
      · exact hnd.2.2 b hb _ (.inl rfl)
      · exact hnd.2.2 b hb d (.inr (.inr hd))
    · intro b hb1 hb2
      simp at hb1 hb2
      show upd (upd m.nodes n _) n' _ b = _
      rw [upd_ne _ _ hb1.2.2.1, upd_ne _ _ hb1.2.1]
    · intro b hb; simp at hb ⊢; rcases hb with hb | rfl | hb
      · exact .inl (.inl hb)
      · exact .inl (.inr (.inl rfl))
      · exact .inl (.inr (.inr (.inr hb)))
    · intro b hb hb'; simp at hb hb'; rcases hb with hb | rfl | rfl | hb
      · exact absurd hb hb'.1
      · exact absurd rfl hb'.2.1
      · simp [upd_same]
      · exact absurd hb hb'.2.2

theorem childSwap_refines {m A B l xs n c ys R r}
    (inv : Inv m ⟨A ++ (l, xs ++ (n, c) :: ys) :: B, R⟩) (hr : r ≠ 0) :
    ∃ m', childSwap m n r = some (SUCCESS, c, m') ∧ Inv m' ⟨A ++ (l, xs ++ (n, r) :: ys) :: B, R⟩ := by
  have hh := inv.hdr l _ (List.mem_append_right _ (List.mem_cons_self ..))
  have hseg := inv.segs l _ (List.mem_append_right _ (List.mem_cons_self ..))
  have hnd := inv.nodup l _ (List.mem_append_right _ (List.mem_cons_self ..))
  obtain ⟨hs1, hn0, hc0, hn, hs2⟩ := (seg_append _ _ _ _ _).1 hseg
  have hnd' := hnd
  simp only [addrs_append, addrs_cons, List.nodup_append, List.nodup_cons, List.mem_cons] at hnd'
  have hnx : n ∉ Seq.addrs xs := fun h => hnd'.2.2 n h n (.inl rfl) rfl
  refine ⟨{ m with nodes := upd m.nodes n (some ⟨l, hdOr ys 0, r⟩) }, ?_, ?_⟩
  · simp [childSwap, hn, Mem.modNode]
  · refine inv.update ?_ ?_ (by simpa using hnd) ?_ ?_ ?_ inv.rel
    · funext p
      by_cases hp : p = l
      · subst hp; rw [upd_same]; rw [hh]
        have h1 : Seq.first (xs ++ (n, c) :: ys) = Seq.first (xs ++ (n, r) :: ys) := by
          cases xs <;> simp [Seq.first]
        have h2 : Seq.last (xs ++ (n, c) :: ys) = Seq.last (xs ++ (n, r) :: ys) := by
          rw [last_append_cons, last_append_cons]
          cases ys <;> simp [Seq.last]
        simp [hdrOf, h1, h2]
      · rw [upd_ne _ _ hp]
    · rw [seg_append]
      refine ⟨?_, hn0, hr, by simp [upd_same], ?_⟩
      · exact seg_congr (fun b hb => upd_ne _ _ (by rintro rfl; exact hnx hb)) hs1
      · exact seg_congr (fun b hb => upd_ne _ _ (by rintro rfl; exact hnd'.2.1.1 hb)) hs2
    · intro b hb1 hb2; simp at hb1; exact upd_ne _ _ hb1.2.1
    · intro b hb; exact .inl (by simpa using hb)
    · intro b hb hb'; simp at hb hb'; rcases hb with hb | rfl | hb
      · exact absurd hb hb'.1
      · exact absurd rfl hb'.2.1
      · exact absurd hb hb'.2.2

/-- Releasing a detached node whose child is live releases the child and frees the node. -/
theorem nodeRelease_ok {m : Mem} {t : Addr} {n : Node} (h : m.nodes t = some n) (hc : n.child ≠ 0) :
    nodeRelease okEnv m t = some (SUCCESS, { m with
      nodes := upd m.nodes t none
      released := m.released ++ [n.child] }) := by
  simp [nodeRelease, h, hc, okEnv, SUCCESS, Mem.modNode, releaseChild, updn_upd]

/-- The loop of `slist_clear`, entered with any tail (the loop does not maintain it). -/
theorem clear_loop {l : Addr} (xs : Seq) : ∀ (m : Mem) (f : Nat) (t : Addr),
    xs.length < f → m.lists l = some ⟨hdOr xs 0, t, BitVec.ofNat 64 xs.length⟩ →
    seg m.nodes l xs 0 → (Seq.addrs xs).Nodup →
    ∃ m', clear okEnv f m l = some (SUCCESS, m') ∧
      m'.lists = upd m.lists l (some (hdrOf [])) ∧
      (∀ a, a ∉ Seq.addrs xs → m'.nodes a = m.nodes a) ∧
      (∀ a ∈ Seq.addrs xs, m'.nodes a = none) ∧
      m'.released = m.released ++ Seq.children xs := by
  induction xs with
  | nil =>
    intro m f t hf hl _ _
    obtain ⟨f, rfl⟩ : ∃ g, f = g + 1 := ⟨f - 1, by simp at hf; omega⟩
    refine ⟨{ m with lists := upd m.lists l (some (hdrOf [])) }, ?_, rfl, ?_, ?_, ?_⟩
    · simp [clear, hl, hdOr, Mem.modList, hdrOf, Seq.first, Seq.last]
    · simp
    · simp
    · simp [Seq.children]
  | cons p xs ih =>
    obtain ⟨n, c⟩ := p
    intro m f t hf hl hs hnd
    obtain ⟨f, rfl⟩ : ∃ g, f = g + 1 := ⟨f - 1, by simp at hf; omega⟩
    obtain ⟨hn0, hc0, hn, hs⟩ := hs
    simp only [addrs_cons, List.nodup_cons] at hnd
    have hdec := ofNat_pred xs.length
    have hstep : clear okEnv (f + 1) m l = clear okEnv f { m with
        nodes := upd m.nodes n none
        lists := upd m.lists l (some ⟨hdOr xs 0, t, BitVec.ofNat 64 xs.length⟩)
        released := m.released ++ [c] } l := by
      have h1 : BitVec.ofNat 64 (xs.length + 1) - 1#64 = BitVec.ofNat 64 xs.length := hdec
      simp only [clear, hl, Option.bind_eq_bind, Option.bind_some, hdOr, ne_eq, hn0, not_false_eq_true,
        if_true, hn, Mem.modList, upd_same, Mem.modNode, updn_upd, List.length_cons]
      rw [nodeRelease_ok (n := ⟨0, 0, c⟩) (by simp [upd_same]) hc0]
      simp [updn_upd, h1]
    obtain ⟨m', h1, h2, h3, h4, h5⟩ := ih { m with
        nodes := upd m.nodes n none
        lists := upd m.lists l (some ⟨hdOr xs 0, t, BitVec.ofNat 64 xs.length⟩)
        released := m.released ++ [c] } f t (by simp at hf; omega) (by simp [upd_same])
        (seg_congr (fun b hb => upd_ne _ _ (by rintro rfl; exact hnd.1 hb)) hs) hnd.2
    refine ⟨m', hstep.trans h1, ?_, ?_, ?_, ?_⟩
    · rw [h2]; exact updn_upd _ _ _ _
    · intro a ha; simp at ha
      rw [h3 a ha.2]; exact upd_ne _ _ ha.1
    · intro a ha
      simp only [addrs_cons, List.mem_cons] at ha
      by_cases hx : a ∈ Seq.addrs xs
      · exact h4 a hx
      · rcases ha with rfl | ha
        · rw [h3 a hx]; simp [upd_same]
        · exact absurd ha hx
    · rw [h5]; simp [Seq.children]

theorem clear_refines {m A B l xs R f} (inv : Inv m ⟨A ++ (l, xs) :: B, R⟩) (hf : xs.length < f) :
    ∃ m', clear okEnv f m l = some (SUCCESS, m') ∧
      Inv m' ⟨A ++ (l, []) :: B, R ++ Seq.children xs⟩ := by
  have hh := inv.hdr l xs (by simp)
  have hseg := inv.segs l xs (by simp)
  have hnd := inv.nodup l xs (by simp)
  rw [hdrOf, first_eq] at hh
  obtain ⟨m', h1, h2, h3, h4, h5⟩ := clear_loop xs m f _ hf hh hseg hnd
  refine ⟨m', h1, inv.update h2 trivial (by simp) (fun a ha _ => h3 a ha) (by simp)
    (fun a ha _ => h4 a ha) ?_⟩
  rw [h5, inv.rel]

theorem release_refines {m A B l xs R f} (inv : Inv m ⟨A ++ (l, xs) :: B, R⟩) (hf : xs.length < f) :
    ∃ m', release okEnv f m l = some (SUCCESS, m') ∧ Inv m' ⟨A ++ B, R ++ Seq.children xs⟩ := by
  obtain ⟨m1, h1, inv1⟩ := clear_refines inv hf
  have hh := inv1.hdr l [] (by simp)
  refine ⟨{ m1 with lists := upd m1.lists l none }, ?_, ?_⟩
  · rw [release, h1]; simp [hh, okEnv, SUCCESS]
  · obtain ⟨keys, hdr, noList, segs, nodup, owned, rel⟩ := inv1
    have hsub : ∀ p ys, (p, ys) ∈ A ++ B → (p, ys) ∈ A ++ (l, []) :: B := by
      intro p ys h; simp at h ⊢; rcases h with h | h <;> simp [h]
    have hkeys := keys
    simp only [List.map_append, List.map_cons, List.nodup_append, List.nodup_cons, List.mem_cons] at hkeys
    have hlnot : l ∉ (A ++ B).map Prod.fst := by
      simp only [List.map_append, List.mem_append, not_or]
      exact ⟨fun h => hkeys.2.2 l h l (.inl rfl) rfl, hkeys.2.1.1⟩
    have hne : ∀ p ys, (p, ys) ∈ A ++ B → p ≠ l := by
      rintro p ys h rfl; exact hlnot (List.mem_map.2 ⟨_, h, rfl⟩)
    refine ⟨?_, ?_, ?_, ?_, ?_, ?_, rel⟩
    · simp only [List.map_append, List.nodup_append]
      exact ⟨hkeys.1, hkeys.2.1.2, fun a ha b hb => hkeys.2.2 a ha b (.inr hb)⟩
    · intro p ys h
      show upd m1.lists l none p = _
      rw [upd_ne _ _ (hne p ys h)]; exact hdr p ys (hsub p ys h)
    · intro p hp
      show upd m1.lists l none p = _
      by_cases hpl : p = l
      · subst hpl; exact upd_same _ _ _
      · rw [upd_ne _ _ hpl]; apply noList
        simp only [List.map_append, List.map_cons, List.mem_append, List.mem_cons, not_or] at hp ⊢
        exact ⟨hp.1, hpl, hp.2⟩
    · intro p ys h; exact segs p ys (hsub p ys h)
    · intro p ys h; exact nodup p ys (hsub p ys h)
    · intro a n hn
      obtain ⟨ys, h1, h2⟩ := owned a n hn
      refine ⟨ys, ?_, h2⟩
      simp only [List.mem_append, List.mem_cons] at h1 ⊢
      rcases h1 with h1 | h1 | h1
      · exact .inl h1
      · simp at h1; rw [h1.2] at h2; simp at h2
      · exact .inr h1

theorem create_refines {m s l} (inv : Inv m s) (hf : FreshList s.lists l) :
    Inv { m with lists := upd m.lists l (some ⟨0, 0, 0#64⟩) }
      { s with lists := (l, []) :: s.lists } := by
  obtain ⟨keys, hdr, noList, segs, nodup, owned, rel⟩ := inv
  have hl : l ∉ s.lists.map Prod.fst := by
    intro h; obtain ⟨⟨p, xs⟩, h1, h2⟩ := List.mem_map.1 h
    exact hf.2 xs (by simpa using h2 ▸ h1)
  refine ⟨by simpa using ⟨by simpa using hl, keys⟩, ?_, ?_, ?_, ?_, ?_, rel⟩
  · intro p ys h
    show upd m.lists l _ p = _
    simp only [List.mem_cons] at h
    rcases h with h | h
    · simp at h; rw [h.1, h.2, upd_same]; rfl
    · rw [upd_ne _ _ (by rintro rfl; exact hl (List.mem_map.2 ⟨_, h, rfl⟩))]; exact hdr p ys h
  · intro p hp
    simp only [List.map_cons, List.mem_cons, not_or] at hp
    show upd m.lists l _ p = _
    rw [upd_ne _ _ hp.1]; exact noList p hp.2
  · intro p ys h
    simp only [List.mem_cons] at h
    rcases h with h | h
    · simp at h; rw [h.2]; trivial
    · exact segs p ys h
  · intro p ys h
    simp only [List.mem_cons] at h
    rcases h with h | h
    · simp at h; rw [h.2]; simp
    · exact nodup p ys h
  · intro a n hn
    obtain ⟨ys, h1, h2⟩ := owned a n hn
    exact ⟨ys, by simp [h1], h2⟩

/-- One call of the pointer program does what the specification says. -/
theorem step_refines {m s op o s'} (inv : Inv m s) (h : SpecStep s op o s') :
    ∃ m', step okEnv m op = some (o, m') ∧ Inv m' s' := by
  cases h with
  | create_fail => exact ⟨m, rfl, inv⟩
  | create_ok hf => exact ⟨_, rfl, create_refines inv hf⟩
  | insertHead_fail hr =>
    have hh := inv.hdr _ _ (List.mem_append_right _ (List.mem_cons_self ..))
    exact ⟨m, by simp [step, insertHead, nodeCreate, hh, OOM_ne], inv⟩
  | insertHead_ok hr hf =>
    obtain ⟨m', h1, h2⟩ := insertHead_refines inv hr hf
    exact ⟨m', by simp [step, h1], h2⟩
  | appendTail_fail hr =>
    have hh := inv.hdr _ _ (List.mem_append_right _ (List.mem_cons_self ..))
    exact ⟨m, by simp [step, appendTail, nodeCreate, hh, OOM_ne], inv⟩
  | appendTail_ok hr hf =>
    obtain ⟨m', h1, h2⟩ := appendTail_refines inv hr hf
    exact ⟨m', by simp [step, h1], h2⟩
  | append_fail hr =>
    have hh := inv.hdr _ _ (List.mem_append_right _ (List.mem_cons_self ..))
    have hseg := inv.segs _ _ (List.mem_append_right _ (List.mem_cons_self ..))
    obtain ⟨hs1, hn0, hc0, hn, hs2⟩ := (seg_append _ _ _ _ _).1 hseg
    exact ⟨m, by simp [step, append, hn, nodeCreate, hh, OOM_ne], inv⟩
  | append_ok hr hf =>
    obtain ⟨m', h1, h2⟩ := append_refines inv hr hf
    exact ⟨m', by simp [step, h1], h2⟩
  | pop_empty =>
    have hh := inv.hdr _ _ (List.mem_append_right _ (List.mem_cons_self ..))
    exact ⟨m, by simp [step, pop, hh, hdrOf, Seq.first], inv⟩
  | @pop_ok A B l n c xs R rIn =>
    obtain ⟨m', h1, h2⟩ := pop_refines (rIn := rIn) inv
    exact ⟨m', by simp [step, h1], h2⟩
  | nextPop_last =>
    have hseg := inv.segs _ _ (List.mem_append_right _ (List.mem_cons_self ..))
    obtain ⟨hs1, hn0, hc0, hn, hs2⟩ := (seg_append _ _ _ _ _).1 hseg
    exact ⟨m, by simp [step, nextPop, hn, hdOr], inv⟩
  | @nextPop_ok A B l xs n c n' c' ys R rIn =>
    obtain ⟨m', h1, h2⟩ := nextPop_refines (rIn := rIn) inv
    exact ⟨m', by simp [step, h1], h2⟩
  | childSwap_ok hr =>
    obtain ⟨m', h1, h2⟩ := childSwap_refines inv hr
    exact ⟨m', by simp [step, h1], h2⟩
  | clear_ok hf =>
    obtain ⟨m', h1, h2⟩ := clear_refines inv hf
    exact ⟨m', by simp [step, h1], h2⟩
  | release_ok hf =>
    obtain ⟨m', h1, h2⟩ := release_refines inv hf
    exact ⟨m', by simp [step, h1], h2⟩
  | head_ok h => exact ⟨m, by simp [step, head, inv.hdr _ _ h, hdrOf], inv⟩
  | tail_ok h => exact ⟨m, by simp [step, tail, inv.hdr _ _ h, hdrOf], inv⟩
  | count_ok h => exact ⟨m, by simp [step, count, inv.hdr _ _ h, hdrOf], inv⟩
  | next_ok h =>
    obtain ⟨hs1, hn0, hc0, hn, hs2⟩ := (seg_append _ _ _ _ _).1 (inv.segs _ _ h)
    exact ⟨m, by simp [step, next, hn, first_eq], inv⟩
  | child_ok h =>
    obtain ⟨hs1, hn0, hc0, hn, hs2⟩ := (seg_append _ _ _ _ _).1 (inv.segs _ _ h)
    exact ⟨m, by simp [step, child, hn], inv⟩

theorem run_refines {ops : List Op} : ∀ {m s os s'}, Inv m s → SpecRun s ops os s' →
    ∃ m', run okEnv m ops = some (os, m') ∧ Inv m' s' := by
  induction ops with
  | nil => intro m s os s' inv h; cases h; exact ⟨m, rfl, inv⟩
  | cons op ops ih =>
    intro m s os s' inv h
    cases h with
    | cons h t =>
      obtain ⟨m1, h1, inv1⟩ := step_refines inv h
      obtain ⟨m2, h2, inv2⟩ := ih inv1 t
      exact ⟨m2, by simp [run, h1, h2], inv2⟩

end Rcpr.SList
