import Verif.DList

/-! Specification and refinement proof for the doubly linked list. -/
namespace Rcpr.DList

open Rcpr.SList (Addr Env okEnv Hdr upd Out Seq World Spec FreshNode FreshList hdOr hdrOf upd_same upd_ne
  updn_upd OOM_ne ofNat_succ ofNat_pred first_eq hdOr_append keys_split last_append last_cons_cons
  last_append_cons last_mem addrs_nil addrs_cons addrs_append)

/-- The abstract meaning of each call when every release succeeds. -/
inductive SpecStep : Spec → Op → Out → Spec → Prop
  | create_fail {s} : SpecStep s (.create none) (.ptr ERROR_GENERAL_OUT_OF_MEMORY 0) s
  | create_ok {s l} (hf : FreshList s.lists l) :
      SpecStep s (.create (some l)) (.ptr SUCCESS l) { s with lists := (l, []) :: s.lists }
  | insertHead_fail {A B l xs R r} (hr : r ≠ 0) :
      SpecStep ⟨A ++ (l, xs) :: B, R⟩ (.insertHead l r none) (.st ERROR_GENERAL_OUT_OF_MEMORY)
        ⟨A ++ (l, xs) :: B, R⟩
  | insertHead_ok {A B l xs R r a} (hr : r ≠ 0) (hf : FreshNode (A ++ (l, xs) :: B) a) :
      SpecStep ⟨A ++ (l, xs) :: B, R⟩ (.insertHead l r (some a)) (.st SUCCESS)
        ⟨A ++ (l, (a, r) :: xs) :: B, R⟩
  | appendTail_fail {A B l xs R r} (hr : r ≠ 0) :
      SpecStep ⟨A ++ (l, xs) :: B, R⟩ (.appendTail l r none) (.st ERROR_GENERAL_OUT_OF_MEMORY)
        ⟨A ++ (l, xs) :: B, R⟩
  | appendTail_ok {A B l xs R r a} (hr : r ≠ 0) (hf : FreshNode (A ++ (l, xs) :: B) a) :
      SpecStep ⟨A ++ (l, xs) :: B, R⟩ (.appendTail l r (some a)) (.st SUCCESS)
        ⟨A ++ (l, xs ++ [(a, r)]) :: B, R⟩
  | append_fail {A B l xs n c ys R r} (hr : r ≠ 0) :
      SpecStep ⟨A ++ (l, xs ++ (n, c) :: ys) :: B, R⟩ (.append n r none)
        (.st ERROR_GENERAL_OUT_OF_MEMORY) ⟨A ++ (l, xs ++ (n, c) :: ys) :: B, R⟩
  | append_ok {A B l xs n c ys R r a} (hr : r ≠ 0)
      (hf : FreshNode (A ++ (l, xs ++ (n, c) :: ys) :: B) a) :
      SpecStep ⟨A ++ (l, xs ++ (n, c) :: ys) :: B, R⟩ (.append n r (some a)) (.st SUCCESS)
        ⟨A ++ (l, xs ++ (n, c) :: (a, r) :: ys) :: B, R⟩
  | insert_fail {A B l xs n c ys R r} (hr : r ≠ 0) :
      SpecStep ⟨A ++ (l, xs ++ (n, c) :: ys) :: B, R⟩ (.insert n r none)
        (.st ERROR_GENERAL_OUT_OF_MEMORY) ⟨A ++ (l, xs ++ (n, c) :: ys) :: B, R⟩
  | insert_ok {A B l xs n c ys R r a} (hr : r ≠ 0)
      (hf : FreshNode (A ++ (l, xs ++ (n, c) :: ys) :: B) a) :
      SpecStep ⟨A ++ (l, xs ++ (n, c) :: ys) :: B, R⟩ (.insert n r (some a)) (.st SUCCESS)
        ⟨A ++ (l, xs ++ (a, r) :: (n, c) :: ys) :: B, R⟩
  | pop_empty {A B l R rIn} :
      SpecStep ⟨A ++ (l, []) :: B, R⟩ (.pop l rIn) (.ptr SUCCESS rIn) ⟨A ++ (l, []) :: B, R⟩
  | pop_ok {A B l n c xs R rIn} :
      SpecStep ⟨A ++ (l, (n, c) :: xs) :: B, R⟩ (.pop l rIn) (.ptr SUCCESS c)
        ⟨A ++ (l, xs) :: B, R⟩
  | childSwap_ok {A B l xs n c ys R r} (hr : r ≠ 0) :
      SpecStep ⟨A ++ (l, xs ++ (n, c) :: ys) :: B, R⟩ (.childSwap n r) (.ptr SUCCESS c)
        ⟨A ++ (l, xs ++ (n, r) :: ys) :: B, R⟩
  | clear_ok {A B l xs R f} (hf : xs.length < f) :
      SpecStep ⟨A ++ (l, xs) :: B, R⟩ (.clear l f) (.st SUCCESS)
        ⟨A ++ (l, []) :: B, R ++ Seq.children xs⟩
  | release_ok {A B l xs R f} (hf : xs.length < f) :
      SpecStep ⟨A ++ (l, xs) :: B, R⟩ (.release l f) (.st SUCCESS)
        ⟨A ++ B, R ++ Seq.children xs⟩
  | head_ok {s l xs} (h : (l, xs) ∈ s.lists) : SpecStep s (.head l) (.ptr SUCCESS (Seq.first xs)) s
  | tail_ok {s l xs} (h : (l, xs) ∈ s.lists) : SpecStep s (.tail l) (.ptr SUCCESS (Seq.last xs)) s
  | count_ok {s l xs} (h : (l, xs) ∈ s.lists) :
      SpecStep s (.count l) (.cnt (BitVec.ofNat 64 xs.length)) s
  | next_ok {s l xs n c ys} (h : (l, xs ++ (n, c) :: ys) ∈ s.lists) :
      SpecStep s (.next n) (.ptr SUCCESS (Seq.first ys)) s
  | prev_ok {s l xs n c ys} (h : (l, xs ++ (n, c) :: ys) ∈ s.lists) :
      SpecStep s (.prev n) (.ptr SUCCESS (Seq.last xs)) s
  | child_ok {s l xs n c ys} (h : (l, xs ++ (n, c) :: ys) ∈ s.lists) :
      SpecStep s (.child n) (.ptr SUCCESS c) s

/-- Histories of the specification. -/
inductive SpecRun : Spec → List Op → List Out → Spec → Prop
  | nil {s} : SpecRun s [] [] s
  | cons {s s' s'' op o ops os} (h : SpecStep s op o s') (t : SpecRun s' ops os s'') :
      SpecRun s (op :: ops) (o :: os) s''

/-! ### Representation invariant -/

def lastOr (p : Addr) (xs : Seq) : Addr := match xs.getLast? with | none => p | some x => x.1

theorem lastOr_cons (p : Addr) (x : Addr × Addr) (xs : Seq) : lastOr p (x :: xs) = lastOr x.1 xs := by
  cases h : xs.getLast? with
  | none => simp at h; subst h; simp [lastOr]
  | some y => simp [lastOr, List.getLast?_cons, h]

theorem last_eq (xs : Seq) : Seq.last xs = lastOr 0 xs := by
  simp only [Seq.last, lastOr]
  rfl

/-- `xs` is linked in both directions, first node's `prev` is `p`, last node's `next` is `q`. -/
def seg (h : Addr → Option Node) (l : Addr) : Addr → Seq → Addr → Prop
  | _, [], _ => True
  | p, (a, c) :: xs, q => a ≠ 0 ∧ c ≠ 0 ∧ h a = some ⟨l, p, hdOr xs q, c⟩ ∧ seg h l a xs q

structure Inv (m : Mem) (s : Spec) : Prop where
  keys : (s.lists.map Prod.fst).Nodup
  hdr : ∀ l xs, (l, xs) ∈ s.lists → m.lists l = some (hdrOf xs)
  noList : ∀ l, l ∉ s.lists.map Prod.fst → m.lists l = none
  segs : ∀ l xs, (l, xs) ∈ s.lists → seg m.nodes l 0 xs 0
  nodup : ∀ l xs, (l, xs) ∈ s.lists → (Seq.addrs xs).Nodup
  owned : ∀ a n, m.nodes a = some n → ∃ xs, (n.parent, xs) ∈ s.lists ∧ a ∈ Seq.addrs xs
  rel : m.released = s.released

theorem seg_append (h : Addr → Option Node) (l : Addr) (xs ys : Seq) (p q : Addr) :
    seg h l p (xs ++ ys) q ↔ seg h l p xs (hdOr ys q) ∧ seg h l (lastOr p xs) ys q := by
  induction xs generalizing p with
  | nil => simp [seg, lastOr]
  | cons x xs ih =>
    obtain ⟨a, c⟩ := x
    simp only [List.cons_append, seg, hdOr_append, ih, lastOr_cons]
    constructor
    · rintro ⟨h1, h2, h3, h4, h5⟩; exact ⟨⟨h1, h2, h3, h4⟩, h5⟩
    · rintro ⟨⟨h1, h2, h3, h4⟩, h5⟩; exact ⟨h1, h2, h3, h4, h5⟩

theorem seg_congr {h h' : Addr → Option Node} {l : Addr} {xs : Seq} {p q : Addr}
    (hh : ∀ a ∈ Seq.addrs xs, h' a = h a) (hs : seg h l p xs q) : seg h' l p xs q := by
  induction xs generalizing p with
  | nil => trivial
  | cons x xs ih =>
    obtain ⟨a, c⟩ := x
    obtain ⟨h1, h2, h3, h4⟩ := hs
    refine ⟨h1, h2, ?_, ih (fun b hb => hh b (by simp [hb])) h4⟩
    rw [hh a (by simp)]; exact h3

theorem seg_mem {h : Addr → Option Node} {l : Addr} {xs : Seq} {p q a : Addr}
    (hs : seg h l p xs q) (ha : a ∈ Seq.addrs xs) : a ≠ 0 ∧ ∃ n, h a = some n ∧ n.parent = l := by
  induction xs generalizing p with
  | nil => simp at ha
  | cons x xs ih =>
    obtain ⟨b, c⟩ := x
    obtain ⟨h1, h2, h3, h4⟩ := hs
    simp only [addrs_cons, List.mem_cons] at ha
    rcases ha with rfl | ha
    · exact ⟨h1, _, h3, rfl⟩
    · exact ih h4 ha

theorem Inv.update {m m' : Mem} {A B : World} {l : Addr} {xs xs' : Seq} {R R' : List Addr}
    (inv : Inv m ⟨A ++ (l, xs) :: B, R⟩)
    (hl : m'.lists = upd m.lists l (some (hdrOf xs')))
    (hseg : seg m'.nodes l 0 xs' 0)
    (hnd : (Seq.addrs xs').Nodup)
    (hframe : ∀ a, a ∉ Seq.addrs xs → a ∉ Seq.addrs xs' → m'.nodes a = m.nodes a)
    (hnew : ∀ a ∈ Seq.addrs xs', a ∈ Seq.addrs xs ∨ m.nodes a = none)
    (hdel : ∀ a ∈ Seq.addrs xs, a ∉ Seq.addrs xs' → m'.nodes a = none)
    (hR : m'.released = R') :
    Inv m' ⟨A ++ (l, xs') :: B, R'⟩ := by
  obtain ⟨keys, hdr, noList, segs, nodup, owned, rel⟩ := inv
  have hkeys' : ((A ++ (l, xs') :: B).map Prod.fst) = ((A ++ (l, xs) :: B).map Prod.fst) := by simp
  have hin : ∀ p ys, p ≠ l → ((p, ys) ∈ A ++ (l, xs') :: B ↔ (p, ys) ∈ A ++ (l, xs) :: B) := by
    intro p ys hp; simp [hp]
  have hother : ∀ p ys, p ≠ l → (p, ys) ∈ A ++ (l, xs') :: B →
      ∀ a ∈ Seq.addrs ys, m'.nodes a = m.nodes a := by
    intro p ys hp hmem a ha
    have hmem' := (hin p ys hp).1 hmem
    obtain ⟨ha0, n, hn, hpar⟩ := seg_mem (segs p ys hmem') ha
    apply hframe
    · intro hx
      obtain ⟨_, n', hn', hpar'⟩ := seg_mem (segs l xs (by simp)) hx
      rw [hn] at hn'; simp at hn'; subst hn'; exact hp (hpar.symm.trans hpar')
    · intro hx
      rcases hnew a hx with h | h
      · obtain ⟨_, n', hn', hpar'⟩ := seg_mem (segs l xs (by simp)) h
        rw [hn] at hn'; simp at hn'; subst hn'; exact hp (hpar.symm.trans hpar')
      · rw [hn] at h; simp at h
  refine ⟨by simpa only [hkeys'] using keys, ?_, ?_, ?_, ?_, ?_, hR⟩
  · intro p ys hmem
    by_cases hp : p = l
    · subst hp
      have := keys_split (by simpa only [hkeys'] using keys) hmem
      subst this; rw [hl, upd_same]
    · rw [hl, upd_ne _ _ hp]; exact hdr p ys ((hin p ys hp).1 hmem)
  · intro p hp
    have hp' : p ≠ l := by rintro rfl; simp at hp
    rw [hl, upd_ne _ _ hp']
    exact noList p (by simpa only [hkeys'] using hp)
  · intro p ys hmem
    by_cases hp : p = l
    · subst hp
      have := keys_split (by simpa only [hkeys'] using keys) hmem
      subst this; exact hseg
    · exact seg_congr (hother p ys hp hmem) (segs p ys ((hin p ys hp).1 hmem))
  · intro p ys hmem
    by_cases hp : p = l
    · subst hp
      have := keys_split (by simpa only [hkeys'] using keys) hmem
      subst this; exact hnd
    · exact nodup p ys ((hin p ys hp).1 hmem)
  · intro a n hn
    by_cases h1 : a ∈ Seq.addrs xs'
    · obtain ⟨_, n', hn', hpar⟩ := seg_mem hseg h1
      rw [hn] at hn'; simp at hn'; subst hn'
      exact ⟨xs', by simp [hpar], h1⟩
    · by_cases h2 : a ∈ Seq.addrs xs
      · rw [hdel a h2 h1] at hn; simp at hn
      · rw [hframe a h2 h1] at hn
        obtain ⟨ys, hys, hay⟩ := owned a n hn
        by_cases hp : n.parent = l
        · rw [hp] at hys
          have := keys_split keys hys
          subst this; exact absurd hay h2
        · exact ⟨ys, (hin _ _ hp).2 hys, hay⟩

theorem Inv.empty : Inv Mem.empty SList.Spec.empty := by
  refine ⟨by simp [SList.Spec.empty], ?_, ?_, ?_, ?_, ?_, rfl⟩ <;> simp [SList.Spec.empty, Mem.empty]

theorem Inv.fresh {m : Mem} {s : Spec} (inv : Inv m s) {a : Addr} (h : FreshNode s.lists a) :
    m.nodes a = none := by
  cases hn : m.nodes a with
  | none => rfl
  | some n =>
    obtain ⟨xs, h1, h2⟩ := inv.owned a n hn
    exact absurd h2 (h.2 _ _ h1)

theorem insertHead_refines {m A B l xs R r a} (inv : Inv m ⟨A ++ (l, xs) :: B, R⟩) (hr : r ≠ 0)
    (hf : FreshNode (A ++ (l, xs) :: B) a) :
    ∃ m', insertHead m (some a) l r = some (SUCCESS, m') ∧ Inv m' ⟨A ++ (l, (a, r) :: xs) :: B, R⟩ := by
  have hh := inv.hdr l xs (by simp)
  have hfr := inv.fresh hf
  have hax : a ∉ Seq.addrs xs := hf.2 l xs (by simp)
  have hseg := inv.segs l xs (by simp)
  have hnd := inv.nodup l xs (by simp)
  cases xs with
  | nil =>
    refine ⟨{ m with
      nodes := upd m.nodes a (some ⟨l, 0, 0, r⟩)
      lists := upd m.lists l (some (hdrOf [(a, r)])) }, ?_, ?_⟩
    · simp [insertHead, nodeCreate, hh, Mem.modNode, Mem.modList, upd_same, hdrOf, Seq.first, Seq.last,
        updn_upd, SUCCESS]
    · refine inv.update rfl ?_ ?_ ?_ ?_ ?_ inv.rel
      · exact ⟨hf.1, hr, by simp [upd_same, hdOr], trivial⟩
      · simp
      · intro b _ hb; exact upd_ne _ _ (by rintro rfl; simp at hb)
      · intro b hb; simp at hb; subst hb; exact Or.inr hfr
      · intro b hb; simp at hb
  | cons x xs =>
    obtain ⟨n, c⟩ := x
    obtain ⟨hn0, hc0, hn, hs⟩ := hseg
    simp only [addrs_cons, List.mem_cons, not_or, List.nodup_cons] at hax hnd
    have hna : n ≠ a := fun h => hax.1 h.symm
    have han : a ≠ n := hax.1
    have h1 : Seq.first ((n, c) :: xs) = n := rfl
    have h2 : Seq.first ((a, r) :: (n, c) :: xs) = a := rfl
    have h3 := ofNat_succ ((n, c) :: xs).length
    have h4 : ((a, r) :: (n, c) :: xs).length = ((n, c) :: xs).length + 1 := rfl
    refine ⟨{ m with
      nodes := upd (upd m.nodes a (some ⟨l, 0, n, r⟩)) n (some ⟨l, a, hdOr xs 0, c⟩)
      lists := upd m.lists l (some (hdrOf ((a, r) :: (n, c) :: xs))) }, ?_, ?_⟩
    · simp only [insertHead, nodeCreate, hh, hdrOf, Option.bind_eq_bind, Option.bind_some, ne_eq,
        not_true_eq_false, if_false, h1, h2, hn0, not_false_eq_true, if_true, Mem.modNode, Mem.modList,
        upd_same, upd_ne _ _ hna, hn, updn_upd, h3, h4, last_cons_cons]
      rfl
    · refine inv.update rfl ?_ ?_ ?_ ?_ ?_ inv.rel
      · refine ⟨hf.1, hr, by simp [upd_ne _ _ han, upd_same, hdOr], hn0, hc0, by simp [upd_same], ?_⟩
        refine seg_congr ?_ hs
        intro b hb
        show upd (upd m.nodes a _) n _ b = _
        rw [upd_ne _ _ (by rintro rfl; exact hnd.1 hb), upd_ne _ _ (by rintro rfl; exact hax.2 hb)]
      · simp only [addrs_cons, List.nodup_cons, List.mem_cons, not_or]; exact ⟨hax, hnd⟩
      · intro b hb1 hb2; simp at hb1 hb2
        show upd (upd m.nodes a _) n _ b = _
        rw [upd_ne _ _ hb1.1, upd_ne _ _ hb2.1]
      · intro b hb; simp at hb ⊢; rcases hb with rfl | hb
        · exact Or.inr hfr
        · exact Or.inl hb
      · intro b hb hb'; simp at hb hb'; rcases hb with rfl | hb
        · exact absurd rfl hb'.2.1
        · exact absurd hb hb'.2.2

theorem appendTail_refines {m A B l xs R r a} (inv : Inv m ⟨A ++ (l, xs) :: B, R⟩) (hr : r ≠ 0)
    (hf : FreshNode (A ++ (l, xs) :: B) a) :
    ∃ m', appendTail m (some a) l r = some (SUCCESS, m') ∧
      Inv m' ⟨A ++ (l, xs ++ [(a, r)]) :: B, R⟩ := by
  have hh := inv.hdr l xs (by simp)
  have hfr := inv.fresh hf
  have hax : a ∉ Seq.addrs xs := hf.2 l xs (by simp)
  have hseg := inv.segs l xs (by simp)
  have hnd := inv.nodup l xs (by simp)
  rcases List.eq_nil_or_concat xs with rfl | ⟨ys, ⟨t, c⟩, rfl⟩
  · refine ⟨{ m with
      nodes := upd m.nodes a (some ⟨l, 0, 0, r⟩)
      lists := upd m.lists l (some (hdrOf [(a, r)])) }, ?_, ?_⟩
    · simp [appendTail, nodeCreate, hh, Mem.modList, upd_same, hdrOf, Seq.first, Seq.last,
        updn_upd, SUCCESS]
    · refine inv.update rfl ?_ ?_ ?_ ?_ ?_ inv.rel
      · exact ⟨hf.1, hr, by simp [upd_same, hdOr], trivial⟩
      · simp
      · intro b _ hb; exact upd_ne _ _ (by rintro rfl; simp at hb)
      · intro b hb; simp at hb; subst hb; exact Or.inr hfr
      · intro b hb; simp at hb
  · rw [List.concat_eq_append] at *
    obtain ⟨hs1, hs2⟩ := (seg_append _ _ _ _ _ _).1 hseg
    obtain ⟨ht0, hc0, ht, -⟩ := hs2
    have hta : t ≠ a := by rintro rfl; simp at hax
    have hat : a ≠ t := Ne.symm hta
    simp only [addrs_append, addrs_cons, addrs_nil, List.nodup_append, List.mem_append,
      List.mem_singleton] at hnd hax
    have hty : t ∉ Seq.addrs ys := fun h => hnd.2.2 t h t (by simp) rfl
    have hlo : lastOr 0 (ys ++ [(t, c)]) = t := by simp [lastOr]
    refine ⟨{ m with
      nodes := upd (upd m.nodes a (some ⟨l, t, 0, r⟩)) t (some ⟨l, lastOr 0 ys, a, c⟩)
      lists := upd m.lists l (some (hdrOf (ys ++ [(t, c)] ++ [(a, r)]))) }, ?_, ?_⟩
    · have h1 : Seq.last (ys ++ [(t, c)]) = t := last_append _ _
      have h2 : Seq.first (ys ++ [(t, c)] ++ [(a, r)]) = Seq.first (ys ++ [(t, c)]) := by
        cases ys <;> simp [Seq.first]
      have h3 : Seq.last (ys ++ [(t, c)] ++ [(a, r)]) = a := last_append _ _
      have h4 := ofNat_succ (ys ++ [(t, c)]).length
      have h5 : (ys ++ [(t, c)] ++ [(a, r)]).length = (ys ++ [(t, c)]).length + 1 := by simp
      simp only [appendTail, nodeCreate, hh, hdrOf, Option.bind_eq_bind, Option.bind_some, ne_eq,
        not_true_eq_false, if_false, h1, ht0, not_false_eq_true, if_true, Mem.modNode, upd_ne _ _ hta, ht,
        Mem.modList, upd_same, updn_upd, h2, h3, h4, h5]
      rfl
    · refine inv.update rfl ?_ ?_ ?_ ?_ ?_ inv.rel
      · rw [seg_append, seg_append, hlo]
        refine ⟨⟨seg_congr ?_ hs1, ?_⟩, ?_⟩
        · intro b hb
          show upd (upd m.nodes a _) t _ b = _
          rw [upd_ne _ _ (by rintro rfl; exact hty hb), upd_ne _ _ (by rintro rfl; exact hax (.inl hb))]
        · exact ⟨ht0, hc0, by simp [upd_same, hdOr], trivial⟩
        · exact ⟨hf.1, hr, by simp [upd_ne _ _ hat, upd_same, hdOr], trivial⟩
      · simp only [addrs_append, addrs_cons, addrs_nil, List.nodup_append]
        refine ⟨⟨hnd.1, by simp, by simpa using hnd.2.2⟩, by simp, ?_⟩
        intro b hb d hd
        simp only [List.mem_singleton] at hd; subst hd
        rintro rfl; exact hax (by simpa using hb)
      · intro b hb1 hb2
        simp at hb1 hb2
        show upd (upd m.nodes a _) t _ b = _
        rw [upd_ne _ _ hb1.2, upd_ne _ _ hb2.2.2]
      · intro b hb; simp at hb ⊢; rcases hb with hb | rfl | rfl
        · exact .inl (.inl hb)
        · exact .inl (.inr rfl)
        · exact .inr hfr
      · intro b hb hb'; simp at hb hb'; rcases hb with hb | rfl
        · exact absurd hb hb'.1
        · exact absurd rfl hb'.2.1

theorem append_refines {m A B l xs n c ys R r a}
    (inv : Inv m ⟨A ++ (l, xs ++ (n, c) :: ys) :: B, R⟩) (hr : r ≠ 0)
    (hf : FreshNode (A ++ (l, xs ++ (n, c) :: ys) :: B) a) :
    ∃ m', append m (some a) n r = some (SUCCESS, m') ∧
      Inv m' ⟨A ++ (l, xs ++ (n, c) :: (a, r) :: ys) :: B, R⟩ := by
  have hh := inv.hdr l _ (List.mem_append_right _ (List.mem_cons_self ..))
  have hfr := inv.fresh hf
  have hax : a ∉ Seq.addrs (xs ++ (n, c) :: ys) := hf.2 l _ (by simp)
  have hseg := inv.segs l _ (List.mem_append_right _ (List.mem_cons_self ..))
  have hnd := inv.nodup l _ (List.mem_append_right _ (List.mem_cons_self ..))
  obtain ⟨hs1, hn0, hc0, hn, hs2⟩ := (seg_append _ _ _ _ _ _).1 hseg
  simp only [addrs_append, addrs_cons, List.nodup_append, List.nodup_cons, List.mem_append,
    List.mem_cons, not_or] at hnd hax
  have hna : n ≠ a := fun h => hax.2.1 h.symm
  have han : a ≠ n := hax.2.1
  have hnx : n ∉ Seq.addrs xs := fun h => hnd.2.2 n h n (.inl rfl) rfl
  have hfirst : Seq.first (xs ++ (n, c) :: ys) = Seq.first (xs ++ (n, c) :: (a, r) :: ys) := by
    cases xs <;> simp [Seq.first]
  have hcnt := ofNat_succ (xs ++ (n, c) :: ys).length
  have hlen : (xs ++ (n, c) :: (a, r) :: ys).length = (xs ++ (n, c) :: ys).length + 1 := by simp; omega
  have hnodup' : (Seq.addrs (xs ++ (n, c) :: (a, r) :: ys)).Nodup := by
    simp only [addrs_append, addrs_cons, List.nodup_append, List.nodup_cons, List.mem_cons, not_or]
    refine ⟨hnd.1, ⟨⟨hna, hnd.2.1.1⟩, hax.2.2, hnd.2.1.2⟩, ?_⟩
    intro b hb d hd
    rcases hd with rfl | rfl | hd
    · exact hnd.2.2 b hb _ (.inl rfl)
    · rintro rfl; exact hax.1 hb
    · exact hnd.2.2 b hb d (.inr hd)
  have hnew : ∀ b ∈ Seq.addrs (xs ++ (n, c) :: (a, r) :: ys),
      b ∈ Seq.addrs (xs ++ (n, c) :: ys) ∨ m.nodes b = none := by
    intro b hb; simp at hb ⊢; rcases hb with hb | rfl | rfl | hb
    · exact .inl (.inl hb)
    · exact .inl (.inr (.inl rfl))
    · exact .inr hfr
    · exact .inl (.inr (.inr hb))
  have hdel : ∀ b ∈ Seq.addrs (xs ++ (n, c) :: ys), b ∉ Seq.addrs (xs ++ (n, c) :: (a, r) :: ys) → False := by
    intro b hb hb'; simp at hb hb'; rcases hb with hb | rfl | hb
    · exact absurd hb hb'.1
    · exact absurd rfl hb'.2.1
    · exact absurd hb hb'.2.2.2
  cases ys with
  | nil =>
    have hl1 : Seq.last (xs ++ [(n, c)]) = n := last_append _ _
    have hl2 : Seq.last (xs ++ [(n, c), (a, r)]) = a := by simp [Seq.last]
    refine ⟨{ m with
      nodes := upd (upd m.nodes a (some ⟨l, n, 0, r⟩)) n (some ⟨l, lastOr 0 xs, a, c⟩)
      lists := upd m.lists l (some (hdrOf (xs ++ [(n, c), (a, r)]))) }, ?_, ?_⟩
    · simp only [append, hn, nodeCreate, hh, hdrOf, Option.bind_eq_bind, Option.bind_some, ne_eq,
        not_true_eq_false, if_false, hl1, hl2, if_true, Mem.modNode, upd_ne _ _ hna,
        Mem.modList, upd_same, updn_upd, hdOr, hlen, hcnt, hfirst]
      rfl
    · refine inv.update rfl ?_ hnodup' ?_ hnew (fun b hb hb' => (hdel b hb hb').elim) inv.rel
      · rw [seg_append]
        refine ⟨seg_congr ?_ hs1, hn0, hc0, by simp [upd_same, hdOr], hf.1, hr,
          by simp [upd_ne _ _ han, upd_same, hdOr], trivial⟩
        intro b hb
        show upd (upd m.nodes a _) n _ b = _
        rw [upd_ne _ _ (by rintro rfl; exact hnx hb), upd_ne _ _ (by rintro rfl; exact hax.1 hb)]
      · intro b hb1 hb2
        simp at hb1 hb2
        show upd (upd m.nodes a _) n _ b = _
        rw [upd_ne _ _ hb1.2, upd_ne _ _ hb2.2.2]
  | cons y ys =>
    obtain ⟨k, d⟩ := y
    obtain ⟨hk0, hd0, hk, hs3⟩ := hs2
    simp only [addrs_cons, List.mem_cons, not_or, List.nodup_cons] at hnd hax
    have hnk : n ≠ k := hnd.2.1.1.1
    have hkn : k ≠ n := Ne.symm hnk
    have hka : k ≠ a := fun h => hax.2.2.1 h.symm
    have hak : a ≠ k := Ne.symm hka
    have hkx : k ∉ Seq.addrs xs := fun h => hnd.2.2 k h k (.inr (.inl rfl)) rfl
    have hl1 : ¬ n = Seq.last (xs ++ (n, c) :: (k, d) :: ys) := by
      rw [last_append_cons, last_cons_cons]
      intro h
      have h2 := last_mem (xs := (k, d) :: ys) (by simp)
      rw [← h] at h2; simp at h2
      rcases h2 with h2 | h2
      · exact hnk h2
      · exact hnd.2.1.1.2 h2
    have hl2 : Seq.last (xs ++ (n, c) :: (a, r) :: (k, d) :: ys) = Seq.last (xs ++ (n, c) :: (k, d) :: ys) := by
      simp only [last_append_cons, last_cons_cons]
    have hho : hdOr ((k, d) :: ys) 0 = k := rfl
    refine ⟨{ m with
      nodes := upd (upd (upd m.nodes a (some ⟨l, n, k, r⟩)) k (some ⟨l, a, hdOr ys 0, d⟩))
        n (some ⟨l, lastOr 0 xs, a, c⟩)
      lists := upd m.lists l (some (hdrOf (xs ++ (n, c) :: (a, r) :: (k, d) :: ys))) }, ?_, ?_⟩
    · simp only [append, hn, nodeCreate, hh, hdrOf, Option.bind_eq_bind, Option.bind_some, ne_eq,
        not_true_eq_false, if_false, hl1, hl2, hk0, not_false_eq_true, if_true, Mem.modNode,
        upd_ne _ _ hna, upd_ne _ _ hka, upd_ne _ _ hnk, hk, hho,
        Mem.modList, upd_same, updn_upd, hlen, hcnt, hfirst]
      rfl
    · refine inv.update rfl ?_ hnodup' ?_ hnew (fun b hb hb' => (hdel b hb hb').elim) inv.rel
      · rw [seg_append]
        refine ⟨seg_congr ?_ hs1, hn0, hc0, by simp [upd_same, hdOr], hf.1, hr,
          by simp [upd_ne _ _ han, upd_ne _ _ hak, upd_same, hdOr], hk0, hd0,
          by simp [upd_ne _ _ hkn, upd_same], seg_congr ?_ hs3⟩
        · intro b hb
          show upd (upd (upd m.nodes a _) k _) n _ b = _
          rw [upd_ne _ _ (by rintro rfl; exact hnx hb), upd_ne _ _ (by rintro rfl; exact hkx hb),
            upd_ne _ _ (by rintro rfl; exact hax.1 hb)]
        · intro b hb
          show upd (upd (upd m.nodes a _) k _) n _ b = _
          rw [upd_ne _ _ (by rintro rfl; exact hnd.2.1.1.2 hb),
            upd_ne _ _ (by rintro rfl; exact hnd.2.1.2.1 hb),
            upd_ne _ _ (by rintro rfl; exact hax.2.2.2 hb)]
      · intro b hb1 hb2
        simp at hb1 hb2
        show upd (upd (upd m.nodes a _) k _) n _ b = _
        rw [upd_ne _ _ hb1.2.1, upd_ne _ _ hb1.2.2.1, upd_ne _ _ hb2.2.2.1]

theorem insert_refines {m A B l xs n c ys R r a}
    (inv : Inv m ⟨A ++ (l, xs ++ (n, c) :: ys) :: B, R⟩) (hr : r ≠ 0)
    (hf : FreshNode (A ++ (l, xs ++ (n, c) :: ys) :: B) a) :
    ∃ m', insert m (some a) n r = some (SUCCESS, m') ∧
      Inv m' ⟨A ++ (l, xs ++ (a, r) :: (n, c) :: ys) :: B, R⟩ := by
  have hseg := inv.segs l _ (List.mem_append_right _ (List.mem_cons_self ..))
  obtain ⟨hs1, hn0, hc0, hn, hs2⟩ := (seg_append _ _ _ _ _ _).1 hseg
  rcases List.eq_nil_or_concat xs with rfl | ⟨zs, ⟨t, d⟩, rfl⟩
  · obtain ⟨m', h1, h2⟩ := insertHead_refines inv hr hf
    refine ⟨m', ?_, h2⟩
    simp [insert, hn, lastOr, h1]
  · rw [List.concat_eq_append] at *
    have hlo : lastOr 0 (zs ++ [(t, d)]) = t := by simp [lastOr]
    rw [hlo] at hn
    obtain ⟨_, ht0, _⟩ := (seg_append _ _ _ _ _ _).1 hs1
    simp only [List.append_assoc, List.cons_append, List.nil_append] at inv hf ⊢
    obtain ⟨m', h1, h2⟩ := append_refines inv hr hf
    refine ⟨m', ?_, h2⟩
    simp [insert, hn, ht0, h1]

theorem finishPop_ok {m : Mem} {t r : Addr} {n : Node} (h : m.nodes t = some n) (hc : n.child = 0) :
    finishPop okEnv m t r = some (SUCCESS, r, { m with nodes := upd m.nodes t none }) := by
  simp [finishPop, nodeRelease, h, hc, okEnv, SUCCESS]

/-- What `list_pop` does up to releasing the detached node, for any environment. -/
theorem pop_prefix {m A B l n c xs R rIn} (e : Env) (inv : Inv m ⟨A ++ (l, (n, c) :: xs) :: B, R⟩) :
    ∃ nodes' : Addr → Option Node, nodes' n = some ⟨0, 0, 0, 0⟩ ∧
      pop e m l rIn = finishPop e
        { m with nodes := nodes', lists := upd m.lists l (some (hdrOf xs)) } n c ∧
      Inv { m with nodes := upd nodes' n none, lists := upd m.lists l (some (hdrOf xs)) }
        ⟨A ++ (l, xs) :: B, R⟩ := by
  have hh := inv.hdr l _ (List.mem_append_right _ (List.mem_cons_self ..))
  have hseg := inv.segs l _ (List.mem_append_right _ (List.mem_cons_self ..))
  have hnd := inv.nodup l _ (List.mem_append_right _ (List.mem_cons_self ..))
  obtain ⟨hn0, hc0, hn, hs⟩ := hseg
  simp only [addrs_cons, List.nodup_cons] at hnd
  have h2 : Seq.first ((n, c) :: xs) = n := rfl
  have hdec := ofNat_pred xs.length
  have hlen : ((n, c) :: xs).length = xs.length + 1 := rfl
  cases xs with
  | nil =>
    have h1 : Seq.last [(n, c)] = n := rfl
    refine ⟨upd m.nodes n (some ⟨0, 0, 0, 0⟩), upd_same _ _ _, ?_, ?_⟩
    · simp only [pop, hh, hdrOf, h2, h1, Option.bind_eq_bind, Option.bind_some, ne_eq, hn0, not_false_eq_true,
        if_true, Mem.modNode, Mem.modList, upd_same, hn, hdOr, not_true_eq_false, if_false, updn_upd, hlen, hdec]
      rfl
    · refine inv.update rfl trivial (by simp) ?_ (by simp) ?_ inv.rel
      · intro b hb1 _; simp at hb1
        show upd (upd m.nodes n _) n none b = _
        rw [upd_ne _ _ hb1, upd_ne _ _ hb1]
      · intro b hb _; simp at hb; subst hb; exact upd_same _ _ _
  | cons y ys =>
    obtain ⟨k, d⟩ := y
    obtain ⟨hk0, hd0, hk, hs3⟩ := hs
    simp only [addrs_cons, List.mem_cons, not_or, List.nodup_cons] at hnd
    have hnk : n ≠ k := hnd.1.1
    have hkn : k ≠ n := Ne.symm hnk
    have hho : hdOr ((k, d) :: ys) 0 = k := rfl
    have hl1 : ¬ n = Seq.last ((n, c) :: (k, d) :: ys) := by
      rw [last_cons_cons]
      intro h
      have h2 := last_mem (xs := (k, d) :: ys) (by simp)
      rw [← h] at h2; simp at h2
      rcases h2 with h2 | h2
      · exact hnk h2
      · exact hnd.1.2 h2
    have hl2 : Seq.last ((n, c) :: (k, d) :: ys) = Seq.last ((k, d) :: ys) := last_cons_cons _ _ _
    have hl3 : ¬ n = Seq.last ((k, d) :: ys) := by rw [← hl2]; exact hl1
    have hf2 : Seq.first ((k, d) :: ys) = k := rfl
    refine ⟨upd (upd (upd m.nodes n (some ⟨l, 0, k, 0⟩)) k (some ⟨l, 0, hdOr ys 0, d⟩))
        n (some ⟨0, 0, 0, 0⟩), upd_same _ _ _, ?_, ?_⟩
    · simp only [pop, hh, hdrOf, h2, Option.bind_eq_bind, Option.bind_some, ne_eq, hn0, not_false_eq_true,
        if_true, hl1, if_false, Mem.modNode, Mem.modList, upd_same, hn, hho, hk0, hk, upd_ne _ _ hkn,
        upd_ne _ _ hnk, updn_upd, hlen, hdec, hl2, hl3, hf2]
      try rfl
    · refine inv.update rfl ?_ ?_ ?_ ?_ ?_ inv.rel
      · refine ⟨hk0, hd0, by simp [upd_ne _ _ hkn, upd_same], seg_congr ?_ hs3⟩
        intro b hb
        show upd (upd (upd (upd m.nodes n _) k _) n _) n none b = _
        have e1 : b ≠ n := by rintro rfl; exact hnd.1.2 hb
        have e2 : b ≠ k := by rintro rfl; exact hnd.2.1 hb
        rw [upd_ne _ _ e1, upd_ne _ _ e1, upd_ne _ _ e2, upd_ne _ _ e1]
      · simpa using hnd.2
      · intro b hb1 hb2
        simp at hb1
        show upd (upd (upd (upd m.nodes n _) k _) n _) n none b = _
        rw [upd_ne _ _ hb1.1, upd_ne _ _ hb1.1, upd_ne _ _ hb1.2.1, upd_ne _ _ hb1.1]
      · intro b hb; exact .inl (by simp at hb ⊢; exact .inr hb)
      · intro b hb hb'; simp at hb hb'; rcases hb with rfl | hb
        · exact upd_same _ _ _
        · rcases hb with rfl | hb
          · exact absurd rfl hb'.1
          · exact absurd hb hb'.2

theorem pop_refines {m A B l n c xs R rIn} (inv : Inv m ⟨A ++ (l, (n, c) :: xs) :: B, R⟩) :
    ∃ m', pop okEnv m l rIn = some (SUCCESS, c, m') ∧ Inv m' ⟨A ++ (l, xs) :: B, R⟩ := by
  obtain ⟨nodes', h1, h2, h3⟩ := pop_prefix (rIn := rIn) okEnv inv
  refine ⟨_, ?_, h3⟩
  rw [h2, finishPop_ok h1 rfl]

theorem childSwap_refines {m A B l xs n c ys R r}
    (inv : Inv m ⟨A ++ (l, xs ++ (n, c) :: ys) :: B, R⟩) (hr : r ≠ 0) :
    ∃ m', childSwap m n r = some (SUCCESS, c, m') ∧ Inv m' ⟨A ++ (l, xs ++ (n, r) :: ys) :: B, R⟩ := by
  have hh := inv.hdr l _ (List.mem_append_right _ (List.mem_cons_self ..))
  have hseg := inv.segs l _ (List.mem_append_right _ (List.mem_cons_self ..))
  have hnd := inv.nodup l _ (List.mem_append_right _ (List.mem_cons_self ..))
  obtain ⟨hs1, hn0, hc0, hn, hs2⟩ := (seg_append _ _ _ _ _ _).1 hseg
  have hnd' := hnd
  simp only [addrs_append, addrs_cons, List.nodup_append, List.nodup_cons, List.mem_cons] at hnd'
  have hnx : n ∉ Seq.addrs xs := fun h => hnd'.2.2 n h n (.inl rfl) rfl
  refine ⟨{ m with nodes := upd m.nodes n (some ⟨l, lastOr 0 xs, hdOr ys 0, r⟩) }, ?_, ?_⟩
  · simp [childSwap, hn, Mem.modNode]
  · refine inv.update ?_ ?_ (by simpa using hnd) ?_ ?_ ?_ inv.rel
    · funext p
      by_cases hp : p = l
      · subst hp; rw [upd_same]; rw [hh]
        have h1 : Seq.first (xs ++ (n, c) :: ys) = Seq.first (xs ++ (n, r) :: ys) := by
          cases xs <;> simp [Seq.first]
        have h2 : Seq.last (xs ++ (n, c) :: ys) = Seq.last (xs ++ (n, r) :: ys) := by
          rw [last_append_cons, last_append_cons]
          cases ys <;> simp [Seq.last]
        simp [hdrOf, h1, h2]
      · rw [upd_ne _ _ hp]
    · rw [seg_append]
      refine ⟨?_, hn0, hr, by simp [upd_same], ?_⟩
      · exact seg_congr (fun b hb => upd_ne _ _ (by rintro rfl; exact hnx hb)) hs1
      · exact seg_congr (fun b hb => upd_ne _ _ (by rintro rfl; exact hnd'.2.1.1 hb)) hs2
    · intro b hb1 hb2; simp at hb1; exact upd_ne _ _ hb1.2.1
    · intro b hb; exact .inl (by simpa using hb)
    · intro b hb hb'; simp at hb hb'; rcases hb with hb | rfl | hb
      · exact absurd hb hb'.1
      · exact absurd rfl hb'.2.1
      · exact absurd hb hb'.2.2

theorem nodeRelease_ok {m : Mem} {t : Addr} {n : Node} (h : m.nodes t = some n) (hc : n.child ≠ 0) :
    nodeRelease okEnv m t = some (SUCCESS, { m with
      nodes := upd m.nodes t none
      released := m.released ++ [n.child] }) := by
  simp [nodeRelease, h, hc, okEnv, SUCCESS, Mem.modNode, releaseChild, updn_upd]

theorem clear_loop {l : Addr} (xs : Seq) : ∀ (m : Mem) (f : Nat) (t p : Addr),
    xs.length < f → m.lists l = some ⟨hdOr xs 0, t, BitVec.ofNat 64 xs.length⟩ →
    seg m.nodes l p xs 0 → (Seq.addrs xs).Nodup →
    ∃ m', clear okEnv f m l = some (SUCCESS, m') ∧
      m'.lists = upd m.lists l (some (hdrOf [])) ∧
      (∀ a, a ∉ Seq.addrs xs → m'.nodes a = m.nodes a) ∧
      (∀ a ∈ Seq.addrs xs, m'.nodes a = none) ∧
      m'.released = m.released ++ Seq.children xs := by
  induction xs with
  | nil =>
    intro m f t p hf hl _ _
    obtain ⟨f, rfl⟩ : ∃ g, f = g + 1 := ⟨f - 1, by simp at hf; omega⟩
    refine ⟨{ m with lists := upd m.lists l (some (hdrOf [])) }, ?_, rfl, ?_, ?_, ?_⟩
    · simp [clear, hl, hdOr, Mem.modList, hdrOf, Seq.first, Seq.last]
    · simp
    · simp
    · simp [Seq.children]
  | cons x xs ih =>
    obtain ⟨n, c⟩ := x
    intro m f t p hf hl hs hnd
    obtain ⟨f, rfl⟩ : ∃ g, f = g + 1 := ⟨f - 1, by simp at hf; omega⟩
    obtain ⟨hn0, hc0, hn, hs⟩ := hs
    simp only [addrs_cons, List.nodup_cons] at hnd
    have hdec := ofNat_pred xs.length
    have hstep : clear okEnv (f + 1) m l = clear okEnv f { m with
        nodes := upd m.nodes n none
        lists := upd m.lists l (some ⟨hdOr xs 0, t, BitVec.ofNat 64 xs.length⟩)
        released := m.released ++ [c] } l := by
      have h1 : BitVec.ofNat 64 (xs.length + 1) - 1#64 = BitVec.ofNat 64 xs.length := hdec
      simp only [clear, hl, Option.bind_eq_bind, Option.bind_some, hdOr, ne_eq, hn0, not_false_eq_true,
        if_true, hn, Mem.modList, upd_same, Mem.modNode, updn_upd, List.length_cons]
      rw [nodeRelease_ok (n := ⟨0, 0, 0, c⟩) (by simp [upd_same]) hc0]
      simp [updn_upd, h1]
    obtain ⟨m', h1, h2, h3, h4, h5⟩ := ih { m with
        nodes := upd m.nodes n none
        lists := upd m.lists l (some ⟨hdOr xs 0, t, BitVec.ofNat 64 xs.length⟩)
        released := m.released ++ [c] } f t n (by simp at hf; omega) (by simp [upd_same])
        (seg_congr (fun b hb => upd_ne _ _ (by rintro rfl; exact hnd.1 hb)) hs) hnd.2
    refine ⟨m', hstep.trans h1, ?_, ?_, ?_, ?_⟩
    · rw [h2]; exact updn_upd _ _ _ _
    · intro a ha; simp at ha
      rw [h3 a ha.2]; exact upd_ne _ _ ha.1
    · intro a ha
      simp only [addrs_cons, List.mem_cons] at ha
      by_cases hx : a ∈ Seq.addrs xs
      · exact h4 a hx
      · rcases ha with rfl | ha
        · rw [h3 a hx]; simp [upd_same]
        · exact absurd ha hx
    · rw [h5]; simp [Seq.children]

theorem clear_refines {m A B l xs R f} (inv : Inv m ⟨A ++ (l, xs) :: B, R⟩) (hf : xs.length < f) :
    ∃ m', clear okEnv f m l = some (SUCCESS, m') ∧
      Inv m' ⟨A ++ (l, []) :: B, R ++ Seq.children xs⟩ := by
  have hh := inv.hdr l xs (by simp)
  have hseg := inv.segs l xs (by simp)
  have hnd := inv.nodup l xs (by simp)
  rw [hdrOf, first_eq] at hh
  obtain ⟨m', h1, h2, h3, h4, h5⟩ := clear_loop xs m f _ _ hf hh hseg hnd
  refine ⟨m', h1, inv.update h2 trivial (by simp) (fun a ha _ => h3 a ha) (by simp)
    (fun a ha _ => h4 a ha) ?_⟩
  rw [h5, inv.rel]

theorem release_refines {m A B l xs R f} (inv : Inv m ⟨A ++ (l, xs) :: B, R⟩) (hf : xs.length < f) :
    ∃ m', release okEnv f m l = some (SUCCESS, m') ∧ Inv m' ⟨A ++ B, R ++ Seq.children xs⟩ := by
  obtain ⟨m1, h1, inv1⟩ := clear_refines inv hf
  have hh := inv1.hdr l [] (by simp)
  refine ⟨{ m1 with lists := upd m1.lists l none }, ?_, ?_⟩
  · rw [release, h1]; simp [hh, okEnv, SUCCESS]
  · obtain ⟨keys, hdr, noList, segs, nodup, owned, rel⟩ := inv1
    have hsub : ∀ p ys, (p, ys) ∈ A ++ B → (p, ys) ∈ A ++ (l, []) :: B := by
      intro p ys h; simp at h ⊢; rcases h with h | h <;> simp [h]
    have hkeys := keys
    simp only [List.map_append, List.map_cons, List.nodup_append, List.nodup_cons, List.mem_cons] at hkeys
    have hlnot : l ∉ (A ++ B).map Prod.fst := by
      simp only [List.map_append, List.mem_append, not_or]
      exact ⟨fun h => hkeys.2.2 l h l (.inl rfl) rfl, hkeys.2.1.1⟩
    have hne : ∀ p ys, (p, ys) ∈ A ++ B → p ≠ l := by
      rintro p ys h rfl; exact hlnot (List.mem_map.2 ⟨_, h, rfl⟩)
    refine ⟨?_, ?_, ?_, ?_, ?_, ?_, rel⟩
    · simp only [List.map_append, List.nodup_append]
      exact ⟨hkeys.1, hkeys.2.1.2, fun a ha b hb => hkeys.2.2 a ha b (.inr hb)⟩
    · intro p ys h
      show upd m1.lists l none p = _
      rw [upd_ne _ _ (hne p ys h)]; exact hdr p ys (hsub p ys h)
    · intro p hp
      show upd m1.lists l none p = _
      by_cases hpl : p = l
      · subst hpl; exact upd_same _ _ _
      · rw [upd_ne _ _ hpl]; apply noList
        simp only [List.map_append, List.map_cons, List.mem_append, List.mem_cons, not_or] at hp ⊢
        exact ⟨hp.1, hpl, hp.2⟩
    · intro p ys h; exact segs p ys (hsub p ys h)
    · intro p ys h; exact nodup p ys (hsub p ys h)
    · intro a n hn
      obtain ⟨ys, h1, h2⟩ := owned a n hn
      refine ⟨ys, ?_, h2⟩
      simp only [List.mem_append, List.mem_cons] at h1 ⊢
      rcases h1 with h1 | h1 | h1
      · exact .inl h1
      · simp at h1; rw [h1.2] at h2; simp at h2
      · exact .inr h1

theorem create_refines {m s l} (inv : Inv m s) (hf : FreshList s.lists l) :
    Inv { m with lists := upd m.lists l (some ⟨0, 0, 0#64⟩) }
      { s with lists := (l, []) :: s.lists } := by
  obtain ⟨keys, hdr, noList, segs, nodup, owned, rel⟩ := inv
  have hl : l ∉ s.lists.map Prod.fst := by
    intro h; obtain ⟨⟨p, xs⟩, h1, h2⟩ := List.mem_map.1 h
    exact hf.2 xs (by simpa using h2 ▸ h1)
  refine ⟨by simpa using ⟨by simpa using hl, keys⟩, ?_, ?_, ?_, ?_, ?_, rel⟩
  · intro p ys h
    show upd m.lists l _ p = _
    simp only [List.mem_cons] at h
    rcases h with h | h
    · simp at h; rw [h.1, h.2, upd_same]; rfl
    · rw [upd_ne _ _ (by rintro rfl; exact hl (List.mem_map.2 ⟨_, h, rfl⟩))]; exact hdr p ys h
  · intro p hp
    simp only [List.map_cons, List.mem_cons, not_or] at hp
    show upd m.lists l _ p = _
    rw [upd_ne _ _ hp.1]; exact noList p hp.2
  · intro p ys h
    simp only [List.mem_cons] at h
    rcases h with h | h
    · simp at h; rw [h.2]; trivial
    · exact segs p ys h
  · intro p ys h
    simp only [List.mem_cons] at h
    rcases h with h | h
    · simp at h; rw [h.2]; simp
    · exact nodup p ys h
  · intro a n hn
    obtain ⟨ys, h1, h2⟩ := owned a n hn
    exact ⟨ys, by simp [h1], h2⟩

theorem step_refines {m s op o s'} (inv : Inv m s) (h : SpecStep s op o s') :
    ∃ m', step okEnv m op = some (o, m') ∧ Inv m' s' := by
  cases h with
  | create_fail => exact ⟨m, rfl, inv⟩
  | create_ok hf => exact ⟨_, rfl, create_refines inv hf⟩
  | insertHead_fail hr =>
    have hh := inv.hdr _ _ (List.mem_append_right _ (List.mem_cons_self ..))
    exact ⟨m, by simp [step, insertHead, nodeCreate, hh, OOM_ne], inv⟩
  | insertHead_ok hr hf =>
    obtain ⟨m', h1, h2⟩ := insertHead_refines inv hr hf
    exact ⟨m', by simp [step, h1], h2⟩
  | appendTail_fail hr =>
    have hh := inv.hdr _ _ (List.mem_append_right _ (List.mem_cons_self ..))
    exact ⟨m, by simp [step, appendTail, nodeCreate, hh, OOM_ne], inv⟩
  | appendTail_ok hr hf =>
    obtain ⟨m', h1, h2⟩ := appendTail_refines inv hr hf
    exact ⟨m', by simp [step, h1], h2⟩
  | append_fail hr =>
    have hh := inv.hdr _ _ (List.mem_append_right _ (List.mem_cons_self ..))
    have hseg := inv.segs _ _ (List.mem_append_right _ (List.mem_cons_self ..))
    obtain ⟨hs1, hn0, hc0, hn, hs2⟩ := (seg_append _ _ _ _ _ _).1 hseg
    exact ⟨m, by simp [step, append, hn, nodeCreate, hh, OOM_ne], inv⟩
  | append_ok hr hf =>
    obtain ⟨m', h1, h2⟩ := append_refines inv hr hf
    exact ⟨m', by simp [step, h1], h2⟩
  | @insert_fail A B l xs n c ys R r hr =>
    have hh := inv.hdr _ _ (List.mem_append_right _ (List.mem_cons_self ..))
    have hseg := inv.segs _ _ (List.mem_append_right _ (List.mem_cons_self ..))
    obtain ⟨hs1, hn0, hc0, hn, hs2⟩ := (seg_append _ _ _ _ _ _).1 hseg
    refine ⟨m, ?_, inv⟩
    rcases List.eq_nil_or_concat xs with rfl | ⟨zs, ⟨t, d⟩, rfl⟩
    · simp [step, insert, hn, lastOr, insertHead, nodeCreate, hh, OOM_ne]
    · rw [List.concat_eq_append] at *
      have hlo : lastOr 0 (zs ++ [(t, d)]) = t := by simp [lastOr]
      rw [hlo] at hn
      obtain ⟨_, ht0, _, ht, _⟩ := (seg_append _ _ _ _ _ _).1 hs1
      simp [step, insert, hn, ht0, append, ht, nodeCreate, hh, OOM_ne]
  | insert_ok hr hf =>
    obtain ⟨m', h1, h2⟩ := insert_refines inv hr hf
    exact ⟨m', by simp [step, h1], h2⟩
  | pop_empty =>
    have hh := inv.hdr _ _ (List.mem_append_right _ (List.mem_cons_self ..))
    exact ⟨m, by simp [step, pop, hh, hdrOf, Seq.first], inv⟩
  | @pop_ok A B l n c xs R rIn =>
    obtain ⟨m', h1, h2⟩ := pop_refines (rIn := rIn) inv
    exact ⟨m', by simp [step, h1], h2⟩
  | childSwap_ok hr =>
    obtain ⟨m', h1, h2⟩ := childSwap_refines inv hr
    exact ⟨m', by simp [step, h1], h2⟩
  | clear_ok hf =>
    obtain ⟨m', h1, h2⟩ := clear_refines inv hf
    exact ⟨m', by simp [step, h1], h2⟩
  | release_ok hf =>
    obtain ⟨m', h1, h2⟩ := release_refines inv hf
    exact ⟨m', by simp [step, h1], h2⟩
  | head_ok h => exact ⟨m, by simp [step, head, inv.hdr _ _ h, hdrOf], inv⟩
  | tail_ok h => exact ⟨m, by simp [step, tail, inv.hdr _ _ h, hdrOf], inv⟩
  | count_ok h => exact ⟨m, by simp [step, count, inv.hdr _ _ h, hdrOf], inv⟩
  | next_ok h =>
    obtain ⟨hs1, hn0, hc0, hn, hs2⟩ := (seg_append _ _ _ _ _ _).1 (inv.segs _ _ h)
    exact ⟨m, by simp [step, next, hn, first_eq], inv⟩
  | prev_ok h =>
    obtain ⟨hs1, hn0, hc0, hn, hs2⟩ := (seg_append _ _ _ _ _ _).1 (inv.segs _ _ h)
    exact ⟨m, by simp [step, prev, hn, last_eq], inv⟩
  | child_ok h =>
    obtain ⟨hs1, hn0, hc0, hn, hs2⟩ := (seg_append _ _ _ _ _ _).1 (inv.segs _ _ h)
    exact ⟨m, by simp [step, child, hn], inv⟩

theorem run_refines {ops : List Op} : ∀ {m s os s'}, Inv m s → SpecRun s ops os s' →
    ∃ m', run okEnv m ops = some (os, m') ∧ Inv m' s' := by
  induction ops with
  | nil => intro m s os s' inv h; cases h; exact ⟨m, rfl, inv⟩
  | cons op ops ih =>
    intro m s os s' inv h
    cases h with
    | cons h t =>
      obtain ⟨m1, h1, inv1⟩ := step_refines inv h
      obtain ⟨m2, h2, inv2⟩ := ih inv1 t
      exact ⟨m2, by simp [run, h1, h2], inv2⟩

end Rcpr.DList
