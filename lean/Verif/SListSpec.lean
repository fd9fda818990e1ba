import Verif.SList

/-!
The abstract specification of singly linked lists: a world of lists is an
association list from list handles to sequences of (node handle, child) pairs.
Nothing here mentions next/parent pointers, heads, tails or counters.
-/
namespace Rcpr.SList

/-- contents of one list: node handles with the child stored in each -/
abbrev Seq := List (Addr × Addr)

/-- all existing lists, by handle -/
abbrev World := List (Addr × Seq)

/-- Abstract state: the lists and the children whose release method has been called. -/
structure Spec where
  lists : World
  released : List Addr

def Seq.addrs (xs : Seq) : List Addr := xs.map Prod.fst
def Seq.children (xs : Seq) : List Addr := xs.map Prod.snd

/-- handle of the first node, `NULL` for the empty sequence -/
def Seq.first (xs : Seq) : Addr := match xs.head? with | none => 0 | some p => p.1
/-- handle of the last node, `NULL` for the empty sequence -/
def Seq.last (xs : Seq) : Addr := match xs.getLast? with | none => 0 | some p => p.1

/-- `a` is a legal answer of the allocator for a new node -/
def FreshNode (w : World) (a : Addr) : Prop := a ≠ 0 ∧ ∀ l xs, (l, xs) ∈ w → a ∉ Seq.addrs xs
/-- `l` is a legal answer of the allocator for a new list -/
def FreshList (w : World) (l : Addr) : Prop := l ≠ 0 ∧ ∀ xs, (l, xs) ∉ w

theorem FreshNode.of {w : World} {a : Addr} (h : a ≠ 0 ∧ ∀ p ∈ w, a ∉ p.2.map Prod.fst) : FreshNode w a :=
  ⟨h.1, fun l xs hm => h.2 (l, xs) hm⟩
theorem FreshList.of {w : World} {a : Addr} (h : a ≠ 0 ∧ ∀ p ∈ w, p.1 ≠ a) : FreshList w a :=
  ⟨h.1, fun xs hm => h.2 (a, xs) hm rfl⟩

/-- The abstract meaning of each call when every release succeeds. A call that matches
no rule violates the interface's preconditions (dangling handle, `NULL` resource). -/
inductive SpecStep : Spec → Op → Out → Spec → Prop
  | create_fail {s} : SpecStep s (.create none) (.ptr ERROR_GENERAL_OUT_OF_MEMORY 0) s
  | create_ok {s l} (hf : FreshList s.lists l) :
      SpecStep s (.create (some l)) (.ptr SUCCESS l) { s with lists := (l, []) :: s.lists }
  | insertHead_fail {A B l xs R r} (hr : r ≠ 0) :
      SpecStep ⟨A ++ (l, xs) :: B, R⟩ (.insertHead l r none) (.st ERROR_GENERAL_OUT_OF_MEMORY)
        ⟨A ++ (l, xs) :: B, R⟩
  | insertHead_ok {A B l xs R r a} (hr : r ≠ 0) (hf : FreshNode (A ++ (l, xs) :: B) a) :
      SpecStep ⟨A ++ (l, xs) :: B, R⟩ (.insertHead l r (some a)) (.st SUCCESS)
        ⟨A ++ (l, (a, r) :: xs) :: B, R⟩
  | appendTail_fail {A B l xs R r} (hr : r ≠ 0) :
      SpecStep ⟨A ++ (l, xs) :: B, R⟩ (.appendTail l r none) (.st ERROR_GENERAL_OUT_OF_MEMORY)
        ⟨A ++ (l, xs) :: B, R⟩
  | appendTail_ok {A B l xs R r a} (hr : r ≠ 0) (hf : FreshNode (A ++ (l, xs) :: B) a) :
      SpecStep ⟨A ++ (l, xs) :: B, R⟩ (.appendTail l r (some a)) (.st SUCCESS)
        ⟨A ++ (l, xs ++ [(a, r)]) :: B, R⟩
  | append_fail {A B l xs n c ys R r} (hr : r ≠ 0) :
      SpecStep ⟨A ++ (l, xs ++ (n, c) :: ys) :: B, R⟩ (.append n r none)
        (.st ERROR_GENERAL_OUT_OF_MEMORY) ⟨A ++ (l, xs ++ (n, c) :: ys) :: B, R⟩
  | append_ok {A B l xs n c ys R r a} (hr : r ≠ 0)
      (hf : FreshNode (A ++ (l, xs ++ (n, c) :: ys) :: B) a) :
      SpecStep ⟨A ++ (l, xs ++ (n, c) :: ys) :: B, R⟩ (.append n r (some a)) (.st SUCCESS)
        ⟨A ++ (l, xs ++ (n, c) :: (a, r) :: ys) :: B, R⟩
  | pop_empty {A B l R rIn} :
      SpecStep ⟨A ++ (l, []) :: B, R⟩ (.pop l rIn) (.ptr SUCCESS rIn) ⟨A ++ (l, []) :: B, R⟩
  | pop_ok {A B l n c xs R rIn} :
      SpecStep ⟨A ++ (l, (n, c) :: xs) :: B, R⟩ (.pop l rIn) (.ptr SUCCESS c)
        ⟨A ++ (l, xs) :: B, R⟩
  | nextPop_last {A B l xs n c R rIn} :
      SpecStep ⟨A ++ (l, xs ++ [(n, c)]) :: B, R⟩ (.nextPop n rIn) (.ptr SUCCESS rIn)
        ⟨A ++ (l, xs ++ [(n, c)]) :: B, R⟩
  | nextPop_ok {A B l xs n c n' c' ys R rIn} :
      SpecStep ⟨A ++ (l, xs ++ (n, c) :: (n', c') :: ys) :: B, R⟩ (.nextPop n rIn) (.ptr SUCCESS c')
        ⟨A ++ (l, xs ++ (n, c) :: ys) :: B, R⟩
  | childSwap_ok {A B l xs n c ys R r} (hr : r ≠ 0) :
      SpecStep ⟨A ++ (l, xs ++ (n, c) :: ys) :: B, R⟩ (.childSwap n r) (.ptr SUCCESS c)
        ⟨A ++ (l, xs ++ (n, r) :: ys) :: B, R⟩
  | clear_ok {A B l xs R f} (hf : xs.length < f) :
      SpecStep ⟨A ++ (l, xs) :: B, R⟩ (.clear l f) (.st SUCCESS)
        ⟨A ++ (l, []) :: B, R ++ Seq.children xs⟩
  | release_ok {A B l xs R f} (hf : xs.length < f) :
      SpecStep ⟨A ++ (l, xs) :: B, R⟩ (.release l f) (.st SUCCESS)
        ⟨A ++ B, R ++ Seq.children xs⟩
  | head_ok {s l xs} (h : (l, xs) ∈ s.lists) : SpecStep s (.head l) (.ptr SUCCESS (Seq.first xs)) s
  | tail_ok {s l xs} (h : (l, xs) ∈ s.lists) : SpecStep s (.tail l) (.ptr SUCCESS (Seq.last xs)) s
  | count_ok {s l xs} (h : (l, xs) ∈ s.lists) :
      SpecStep s (.count l) (.cnt (BitVec.ofNat 64 xs.length)) s
  | next_ok {s l xs n c ys} (h : (l, xs ++ (n, c) :: ys) ∈ s.lists) :
      SpecStep s (.next n) (.ptr SUCCESS (Seq.first ys)) s
  | child_ok {s l xs n c ys} (h : (l, xs ++ (n, c) :: ys) ∈ s.lists) :
      SpecStep s (.child n) (.ptr SUCCESS c) s

/-- Histories of the specification. -/
inductive SpecRun : Spec → List Op → List Out → Spec → Prop
  | nil {s} : SpecRun s [] [] s
  | cons {s s' s'' op o ops os} (h : SpecStep s op o s') (t : SpecRun s' ops os s'') :
      SpecRun s (op :: ops) (o :: os) s''

/-- The specification's initial state: no lists, nothing released. -/
def Spec.empty : Spec := ⟨[], []⟩

/-! ### Representation invariant -/

def hdOr (xs : Seq) (q : Addr) : Addr := match xs with | [] => q | (a, _) :: _ => a

/-- The nodes of `xs` are linked in memory `h`, all owned by list `l`, last one pointing to `q`. -/
def seg (h : Addr → Option Node) (l : Addr) : Seq → Addr → Prop
  | [], _ => True
  | (a, c) :: xs, q => a ≠ 0 ∧ c ≠ 0 ∧ h a = some ⟨l, hdOr xs q, c⟩ ∧ seg h l xs q

def hdrOf (xs : Seq) : Hdr := ⟨Seq.first xs, Seq.last xs, BitVec.ofNat 64 xs.length⟩

structure Inv (m : Mem) (s : Spec) : Prop where
  keys : (s.lists.map Prod.fst).Nodup
  hdr : ∀ l xs, (l, xs) ∈ s.lists → m.lists l = some (hdrOf xs)
  noList : ∀ l, l ∉ s.lists.map Prod.fst → m.lists l = none
  segs : ∀ l xs, (l, xs) ∈ s.lists → seg m.nodes l xs 0
  nodup : ∀ l xs, (l, xs) ∈ s.lists → (Seq.addrs xs).Nodup
  owned : ∀ a n, m.nodes a = some n → ∃ xs, (n.parent, xs) ∈ s.lists ∧ a ∈ Seq.addrs xs
  rel : m.released = s.released

theorem upd_same {β} (f : Addr → β) (a : Addr) (v : β) : upd f a v a = v := by simp [upd]
theorem upd_ne {β} (f : Addr → β) {a x : Addr} (v : β) (h : x ≠ a) : upd f a v x = f x := by simp [upd, h]

@[simp] theorem addrs_nil : Seq.addrs [] = [] := rfl
@[simp] theorem addrs_cons (p : Addr × Addr) (xs : Seq) : Seq.addrs (p :: xs) = p.1 :: Seq.addrs xs := rfl
@[simp] theorem addrs_append (xs ys : Seq) : Seq.addrs (xs ++ ys) = Seq.addrs xs ++ Seq.addrs ys := by
  simp [Seq.addrs]

theorem first_eq (xs : Seq) : Seq.first xs = hdOr xs 0 := by
  cases xs <;> simp [Seq.first, hdOr]

theorem hdOr_append (xs ys : Seq) (q : Addr) : hdOr (xs ++ ys) q = hdOr xs (hdOr ys q) := by
  cases xs <;> simp [hdOr]

theorem seg_append (h : Addr → Option Node) (l : Addr) (xs ys : Seq) (q : Addr) :
    seg h l (xs ++ ys) q ↔ seg h l xs (hdOr ys q) ∧ seg h l ys q := by
  induction xs with
  | nil => simp [seg]
  | cons p xs ih =>
    obtain ⟨a, c⟩ := p
    simp only [List.cons_append, seg, hdOr_append, ih]
    constructor
    · rintro ⟨h1, h2, h3, h4, h5⟩; exact ⟨⟨h1, h2, h3, h4⟩, h5⟩
    · rintro ⟨⟨h1, h2, h3, h4⟩, h5⟩; exact ⟨h1, h2, h3, h4, h5⟩

theorem seg_congr {h h' : Addr → Option Node} {l : Addr} {xs : Seq} {q : Addr}
    (hh : ∀ a ∈ Seq.addrs xs, h' a = h a) (hs : seg h l xs q) : seg h' l xs q := by
  induction xs with
  | nil => trivial
  | cons p xs ih =>
    obtain ⟨a, c⟩ := p
    obtain ⟨h1, h2, h3, h4⟩ := hs
    refine ⟨h1, h2, ?_, ih (fun b hb => hh b (by simp [hb])) h4⟩
    rw [hh a (by simp)]; exact h3

theorem seg_mem {h : Addr → Option Node} {l : Addr} {xs : Seq} {q a : Addr}
    (hs : seg h l xs q) (ha : a ∈ Seq.addrs xs) : a ≠ 0 ∧ ∃ n, h a = some n ∧ n.parent = l := by
  induction xs with
  | nil => simp at ha
  | cons p xs ih =>
    obtain ⟨b, c⟩ := p
    obtain ⟨h1, h2, h3, h4⟩ := hs
    simp only [addrs_cons, List.mem_cons] at ha
    rcases ha with rfl | ha
    · exact ⟨h1, _, h3, rfl⟩
    · exact ih h4 ha

theorem keys_split {A B : World} {l : Addr} {xs ys : Seq}
    (hk : ((A ++ (l, xs) :: B).map Prod.fst).Nodup) (h : (l, ys) ∈ A ++ (l, xs) :: B) : ys = xs := by
  simp only [List.map_append, List.map_cons, List.nodup_append, List.nodup_cons] at hk
  obtain ⟨hA, ⟨hB1, hB2⟩, hAB⟩ := hk
  simp only [List.mem_append, List.mem_cons] at h
  rcases h with h | h | h
  · exact absurd rfl (hAB l (List.mem_map.2 ⟨_, h, rfl⟩) l (by simp))
  · simp at h; exact h
  · exact absurd (List.mem_map.2 ⟨_, h, rfl⟩) hB1

/-- Replacing one list's contents in memory preserves the invariant, provided only that
list's nodes and header changed. -/
theorem Inv.update {m m' : Mem} {A B : World} {l : Addr} {xs xs' : Seq} {R R' : List Addr}
    (inv : Inv m ⟨A ++ (l, xs) :: B, R⟩)
    (hl : m'.lists = upd m.lists l (some (hdrOf xs')))
    (hseg : seg m'.nodes l xs' 0)
    (hnd : (Seq.addrs xs').Nodup)
    (hframe : ∀ a, a ∉ Seq.addrs xs → a ∉ Seq.addrs xs' → m'.nodes a = m.nodes a)
    (hnew : ∀ a ∈ Seq.addrs xs', a ∈ Seq.addrs xs ∨ m.nodes a = none)
    (hdel : ∀ a ∈ Seq.addrs xs, a ∉ Seq.addrs xs' → m'.nodes a = none)
    (hR : m'.released = R') :
    Inv m' ⟨A ++ (l, xs') :: B, R'⟩ := by
  obtain ⟨keys, hdr, noList, segs, nodup, owned, rel⟩ := inv
  have hkeys' : ((A ++ (l, xs') :: B).map Prod.fst) = ((A ++ (l, xs) :: B).map Prod.fst) := by simp
  have hin : ∀ p ys, p ≠ l → ((p, ys) ∈ A ++ (l, xs') :: B ↔ (p, ys) ∈ A ++ (l, xs) :: B) := by
    intro p ys hp; simp [hp]
  have hother : ∀ p ys, p ≠ l → (p, ys) ∈ A ++ (l, xs') :: B →
      ∀ a ∈ Seq.addrs ys, m'.nodes a = m.nodes a := by
    intro p ys hp hmem a ha
    have hmem' := (hin p ys hp).1 hmem
    obtain ⟨ha0, n, hn, hpar⟩ := seg_mem (segs p ys hmem') ha
    apply hframe
    · intro hx
      obtain ⟨_, n', hn', hpar'⟩ := seg_mem (segs l xs (by simp)) hx
      rw [hn] at hn'; simp at hn'; subst hn'; exact hp (hpar.symm.trans hpar')
    · intro hx
      rcases hnew a hx with h | h
      · obtain ⟨_, n', hn', hpar'⟩ := seg_mem (segs l xs (by simp)) h
        rw [hn] at hn'; simp at hn'; subst hn'; exact hp (hpar.symm.trans hpar')
      · rw [hn] at h; simp at h
  refine ⟨by simpa only [hkeys'] using keys, ?_, ?_, ?_, ?_, ?_, hR⟩
  · intro p ys hmem
    by_cases hp : p = l
    · subst hp
      have := keys_split (by simpa only [hkeys'] using keys) hmem
      subst this; rw [hl, upd_same]
    · rw [hl, upd_ne _ _ hp]; exact hdr p ys ((hin p ys hp).1 hmem)
  · intro p hp
    have hp' : p ≠ l := by rintro rfl; simp at hp
    rw [hl, upd_ne _ _ hp']
    exact noList p (by simpa only [hkeys'] using hp)
  · intro p ys hmem
    by_cases hp : p = l
    · subst hp
      have := keys_split (by simpa only [hkeys'] using keys) hmem
      subst this; exact hseg
    · exact seg_congr (hother p ys hp hmem) (segs p ys ((hin p ys hp).1 hmem))
  · intro p ys hmem
    by_cases hp : p = l
    · subst hp
      have := keys_split (by simpa only [hkeys'] using keys) hmem
      subst this; exact hnd
    · exact nodup p ys ((hin p ys hp).1 hmem)
  · intro a n hn
    by_cases h1 : a ∈ Seq.addrs xs'
    · obtain ⟨_, n', hn', hpar⟩ := seg_mem hseg h1
      rw [hn] at hn'; simp at hn'; subst hn'
      exact ⟨xs', by simp [hpar], h1⟩
    · by_cases h2 : a ∈ Seq.addrs xs
      · rw [hdel a h2 h1] at hn; simp at hn
      · rw [hframe a h2 h1] at hn
        obtain ⟨ys, hys, hay⟩ := owned a n hn
        by_cases hp : n.parent = l
        · rw [hp] at hys
          have := keys_split keys hys
          subst this; exact absurd hay h2
        · exact ⟨ys, (hin _ _ hp).2 hys, hay⟩

theorem Inv.empty : Inv Mem.empty Spec.empty := by
  refine ⟨by simp [Spec.empty], ?_, ?_, ?_, ?_, ?_, rfl⟩ <;> simp [Spec.empty, Mem.empty]

/-- A fresh allocator answer is unallocated in memory. -/
theorem Inv.fresh {m : Mem} {s : Spec} (inv : Inv m s) {a : Addr} (h : FreshNode s.lists a) :
    m.nodes a = none := by
  cases hn : m.nodes a with
  | none => rfl
  | some n =>
    obtain ⟨xs, h1, h2⟩ := inv.owned a n hn
    exact absurd h2 (h.2 _ _ h1)

theorem last_append (xs : Seq) (p : Addr × Addr) : Seq.last (xs ++ [p]) = p.1 := by simp [Seq.last]

theorem last_cons_cons (p q : Addr × Addr) (xs : Seq) : Seq.last (p :: q :: xs) = Seq.last (q :: xs) := by
  simp [Seq.last, List.getLast?_cons_cons]

theorem last_append_cons (xs : Seq) (p : Addr × Addr) (ys : Seq) :
    Seq.last (xs ++ p :: ys) = Seq.last (p :: ys) := by
  simp [Seq.last, List.getLast?_append, List.getLast?_cons]

theorem last_mem {xs : Seq} (h : xs ≠ []) : Seq.last xs ∈ Seq.addrs xs := by
  have := List.getLast?_eq_some_getLast h
  rw [Seq.last, this]
  exact List.mem_map.2 ⟨_, List.getLast_mem h, rfl⟩

end Rcpr.SList
