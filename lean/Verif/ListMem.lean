import Verif.Queue

/-!
Lists in memory seen as a map from list addresses to contents: the form in which the proofs about `Verif.FibMem`
use the refinement of `Verif.SListProof`.
-/
namespace Rcpr.SList

open Rcpr

/-- Memory `m` holds exactly the lists of `C`, and its nodes have addresses of 64 bits. -/
structure Maps (m : Mem) (C : Addr → Option (List Addr)) : Prop where
  ex : ∃ L, Inv m ⟨L, m.released⟩ ∧ ∀ l cs, C l = some cs ↔ ∃ xs, (l, xs) ∈ L ∧ Seq.children xs = cs
  small : ∀ a, m.nodes a ≠ none → a < 2 ^ 64

theorem Maps.empty : Maps Mem.empty (fun _ => none) :=
  ⟨⟨[], Inv.empty, by simp⟩, by simp [Mem.empty]⟩

/-- exchanging the contents of one list -/
theorem maps_upd {C : Addr → Option (List Addr)} {A B : World} {l : Addr} {xs xs' : Seq}
    (hk : ((A ++ (l, xs) :: B).map Prod.fst).Nodup)
    (hC : ∀ p cs, C p = some cs ↔ ∃ ys, (p, ys) ∈ A ++ (l, xs) :: B ∧ Seq.children ys = cs) (p : Addr) (cs : List Addr) :
    upd C l (some (Seq.children xs')) p = some cs ↔ ∃ ys, (p, ys) ∈ A ++ (l, xs') :: B ∧ Seq.children ys = cs := by
  by_cases hp : p = l
  · subst hp
    rw [upd_same]
    have hk' : ((A ++ (p, xs') :: B).map Prod.fst).Nodup := by simpa using hk
    constructor
    · intro h; exact ⟨xs', by simp, by simpa using h⟩
    · rintro ⟨ys, h1, h2⟩
      rw [keys_split hk' h1] at h2
      rw [h2]
  · rw [upd_ne _ _ hp, hC]
    simp [hp]

theorem Maps.split {m : Mem} {C : Addr → Option (List Addr)} (h : Maps m C) {l : Addr} {cs : List Addr} (hl : C l = some cs) :
    ∃ A B xs, Inv m ⟨A ++ (l, xs) :: B, m.released⟩ ∧ Seq.children xs = cs ∧
      ∀ p cs, C p = some cs ↔ ∃ ys, (p, ys) ∈ A ++ (l, xs) :: B ∧ Seq.children ys = cs := by
  obtain ⟨L, inv, hC⟩ := h.ex
  obtain ⟨xs, h1, h2⟩ := (hC l cs).1 hl
  obtain ⟨A, B, rfl⟩ := List.append_of_mem h1
  exact ⟨A, B, xs, inv, h2, hC⟩

/-- the allocator's answer for a node: an address that is not in use -/
def Unused (m : Mem) (ans : Option Addr) : Prop := ∀ a, ans = some a → a ≠ 0 ∧ a < 2 ^ 64 ∧ m.nodes a = none

theorem unused_fresh {m : Mem} {s : Spec} (inv : Inv m s) {a : Addr} (h0 : a ≠ 0) (h : m.nodes a = none) : FreshNode s.lists a := by
  refine ⟨h0, ?_⟩
  intro l xs hm ha
  obtain ⟨_, n, hn, _⟩ := seg_mem (inv.segs l xs hm) ha
  rw [h] at hn; simp at hn

/-- distinct numbers from 1 to n are at most n -/
theorem nodup_le : ∀ (n : Nat) (l : List Nat), l.Nodup → (∀ a ∈ l, a ≠ 0 ∧ a ≤ n) → l.length ≤ n
  | 0, l, _, h => by
    cases l with
    | nil => simp
    | cons a l => have := h a (by simp); omega
  | n + 1, l, hn, h => by
    have h1 := nodup_le n (l.erase (n + 1)) (hn.erase _) fun a ha => by
      have h2 := (List.Nodup.mem_erase_iff hn).1 ha
      have := h a h2.2
      have := h2.1
      omega
    have h2 := List.length_erase (a := n + 1) (l := l)
    split at h2 <;> omega

theorem Maps.length {m : Mem} {C : Addr → Option (List Addr)} (h : Maps m C) {l : Addr} {cs : List Addr} (hl : C l = some cs) :
    cs.length < 2 ^ 64 := by
  obtain ⟨A, B, xs, inv, rfl, hC⟩ := h.split hl
  have h1 := nodup_le (2 ^ 64 - 1) (Seq.addrs xs) (inv.nodup l xs (by simp)) fun a ha => by
    obtain ⟨h0, n, hn, _⟩ := seg_mem (inv.segs l xs (by simp)) ha
    have := h.small a (by rw [hn]; simp)
    exact ⟨h0, Nat.le_sub_one_of_lt this⟩
  simp only [Seq.addrs, Seq.children, List.length_map] at h1 ⊢
  omega

theorem Maps.nonzero {m : Mem} {C : Addr → Option (List Addr)} (h : Maps m C) {l : Addr} {cs : List Addr} (hl : C l = some cs) :
    ∀ c ∈ cs, c ≠ 0 := by
  obtain ⟨A, B, xs, inv, rfl, hC⟩ := h.split hl
  have hs := inv.segs l xs (by simp)
  clear inv hl hC
  induction xs with
  | nil => simp [Seq.children]
  | cons p xs ih =>
    obtain ⟨a, c⟩ := p
    intro d hd
    simp only [Seq.children, List.map_cons, List.mem_cons] at hd
    rcases hd with rfl | hd
    · exact hs.2.1
    · exact ih hs.2.2.2 d hd

theorem Maps.count {m : Mem} {C : Addr → Option (List Addr)} (h : Maps m C) {l : Addr} {cs : List Addr} (hl : C l = some cs) :
    ∃ n, SList.count m l = some n ∧ n.toNat = cs.length := by
  obtain ⟨A, B, xs, inv, he, hC⟩ := h.split hl
  refine ⟨BitVec.ofNat 64 xs.length, by simp [SList.count, inv.hdr l xs (by simp), hdrOf], ?_⟩
  have := h.length hl
  rw [← he] at this ⊢
  simp only [Seq.children, List.length_map] at this ⊢
  simp [Nat.mod_eq_of_lt this]

/-! What the operations do to the nodes. -/

theorem nodeCreate_nodes {m m' : Mem} {ans : Option Addr} {l r n : Addr} {st : Status}
    (h : nodeCreate m ans l r = some (st, n, m')) : ∀ a, m'.nodes a ≠ none → m.nodes a ≠ none ∨ ans = some a := by
  unfold nodeCreate at h
  cases hl : m.lists l with
  | none => rw [hl] at h; cases h
  | some hd =>
    rw [hl] at h
    cases ans with
    | none => simp only [Option.some.injEq, Prod.mk.injEq] at h; obtain ⟨_, _, rfl⟩ := h; exact fun a ha => .inl ha
    | some b =>
      simp only [Option.some.injEq, Prod.mk.injEq] at h
      obtain ⟨_, _, rfl⟩ := h
      intro a ha
      by_cases hb : a = b
      · exact .inr (by rw [hb])
      · left; simpa [upd, hb] using ha

/-- after one of the operations every node belongs to a list -/
theorem small_of {m m' : Mem} {L : World} {A B : World} {l : Addr} {xs xs' : Seq} (hL : L = A ++ (l, xs) :: B)
    (inv : Inv m ⟨L, m.released⟩) {R : List Addr} (inv' : Inv m' ⟨A ++ (l, xs') :: B, R⟩) (h : ∀ a, m.nodes a ≠ none → a < 2 ^ 64)
    (hx : ∀ a ∈ Seq.addrs xs', a ∈ Seq.addrs xs ∨ a < 2 ^ 64) : ∀ a, m'.nodes a ≠ none → a < 2 ^ 64 := by
  intro a ha
  subst hL
  cases hn : m'.nodes a with
  | none => exact absurd hn ha
  | some n =>
    obtain ⟨ys, h1, h2⟩ := inv'.owned a n hn
    have old : ∀ (p : Addr) (zs : Seq), (p, zs) ∈ A ++ (l, xs) :: B → a ∈ Seq.addrs zs → a < 2 ^ 64 := fun p zs hz ha => by
      obtain ⟨_, k, hk, _⟩ := seg_mem (inv.segs p zs hz) ha
      exact h a (by rw [hk]; simp)
    by_cases hp : n.parent = l
    · rw [hp] at h1
      have := keys_split inv'.keys h1
      subst this
      rcases hx a h2 with h3 | h3
      · exact old l xs (by simp) h3
      · exact h3
    · refine old n.parent ys ?_ h2
      simpa [hp] using h1

/-! The operations. -/

variable {m : Mem} {C : Addr → Option (List Addr)} {l : Addr} {cs : List Addr}

theorem Maps.appendTail (h : Maps m C) (hl : C l = some cs) {r : Addr} (hr : r ≠ 0) {ans : Option Addr} (hu : Unused m ans) :
    (ans = none ∧ SList.appendTail m ans l r = some (ERROR_GENERAL_OUT_OF_MEMORY, m)) ∨
    ∃ m', ans ≠ none ∧ SList.appendTail m ans l r = some (SUCCESS, m') ∧ m'.released = m.released ∧
      Maps m' (upd C l (some (cs ++ [r]))) := by
  obtain ⟨A, B, xs, inv, rfl, hC⟩ := h.split hl
  cases ans with
  | none =>
    left
    refine ⟨rfl, ?_⟩
    simp [SList.appendTail, nodeCreate, inv.hdr l xs (by simp), OOM_ne]
  | some a =>
    right
    obtain ⟨h0, h1, h2⟩ := hu a rfl
    obtain ⟨m', e, inv'⟩ := appendTail_refines inv hr (unused_fresh inv h0 h2)
    refine ⟨m', by simp, e, inv'.rel, ⟨_, by rw [inv'.rel]; exact inv', ?_⟩, small_of rfl inv inv' h.small ?_⟩
    · intro p ds
      have := maps_upd (xs' := xs ++ [(a, r)]) inv.keys hC p ds
      simpa [Seq.children] using this
    · intro b hb
      simp only [addrs_append, List.mem_append] at hb
      rcases hb with hb | hb
      · exact .inl hb
      · right; simp only [Seq.addrs, List.map_cons, List.map_nil, List.mem_singleton] at hb; rw [hb]; exact h1

theorem Maps.insertHead (h : Maps m C) (hl : C l = some cs) {r : Addr} (hr : r ≠ 0) {ans : Option Addr} (hu : Unused m ans) :
    (ans = none ∧ SList.insertHead m ans l r = some (ERROR_GENERAL_OUT_OF_MEMORY, m)) ∨
    ∃ m', ans ≠ none ∧ SList.insertHead m ans l r = some (SUCCESS, m') ∧ m'.released = m.released ∧
      Maps m' (upd C l (some (r :: cs))) := by
  obtain ⟨A, B, xs, inv, rfl, hC⟩ := h.split hl
  cases ans with
  | none =>
    left
    refine ⟨rfl, ?_⟩
    simp [SList.insertHead, nodeCreate, inv.hdr l xs (by simp), OOM_ne]
  | some a =>
    right
    obtain ⟨h0, h1, h2⟩ := hu a rfl
    obtain ⟨m', e, inv'⟩ := insertHead_refines inv hr (unused_fresh inv h0 h2)
    refine ⟨m', by simp, e, inv'.rel, ⟨_, by rw [inv'.rel]; exact inv', ?_⟩, small_of rfl inv inv' h.small ?_⟩
    · intro p ds
      have := maps_upd (xs' := (a, r) :: xs) inv.keys hC p ds
      simpa [Seq.children] using this
    · intro b hb
      simp only [addrs_cons, List.mem_cons] at hb
      rcases hb with hb | hb
      · right; rw [hb]; exact h1
      · exact .inl hb

theorem Maps.pop {c : Addr} (h : Maps m C) (hl : C l = some (c :: cs)) (rIn : Addr) :
    ∃ m', SList.pop okEnv m l rIn = some (SUCCESS, c, m') ∧ m'.released = m.released ∧ Maps m' (upd C l (some cs)) := by
  obtain ⟨A, B, xs, inv, hx, hC⟩ := h.split hl
  obtain ⟨⟨n, c'⟩, xs, rfl, rfl, rfl⟩ := List.map_eq_cons_iff.1 hx
  obtain ⟨m', e, inv'⟩ := pop_refines (rIn := rIn) inv
  refine ⟨m', e, inv'.rel, ⟨_, by rw [inv'.rel]; exact inv', fun p ds => maps_upd inv.keys hC p ds⟩,
    small_of rfl inv inv' h.small fun b hb => .inl (by simp [hb])⟩

theorem Maps.create (h : Maps m C) (hn : l ≠ 0) (hl : m.lists l = none) :
    SList.create m (some l) = (SUCCESS, l, { m with lists := upd m.lists l (some ⟨0, 0, 0#64⟩) }) ∧ C l = none ∧
      Maps { m with lists := upd m.lists l (some ⟨0, 0, 0#64⟩) } (upd C l (some [])) := by
  obtain ⟨L, inv, hC⟩ := h.ex
  have hno : ∀ xs, (l, xs) ∉ L := fun xs hm => by
    have := inv.hdr l xs hm; rw [hl] at this; cases this
  have inv' := create_refines inv (l := l) ⟨hn, hno⟩
  have hCl : C l = none := by
    cases hc : C l with
    | none => rfl
    | some cs => obtain ⟨xs, h1, _⟩ := (hC l cs).1 hc; exact absurd h1 (hno xs)
  refine ⟨rfl, hCl, ⟨_, inv', fun p ds => ?_⟩, h.small⟩
  by_cases hp : p = l
  · subst hp
    rw [upd_same]
    constructor
    · intro h; exact ⟨[], by simp, by simpa [Seq.children] using h⟩
    · rintro ⟨ys, h1, h2⟩
      simp only [List.mem_cons, Prod.mk.injEq, true_and] at h1
      rcases h1 with rfl | h1
      · rw [← h2]; rfl
      · exact absurd h1 (hno ys)
  · rw [upd_ne _ _ hp, hC]
    simp [hp]

theorem Maps.lists (h : Maps m C) : m.lists l = none ↔ C l = none := by
  obtain ⟨L, inv, hC⟩ := h.ex
  constructor
  · intro hl
    cases hc : C l with
    | none => rfl
    | some cs =>
      obtain ⟨xs, h1, _⟩ := (hC l cs).1 hc
      have := inv.hdr l xs h1; rw [hl] at this; cases this
  · intro hc
    apply inv.noList
    intro hm
    obtain ⟨⟨p, xs⟩, h1, rfl⟩ := List.mem_map.1 hm
    have := (hC p _).2 ⟨xs, h1, rfl⟩
    rw [hc] at this; cases this

theorem Maps.release (h : Maps m C) (hl : C l = some cs) {f : Nat} (hf : cs.length < f) :
    ∃ m', SList.release okEnv f m l = some (SUCCESS, m') ∧ m'.released = m.released ++ cs ∧ Maps m' (upd C l none) := by
  obtain ⟨A, B, xs, inv, rfl, hC⟩ := h.split hl
  obtain ⟨m', e, inv'⟩ := release_refines inv (f := f) (by simpa [Seq.children] using hf)
  refine ⟨m', e, inv'.rel, ⟨_, by rw [inv'.rel]; exact inv', fun p ds => ?_⟩, fun a ha => ?_⟩
  · have hk := inv.keys
    simp only [List.map_append, List.map_cons, List.nodup_append, List.nodup_cons, List.mem_cons] at hk
    by_cases hp : p = l
    · subst hp
      rw [upd_same]
      simp only [reduceCtorEq, false_iff]
      rintro ⟨ys, h1, _⟩
      rcases List.mem_append.1 h1 with h1 | h1
      · exact hk.2.2 p (List.mem_map.2 ⟨_, h1, rfl⟩) p (.inl rfl) rfl
      · exact hk.2.1.1 (List.mem_map.2 ⟨_, h1, rfl⟩)
    · rw [upd_ne _ _ hp, hC]
      simp [hp]
  · cases hn : m'.nodes a with
    | none => exact absurd hn ha
    | some n =>
      obtain ⟨ys, h1, h2⟩ := inv'.owned a n hn
      obtain ⟨_, k, hk, _⟩ := seg_mem (inv.segs n.parent ys (by
        rcases List.mem_append.1 h1 with h1 | h1 <;> simp [h1])) h2
      exact h.small a (by rw [hk]; simp)

end Rcpr.SList
