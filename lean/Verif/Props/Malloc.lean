import Verif.MallocSpec

/-!
C72: the malloc allocator gives each client region bytes of its own.
-/
namespace Rcpr.Malloc

open Rcpr

/-! ### Helpers -/

theorem has_self (b : Block) : b.has b.1 = true := by
  simp only [Block.has, decide_eq_true_eq]
  omega

theorem owned_iff {bs : List Block} {x : Nat} : owned bs x = true ↔ ∃ b ∈ bs, b.has x = true := by
  simp [owned]

theorem owned_false {bs : List Block} {x : Nat} : owned bs x = false ↔ ∀ b ∈ bs, b.has x = false := by
  simp [owned]

/-- In a list of blocks that do not overlap, a block is determined by any of its bytes. -/
theorem apart_unique {bs : List Block} (h : bs.Pairwise Disjoint) {b b' : Block} (hb : b ∈ bs) (hb' : b' ∈ bs)
    {x : Nat} (hx : b.has x = true) (hx' : b'.has x = true) : b = b' := by
  induction bs with
  | nil => cases hb
  | cons d bs ih =>
    have hd := List.pairwise_cons.1 h
    rcases List.mem_cons.1 hb with h1 | h1
    · rcases List.mem_cons.1 hb' with h2 | h2
      · rw [h1, h2]
      · subst h1
        exact absurd hx' (by simp [hd.1 b' h2 x hx])
    · rcases List.mem_cons.1 hb' with h2 | h2
      · subst h2
        exact absurd hx (by simp [hd.1 b h1 x hx'])
      · exact ih hd.2 h1 h2

theorem find_block {bs : List Block} (h : bs.Pairwise Disjoint) {b : Block} (hb : b ∈ bs) :
    bs.find? (·.1 == b.1) = some b := by
  cases hf : bs.find? (·.1 == b.1) with
  | none =>
    have := List.find?_eq_none.1 hf b hb
    simp at this
  | some d =>
    have h1 := List.mem_of_find?_eq_some hf
    have h2 : d.1 = b.1 := by simpa using List.find?_some hf
    have := has_self d
    rw [h2] at this
    rw [apart_unique h hb h1 (has_self b) this]

/-- Erasing a block leaves the others. -/
theorem mem_erase_block {bs : List Block} (h : bs.Pairwise Disjoint) {b d : Block} :
    d ∈ bs.erase b ↔ d ∈ bs ∧ d ≠ b := by
  induction bs with
  | nil => simp
  | cons e bs ih =>
    have hd := List.pairwise_cons.1 h
    by_cases he : e = b
    · subst he
      simp only [List.erase_cons_head, List.mem_cons]
      constructor
      · intro hm
        refine ⟨Or.inr hm, ?_⟩
        rintro rfl
        have := hd.1 d hm d.1 (has_self d)
        rw [has_self] at this
        cases this
      · rintro ⟨rfl | hm, hne⟩
        · exact absurd rfl hne
        · exact hm
    · rw [List.erase_cons_tail (by simpa using he)]
      simp only [List.mem_cons, ih hd.2]
      constructor
      · rintro (rfl | ⟨h1, h2⟩)
        · exact ⟨Or.inl rfl, he⟩
        · exact ⟨Or.inr h1, h2⟩
      · rintro ⟨rfl | h1, h2⟩
        · exact Or.inl rfl
        · exact Or.inr ⟨h1, h2⟩

theorem erase_eq_filter {bs : List Block} (h : bs.Pairwise Disjoint) {b : Block} (hb : b ∈ bs) {x : Nat} :
    owned (bs.erase b) x = owned (bs.filter (·.1 != b.1)) x := by
  have : ∀ d, d ∈ bs.erase b ↔ d ∈ bs.filter (·.1 != b.1) := by
    intro d
    rw [mem_erase_block h, List.mem_filter]
    constructor
    · rintro ⟨h1, h2⟩
      refine ⟨h1, ?_⟩
      simp only [bne_iff_ne, ne_eq]
      intro he
      refine h2 (apart_unique h h1 hb (has_self d) ?_)
      rw [he]
      exact has_self b
    · rintro ⟨h1, h2⟩
      refine ⟨h1, ?_⟩
      rintro rfl
      simp at h2
  rw [Bool.eq_iff_iff, owned_iff, owned_iff]
  constructor <;> rintro ⟨d, h1, h2⟩
  · exact ⟨d, (this d).1 h1, h2⟩
  · exact ⟨d, (this d).2 h1, h2⟩

theorem alive_of {R : Regions} {s : St} (h : Rel R s) : alive s = true := by
  simpa [alive] using h.alloc

/-- Adding a legal block keeps blocks apart. -/
theorem apart_cons {bs : List Block} (h : bs.Pairwise Disjoint) {a n : Nat}
    (hl : ∀ x, Block.has (a, n) x = true → owned bs x = false) : ((a, n) :: bs).Pairwise Disjoint := by
  refine List.pairwise_cons.2 ⟨?_, h⟩
  intro b hb x hx
  exact owned_false.1 (hl x hx) b hb

theorem put_same (R : Regions) (i c) : put R i c i = c := if_pos rfl
theorem put_ne (R : Regions) {i j : Nat} (c) (h : j ≠ i) : put R i c j = R j := if_neg h
theorem set_same (v : Nat → Nat) (i p) : set v i p i = p := if_pos rfl
theorem set_ne (v : Nat → Nat) {i j : Nat} (p) (h : j ≠ i) : set v i p j = v j := if_neg h

theorem resize_length (c : List (Option UInt8)) (n : Nat) : (resize c n).length = n := by
  simp only [resize, List.length_append, List.length_take, List.length_replicate]
  omega

theorem resize_some {c : List (Option UInt8)} {n j : Nat} {b : UInt8} (h : (resize c n)[j]? = some (some b)) :
    c[j]? = some (some b) ∧ j < n := by
  have hj : j < n := by
    have := (List.getElem?_eq_some_iff.1 h).1
    rwa [resize_length] at this
  refine ⟨?_, hj⟩
  simp only [resize] at h
  by_cases hc : j < (c.take n).length
  · rw [List.getElem?_append_left hc, List.getElem?_take_of_lt hj] at h
    exact h
  · rw [List.getElem?_append_right (by omega), List.getElem?_replicate] at h
    split at h <;> simp at h

theorem lt_of_some {c : List (Option UInt8)} {j : Nat} {o : Option UInt8} (h : c[j]? = some o) : j < c.length :=
  (List.getElem?_eq_some_iff.1 h).1

/-- A command that is permitted, given a legal answer, is defined, keeps the promise, and leaves a state the
client can rely on. -/
theorem exec_step {zf : Bool} {R : Regions} {s : St} {c : Cmd} {w : Ans} (h : Rel R s) (hp : Permitted R c)
    (hl : LegalFor s c w) (hz : zf = false ∨ ∀ i n, c = .realloc i n → n ≠ 0) :
    ∃ s' o R', exec zf s c w = some (s', o) ∧ Step R c o R' ∧ Rel R' s' ∧ s'.alloc = s.alloc := by
  cases hp with
  | @alloc i n hi =>
    cases hw : w.addr with
    | none =>
      refine ⟨{ s with vars := set s.vars i 0 }, .alloc ERROR_GENERAL_OUT_OF_MEMORY true, R, by
        simp [exec, alive_of h, mallocAllocate, cMalloc, hw], .allocFail hi, ?_, rfl⟩
      have hne : ∀ j c, R j = some c → j ≠ i := by rintro j c hj rfl; rw [hi] at hj; cases hj
      exact {
        apart := h.apart, alloc := h.alloc, alloc0 := h.alloc0
        held := by
          intro j c hj
          dsimp only
          rw [set_ne _ _ (hne j c hj)]
          exact h.held j c hj
        inj := by
          intro j k c d hj hk
          dsimp only
          rw [set_ne _ _ (hne j c hj), set_ne _ _ (hne k d hk)]
          exact h.inj j k c d hj hk
        all := by
          intro b hb
          rcases h.all b hb with h1 | ⟨j, c, hj, h1⟩
          · exact Or.inl h1
          · refine Or.inr ⟨j, c, hj, ?_⟩
            dsimp only
            rw [set_ne _ _ (hne j c hj)]
            exact h1 }
    | some a =>
      obtain ⟨ha0, hfree⟩ := hl a hw
      refine ⟨{ s with
          heap := ⟨fun x => if owned s.heap.live x then s.heap.mem x else w.junk x, (a, n) :: s.heap.live⟩,
          vars := set s.vars i a },
        .alloc SUCCESS false, put R i (some (List.replicate n none)), by
        simp [exec, alive_of h, mallocAllocate, cMalloc, hw, ha0], .allocOk hi, ?_, rfl⟩
      have hne : ∀ j c, R j = some c → j ≠ i := by rintro j c hj rfl; rw [hi] at hj; cases hj
      have hnew : ∀ b ∈ s.heap.live, b.1 ≠ a := by
        rintro b hb rfl
        have := owned_false.1 (hfree b.1 (has_self (b.1, n))) b hb
        rw [has_self] at this
        cases this
      exact {
        apart := apart_cons h.apart hfree
        alloc := List.mem_cons_of_mem _ h.alloc
        alloc0 := h.alloc0
        held := by
          intro j c hj
          dsimp only
          by_cases hji : j = i
          · subst hji
            rw [put_same] at hj
            cases hj
            rw [set_same]
            refine ⟨ha0, (hnew _ h.alloc).symm, by simp, ?_⟩
            intro k b hk
            rw [List.getElem?_replicate] at hk
            split at hk <;> simp at hk
          · rw [put_ne _ _ hji] at hj
            rw [set_ne _ _ hji]
            obtain ⟨h1, h2, h3, h4⟩ := h.held j c hj
            refine ⟨h1, h2, List.mem_cons_of_mem _ h3, ?_⟩
            intro k b hk
            have hlt := lt_of_some hk
            rw [if_pos]
            · exact h4 k b hk
            · refine owned_iff.2 ⟨_, h3, ?_⟩
              simp only [Block.has, decide_eq_true_eq]
              omega
        inj := by
          intro j k c d hj hk
          dsimp only
          by_cases hji : j = i
          · subst hji
            by_cases hkj : k = j
            · exact fun _ => hkj.symm
            · rw [put_ne _ _ hkj] at hk
              rw [set_same, set_ne _ _ hkj]
              intro he
              exact absurd he.symm (hnew _ (h.held k d hk).2.2.1)
          · rw [put_ne _ _ hji] at hj
            by_cases hki : k = i
            · subst hki
              rw [set_same, set_ne _ _ hji]
              intro he
              exact absurd he (hnew _ (h.held j c hj).2.2.1)
            · rw [put_ne _ _ hki] at hk
              rw [set_ne _ _ hji, set_ne _ _ hki]
              exact h.inj j k c d hj hk
        all := by
          intro b hb
          dsimp only at hb ⊢
          rcases List.mem_cons.1 hb with rfl | hb
          · exact Or.inr ⟨i, _, put_same .., (set_same ..).symm⟩
          · rcases h.all b hb with h1 | ⟨j, c, hj, h1⟩
            · exact Or.inl h1
            · refine Or.inr ⟨j, c, ?_, ?_⟩
              · rw [put_ne _ _ (hne j c hj)]
                exact hj
              · rw [set_ne _ _ (hne j c hj)]
                exact h1 }
  | @realloc i n c hi =>
    obtain ⟨h1, h2, h3, h4⟩ := h.held i c hi
    have hfind : s.heap.live.find? (·.1 == s.vars i) = some (s.vars i, c.length) :=
      find_block h.apart (b := (s.vars i, c.length)) h3
    have hz' : ¬ (n = 0 ∧ zf = true) := by
      rintro ⟨hn, hzf⟩
      rcases hz with hz | hz
      · rw [hz] at hzf; cases hzf
      · exact hz i n rfl hn
    cases hw : w.addr with
    | none =>
      refine ⟨{ s with vars := set s.vars i (s.vars i) }, _, R, by
        simp only [exec, alive_of h, mallocReallocate, cRealloc, hfind, h1, hw]
        simp [hz'], .reallocFail hi, ?_, rfl⟩
      have : set s.vars i (s.vars i) = s.vars := by
        funext j
        simp only [set]
        split
        · rename_i hji; rw [hji]
        · rfl
      rw [this]
      exact h
    | some a =>
      obtain ⟨ha0, hfree⟩ := hl a hw
      have hfree' : ∀ x, Block.has (a, n) x = true → owned (s.heap.live.erase (s.vars i, c.length)) x = false := by
        intro x hx
        rw [erase_eq_filter h.apart h3]
        exact hfree x hx
      refine ⟨{ s with
          heap := ⟨fun x =>
            if a ≤ x ∧ x < a + min c.length n then s.heap.mem (s.vars i + (x - a))
            else if owned (s.heap.live.erase (s.vars i, c.length)) x then s.heap.mem x else w.junk x,
            (a, n) :: s.heap.live.erase (s.vars i, c.length)⟩,
          vars := set s.vars i a },
        .realloc SUCCESS (a == s.vars i), put R i (some (resize c n)), by
        simp only [exec, alive_of h, mallocReallocate, cRealloc, hfind, h1, hw]
        simp [hz', ha0], .reallocOk hi, ?_, rfl⟩
      have hkeep : ∀ j d, R j = some d → j ≠ i →
          (s.vars j, d.length) ∈ s.heap.live.erase (s.vars i, c.length) := by
        intro j d hj hji
        refine (mem_erase_block h.apart).2 ⟨(h.held j d hj).2.2.1, ?_⟩
        intro he
        exact hji (h.inj j i d c hj hi (congrArg Prod.fst he))
      have hkeepA : (s.alloc, SIZEOF_ALLOCATOR) ∈ s.heap.live.erase (s.vars i, c.length) := by
        refine (mem_erase_block h.apart).2 ⟨h.alloc, ?_⟩
        intro he
        exact h2 (congrArg Prod.fst he).symm
      have hnew : ∀ b ∈ s.heap.live.erase (s.vars i, c.length), b.1 ≠ a := by
        rintro b hb rfl
        have := owned_false.1 (hfree' b.1 (has_self (b.1, n))) b hb
        rw [has_self] at this
        cases this
      exact {
        apart := apart_cons (h.apart.sublist List.erase_sublist) hfree'
        alloc := List.mem_cons_of_mem _ hkeepA
        alloc0 := h.alloc0
        held := by
          intro j d hj
          dsimp only
          by_cases hji : j = i
          · subst hji
            rw [put_same] at hj
            cases hj
            rw [set_same]
            refine ⟨ha0, (hnew _ hkeepA).symm, by simp [resize_length], ?_⟩
            intro k b hk
            obtain ⟨hk1, hk2⟩ := resize_some hk
            have hlt := lt_of_some hk1
            rw [if_pos (by omega), Nat.add_sub_cancel_left]
            exact h4 k b hk1
          · rw [put_ne _ _ hji] at hj
            rw [set_ne _ _ hji]
            obtain ⟨g1, g2, g3, g4⟩ := h.held j d hj
            refine ⟨g1, g2, List.mem_cons_of_mem _ (hkeep j d hj hji), ?_⟩
            intro k b hk
            have hlt := lt_of_some hk
            have hown : owned (s.heap.live.erase (s.vars i, c.length)) (s.vars j + k) = true := by
              refine owned_iff.2 ⟨_, hkeep j d hj hji, ?_⟩
              simp only [Block.has, decide_eq_true_eq]
              omega
            rw [if_neg, if_pos hown]
            · exact g4 k b hk
            · rintro ⟨k1, k2⟩
              have : Block.has (a, n) (s.vars j + k) = true := by
                simp only [Block.has, decide_eq_true_eq]
                omega
              rw [hfree' _ this] at hown
              cases hown
        inj := by
          intro j k d e hj hk
          dsimp only
          by_cases hji : j = i
          · subst hji
            by_cases hkj : k = j
            · exact fun _ => hkj.symm
            · rw [put_ne _ _ hkj] at hk
              rw [set_same, set_ne _ _ hkj]
              intro he
              exact absurd he.symm (hnew _ (hkeep k e hk hkj))
          · rw [put_ne _ _ hji] at hj
            by_cases hki : k = i
            · subst hki
              rw [set_same, set_ne _ _ hji]
              intro he
              exact absurd he (hnew _ (hkeep j d hj hji))
            · rw [put_ne _ _ hki] at hk
              rw [set_ne _ _ hji, set_ne _ _ hki]
              exact h.inj j k d e hj hk
        all := by
          intro b hb
          dsimp only at hb ⊢
          rcases List.mem_cons.1 hb with rfl | hb
          · exact Or.inr ⟨i, _, put_same .., (set_same ..).symm⟩
          · obtain ⟨hbl, hne⟩ := (mem_erase_block h.apart).1 hb
            rcases h.all b hbl with g1 | ⟨j, d, hj, g1⟩
            · exact Or.inl g1
            · have hji : j ≠ i := by
                rintro rfl
                refine hne (apart_unique h.apart hbl h3 (has_self b) ?_)
                rw [g1]
                exact has_self (s.vars j, c.length)
              refine Or.inr ⟨j, d, ?_, ?_⟩
              · rw [put_ne _ _ hji]
                exact hj
              · rw [set_ne _ _ hji]
                exact g1 }
  | @reclaim i c hi =>
    obtain ⟨h1, h2, h3, h4⟩ := h.held i c hi
    have hfind : s.heap.live.find? (·.1 == s.vars i) = some (s.vars i, c.length) :=
      find_block h.apart (b := (s.vars i, c.length)) h3
    refine ⟨{ s with heap.live := s.heap.live.erase (s.vars i, c.length) }, .status SUCCESS, put R i none, by
      simp only [exec, alive_of h, mallocReclaim, cFree, hfind, h1]
      simp, .reclaim hi, ?_, rfl⟩
    have hlive : ∀ j d, put R i none j = some d → R j = some d ∧ j ≠ i := by
      intro j d hj
      by_cases hji : j = i
      · subst hji
        rw [put_same] at hj
        cases hj
      · rw [put_ne _ _ hji] at hj
        exact ⟨hj, hji⟩
    exact {
      apart := h.apart.sublist List.erase_sublist
      alloc := by
        refine (mem_erase_block h.apart).2 ⟨h.alloc, ?_⟩
        intro he
        exact h2 (congrArg Prod.fst he).symm
      alloc0 := h.alloc0
      held := by
        intro j d hj
        obtain ⟨hj, hji⟩ := hlive j d hj
        obtain ⟨g1, g2, g3, g4⟩ := h.held j d hj
        refine ⟨g1, g2, (mem_erase_block h.apart).2 ⟨g3, ?_⟩, g4⟩
        intro he
        exact hji (h.inj j i d c hj hi (congrArg Prod.fst he))
      inj := by
        intro j k d e hj hk
        exact h.inj j k d e (hlive j d hj).1 (hlive k e hk).1
      all := by
        intro b hb
        obtain ⟨hbl, hne⟩ := (mem_erase_block h.apart).1 hb
        rcases h.all b hbl with g1 | ⟨j, d, hj, g1⟩
        · exact Or.inl g1
        · have hji : j ≠ i := by
            rintro rfl
            refine hne (apart_unique h.apart hbl h3 (has_self b) ?_)
            rw [g1]
            exact has_self (s.vars j, c.length)
          refine Or.inr ⟨j, d, ?_, g1⟩
          rw [put_ne _ _ hji]
          exact hj }
  | control => exact ⟨s, _, R, by simp [exec, alive_of h]; rfl, .control, h, rfl⟩
  | @write i off b c hi ho =>
    obtain ⟨h1, h2, h3, h4⟩ := h.held i c hi
    have hin : inside s.heap (s.vars i + off) = true := by
      simp only [inside, List.any_eq_true, decide_eq_true_eq]
      exact ⟨_, h3, by dsimp only; omega⟩
    refine ⟨{ s with heap.mem := fun x => if x = s.vars i + off then b else s.heap.mem x }, .wrote,
      put R i (some (c.set off (some b))), by simp only [exec, hin, if_true], .write hi ho, ?_, rfl⟩
    have hlive : ∀ j d, put R i (some (c.set off (some b))) j = some d →
        ∃ e, R j = some e ∧ d.length = e.length ∧ (j ≠ i → d = e) ∧ (j = i → d = c.set off (some b)) := by
      intro j d hj
      by_cases hji : j = i
      · subst hji
        rw [put_same] at hj
        cases hj
        exact ⟨c, hi, by simp, fun h => absurd rfl h, fun _ => rfl⟩
      · rw [put_ne _ _ hji] at hj
        exact ⟨d, hj, rfl, fun _ => rfl, fun h => absurd h hji⟩
    exact {
      apart := h.apart, alloc := h.alloc, alloc0 := h.alloc0
      held := by
        intro j d hj
        obtain ⟨e, hj, hlen, hne, heq⟩ := hlive j d hj
        obtain ⟨g1, g2, g3, g4⟩ := h.held j e hj
        refine ⟨g1, g2, by rw [hlen]; exact g3, ?_⟩
        intro k v hk
        dsimp only
        by_cases hji : j = i
        · rw [heq hji] at hk
          subst hji
          by_cases hko : k = off
          · subst hko
            rw [if_pos rfl]
            rw [List.getElem?_set_self ho] at hk
            simpa using hk
          · rw [List.getElem?_set_ne (Ne.symm hko)] at hk
            rw [if_neg (by omega)]
            exact h4 k v hk
        · rw [hne hji] at hk
          have hlt := lt_of_some hk
          rw [if_neg]
          · exact g4 k v hk
          · intro he
            refine hji (h.inj j i e c hj hi ?_)
            have hx : Block.has (s.vars j, e.length) (s.vars j + k) = true := by
              simp only [Block.has, decide_eq_true_eq]; omega
            have hy : Block.has (s.vars i, c.length) (s.vars j + k) = true := by
              simp only [Block.has, decide_eq_true_eq]; omega
            exact congrArg Prod.fst (apart_unique h.apart g3 h3 hx hy)
      inj := by
        intro j k d e hj hk
        obtain ⟨d', hj, -⟩ := hlive j d hj
        obtain ⟨e', hk, -⟩ := hlive k e hk
        exact h.inj j k d' e' hj hk
      all := by
        intro x hx
        rcases h.all x hx with g1 | ⟨j, d, hj, g1⟩
        · exact Or.inl g1
        · by_cases hji : j = i
          · subst hji
            exact Or.inr ⟨j, _, put_same .., g1⟩
          · refine Or.inr ⟨j, d, ?_, g1⟩
            rw [put_ne _ _ hji]
            exact hj }
  | @read i off c hi ho =>
    obtain ⟨h1, h2, h3, h4⟩ := h.held i c hi
    have hin : inside s.heap (s.vars i + off) = true := by
      simp only [inside, List.any_eq_true, decide_eq_true_eq]
      exact ⟨_, h3, by dsimp only; omega⟩
    refine ⟨s, .byte (s.heap.mem (s.vars i + off)), R, by simp only [exec, hin, if_true], ?_, h, rfl⟩
    cases hv : c[off]? with
    | none =>
      have := List.getElem?_eq_none_iff.1 hv
      omega
    | some o =>
      cases o with
      | none => exact .readUnwritten hi hv
      | some v =>
        rw [h4 off v hv]
        exact .readWritten hi hv

theorem drive_step {zf : Bool} {f : List (Cmd × Obs) → Option Cmd} {env : List (Cmd × Obs) → Ans}
    (hc : Careful f) (hz : zf = false ∨ NoZero f) (n : Nat) :
    ∀ {s hist R}, Rel R s → Spec empty hist R → LegalRun zf f env n s hist →
      ∃ s' hist' R', drive zf f env n s hist = some (s', hist') ∧ Spec empty hist' R' ∧ Rel R' s' ∧
        s'.alloc = s.alloc := by
  induction n with
  | zero =>
    intro s hist R h hs _
    exact ⟨s, hist, R, rfl, hs, h, rfl⟩
  | succ n ih =>
    intro s hist R h hs hl
    cases hf : f hist with
    | none => exact ⟨s, hist, R, by simp [drive, hf], hs, h, rfl⟩
    | some c =>
      obtain ⟨hl1, hl2⟩ := hl c hf
      obtain ⟨s', o, R', he, hstep, hrel, hal⟩ := exec_step (zf := zf) h (hc hist R c hs hf) hl1 (by
        rcases hz with hz | hz
        · exact Or.inl hz
        · refine Or.inr ?_
          rintro i m rfl
          exact hz hist i m hf)
      obtain ⟨s'', hist', R'', g1, g2, g3, g4⟩ := ih hrel (.cons hs hstep) (hl2 s' o he)
      refine ⟨s'', hist', R'', ?_, g2, g3, g4.trans hal⟩
      simp only [drive, hf, he]
      exact g1

/-- A freshly created allocator. -/
theorem created_rel {h : Heap} {w : Ans} {h' : Heap} {a : Nat} {vars : Nat → Nat} (he : h.live = [])
    (hc : create h w = (h', a, SUCCESS)) (hl : Legal h.live SIZEOF_ALLOCATOR w) :
    Rel empty ⟨h', a, vars⟩ := by
  cases hw : w.addr with
  | none =>
    simp only [create, cMalloc, hw, if_true, Prod.mk.injEq] at hc
    exact absurd hc.2.2 (by decide)
  | some b =>
    obtain ⟨h0, -⟩ := hl b hw
    simp only [create, cMalloc, hw, h0, if_false, Prod.mk.injEq] at hc
    obtain ⟨rfl, rfl, -⟩ := hc
    exact {
      apart := by simp [he]
      alloc := by simp
      alloc0 := h0
      held := by intro i c hi; cases hi
      inj := by intro i j c d hi; cases hi
      all := by
        intro x hx
        simp only [he, List.mem_cons, List.not_mem_nil, or_false] at hx
        subst hx
        exact Or.inl rfl }

/-! ### Property C72 -/

/-- Any client that keeps to the documentation and never resizes to 0 bytes, with any sequence of answers of the
C library that the C standard allows: nothing undefined happens, every command answers as documented, each byte
read is the last one written there, and the state is again one that the client can rely on.
Missing: the same for clients that resize to 0 bytes, which fails with a library whose `realloc` frees then
(`zero_size_violated`). -/
theorem history_partial {zf : Bool} {f : List (Cmd × Obs) → Option Cmd} {env : List (Cmd × Obs) → Ans}
    (hc : Careful f) (hz : NoZero f) {h : Heap} {w : Ans} {h' : Heap} {a : Nat} {vars : Nat → Nat}
    (he : h.live = []) (hcr : create h w = (h', a, SUCCESS)) (hl : Legal h.live SIZEOF_ALLOCATOR w) (n : Nat)
    (hlr : LegalRun zf f env n ⟨h', a, vars⟩ []) :
    ∃ s hist R, drive zf f env n ⟨h', a, vars⟩ [] = some (s, hist) ∧ Spec empty hist R ∧ Rel R s ∧
      s.alloc = a :=
  drive_step hc (Or.inr hz) n (created_rel he hcr hl) .nil hlr

/-- The same without the restriction, with a library that treats 0 as a size. -/
theorem history_strict {f : List (Cmd × Obs) → Option Cmd} {env : List (Cmd × Obs) → Ans}
    (hc : Careful f) {h : Heap} {w : Ans} {h' : Heap} {a : Nat} {vars : Nat → Nat}
    (he : h.live = []) (hcr : create h w = (h', a, SUCCESS)) (hl : Legal h.live SIZEOF_ALLOCATOR w) (n : Nat)
    (hlr : LegalRun false f env n ⟨h', a, vars⟩ []) :
    ∃ s hist R, drive false f env n ⟨h', a, vars⟩ [] = some (s, hist) ∧ Spec empty hist R ∧ Rel R s ∧
      s.alloc = a :=
  drive_step hc (Or.inl rfl) n (created_rel he hcr hl) .nil hlr

/-- Regions held by different variables have no byte in common, and none in common with the allocator. -/
theorem regions_disjoint {R : Regions} {s : St} (h : Rel R s) {i : Nat} {c : List (Option UInt8)}
    (hi : R i = some c) {j : Nat} (hj : j < c.length) :
    (∀ k d, R k = some d → k ≠ i → ∀ l, l < d.length → s.vars i + j ≠ s.vars k + l) ∧
      ∀ l, l < SIZEOF_ALLOCATOR → s.vars i + j ≠ s.alloc + l := by
  obtain ⟨g1, g2, g3, g4⟩ := h.held i c hi
  have hx : Block.has (s.vars i, c.length) (s.vars i + j) = true := by
    simp only [Block.has, decide_eq_true_eq]; omega
  constructor
  · intro k d hk hne l hl he
    have hy : Block.has (s.vars k, d.length) (s.vars i + j) = true := by
      simp only [Block.has, decide_eq_true_eq]; omega
    refine hne (h.inj k i d c hk hi ?_)
    exact (congrArg Prod.fst (apart_unique h.apart g3 (h.held k d hk).2.2.1 hx hy)).symm
  · intro l hl he
    have hy : Block.has (s.alloc, SIZEOF_ALLOCATOR) (s.vars i + j) = true := by
      simp only [Block.has, decide_eq_true_eq]
      simp only [SIZEOF_ALLOCATOR] at hl ⊢
      omega
    exact g2 (congrArg Prod.fst (apart_unique h.apart g3 h.alloc hx hy))

/-- A client that has given back all its regions and then releases the allocator leaves nothing allocated. -/
theorem nothing_left {R : Regions} {s : St} (h : Rel R s) (hR : ∀ i, R i = none) :
    ∃ h', release s.heap s.alloc = some (h', SUCCESS) ∧ h'.live = [] := by
  have hfind := find_block h.apart h.alloc
  refine ⟨{ s.heap with live := s.heap.live.erase (s.alloc, SIZEOF_ALLOCATOR) }, ?_, ?_⟩
  · dsimp only at hfind
    simp [release, cFree, h.alloc0, hfind]
  · refine List.eq_nil_iff_forall_not_mem.2 ?_
    intro b hb
    obtain ⟨hb, hne⟩ := (mem_erase_block h.apart).1 hb
    rcases h.all b hb with h1 | ⟨i, c, hi, -⟩
    · refine hne (apart_unique h.apart hb h.alloc (has_self b) ?_)
      rw [h1]
      exact has_self (s.alloc, SIZEOF_ALLOCATOR)
    · rw [hR i] at hi
      cases hi

/-- Creating fails only for want of memory, and then the caller's variable is NULL and nothing is allocated. -/
theorem create_fails {h : Heap} {w : Ans} {h' : Heap} {a : Nat} {st : Status}
    (hl : Legal h.live SIZEOF_ALLOCATOR w) (hc : create h w = (h', a, st)) (hst : st ≠ SUCCESS) :
    st = ERROR_GENERAL_OUT_OF_MEMORY ∧ a = 0 ∧ h' = h ∧ w.addr = none := by
  cases hw : w.addr with
  | none =>
    simp only [create, cMalloc, hw, if_true, Prod.mk.injEq] at hc
    obtain ⟨rfl, rfl, rfl⟩ := hc
    exact ⟨rfl, rfl, rfl, rfl⟩
  | some b =>
    obtain ⟨h0, -⟩ := hl b hw
    simp only [create, cMalloc, hw, h0, if_false, Prod.mk.injEq] at hc
    exact absurd hc.2.2.symm hst

/-! ### Refutation -/

def freshHeap : Heap := ⟨fun _ => 0, []⟩

/-- A library that hands out addresses in steps of 1000 and never runs out. -/
def steps (k : Nat) : Ans := ⟨some (1000 * (k + 2)), fun _ => 7⟩

def demoSt : St := ⟨⟨fun _ => 7, [(1000, 16)]⟩, 1000, fun _ => 0⟩

/-- Allocate four bytes, resize to none, reclaim: what the documentation asks for if the resize fails. -/
def zeroClient : List (Cmd × Obs) → Option Cmd
  | [] => some (.alloc 0 4)
  | [(.alloc 0 4, .alloc st _)] => if st = SUCCESS then some (.realloc 0 0) else none
  | (.realloc 0 0, .realloc _ _) :: _ => some (.reclaim 0)
  | _ => none

theorem spec_cons_inv {hist : List (Cmd × Obs)} {c : Cmd} {o : Obs} {R₀ R' : Regions}
    (h : Spec R₀ ((c, o) :: hist) R') : ∃ R, Spec R₀ hist R ∧ Step R c o R' := by
  cases h with
  | cons h hs => exact ⟨_, h, hs⟩

theorem zeroClient_careful : Careful zeroClient := by
  intro hist R c hs hf
  unfold zeroClient at hf
  split at hf
  · cases hf
    cases hs
    exact .alloc rfl
  · rename_i st _
    split at hf
    · rename_i hst
      cases hf
      obtain ⟨R1, -, hs2⟩ := spec_cons_inv hs
      cases hs2 with
      | allocOk => exact .realloc (c := List.replicate 4 none) (put_same ..)
      | allocFail => exact absurd hst (by decide)
    · cases hf
  · cases hf
    obtain ⟨R1, -, hs2⟩ := spec_cons_inv hs
    cases hs2 with
    | @reallocOk _ _ c _ hi => exact .reclaim (c := resize c 0) (put_same ..)
    | reallocFail hi => exact .reclaim hi
  · cases hf

/-- With a library whose `realloc` frees for size 0, a client that keeps to the documentation frees a block
twice: the resize answers `ERROR_GENERAL_OUT_OF_MEMORY` with the variable unchanged, the block is gone, and the
reclaim that the documentation asks for is undefined. -/
theorem zero_size_violated :
    Careful zeroClient ∧
      (drive true zeroClient (fun h => steps h.length) 2 demoSt []).map (·.2) =
        some [(.realloc 0 0, .realloc ERROR_GENERAL_OUT_OF_MEMORY true), (.alloc 0 4, .alloc SUCCESS false)] ∧
      (drive true zeroClient (fun h => steps h.length) 2 demoSt []).map (·.1.heap.live) = some [(1000, 16)] ∧
      drive true zeroClient (fun h => steps h.length) 3 demoSt [] = none := by
  refine ⟨zeroClient_careful, rfl, rfl, ?_⟩
  rfl

/-- A library may answer NULL to a request for 0 bytes that has not failed; the allocator then reports that
there is no memory, whatever there is. -/
theorem zero_allocation (h : Heap) (junk : Nat → UInt8) :
    mallocAllocate h 0 ⟨none, junk⟩ = (h, 0, ERROR_GENERAL_OUT_OF_MEMORY) := rfl

/-! ### Cases that meet the hypotheses -/

/-- A client that allocates, writes, resizes and reads back. -/
def growClient : List (Cmd × Obs) → Option Cmd
  | [] => some (.alloc 0 2)
  | [(.alloc 0 2, .alloc st _)] => if st = SUCCESS then some (.write 0 1 42) else none
  | [(.write 0 1 42, _), (.alloc 0 2, .alloc st _)] => if st = SUCCESS then some (.realloc 0 5) else none
  | [(.realloc 0 5, .realloc st _), (.write 0 1 42, _), (.alloc 0 2, .alloc st' _)] =>
    if st = SUCCESS ∧ st' = SUCCESS then some (.read 0 1) else none
  | _ => none

example : (drive true growClient (fun h => steps h.length) 9 demoSt []).map (·.2) =
    some [(.read 0 1, .byte 42), (.realloc 0 5, .realloc SUCCESS false), (.write 0 1 42, .wrote),
      (.alloc 0 2, .alloc SUCCESS false)] := rfl

theorem growClient_noZero : NoZero growClient := by
  intro hist i n hf
  unfold growClient at hf
  split at hf
  all_goals first
    | (split at hf <;> first | cases hf | skip)
    | cases hf
    | skip
  all_goals simp

theorem growClient_careful : Careful growClient := by
  intro hist R c hs hf
  unfold growClient at hf
  split at hf
  · cases hf
    cases hs
    exact .alloc rfl
  · split at hf
    · rename_i hst
      cases hf
      obtain ⟨R1, -, hs2⟩ := spec_cons_inv hs
      cases hs2 with
      | allocOk => exact .write (c := List.replicate 2 none) (put_same ..) (by decide)
      | allocFail => exact absurd hst (by decide)
    · cases hf
  · split at hf
    · cases hf
      obtain ⟨R1, -, hs2⟩ := spec_cons_inv hs
      cases hs2 with
      | @write _ _ _ c hi ho => exact .realloc (c := c.set 1 (some 42)) (put_same ..)
    · cases hf
  · split at hf
    · rename_i hst
      cases hf
      obtain ⟨R1, -, hs2⟩ := spec_cons_inv hs
      cases hs2 with
      | @reallocOk _ _ c _ hi =>
        exact .read (c := resize c 5) (put_same ..) (by rw [resize_length]; decide)
      | reallocFail => exact absurd hst.1 (by decide)
    · cases hf
  · cases hf

theorem growClient_legal : LegalRun true growClient (fun h => steps h.length) 4 demoSt [] := by
  intro c hc
  cases hc
  refine ⟨?_, ?_⟩
  · intro a ha
    cases ha
    refine ⟨by decide, ?_⟩
    intro x hx
    simp [demoSt, owned, Block.has] at hx ⊢
    omega
  intro s o he
  cases he
  intro c hc
  cases hc
  refine ⟨trivial, ?_⟩
  intro s o he
  cases he
  intro c hc
  cases hc
  refine ⟨?_, ?_⟩
  · intro a ha
    cases ha
    refine ⟨by decide, ?_⟩
    intro x hx
    simp [demoSt, owned, Block.has, set] at hx ⊢
    omega
  intro s o he
  cases he
  intro c hc
  cases hc
  refine ⟨trivial, ?_⟩
  intro s o he
  trivial

/-- The whole statement, for that client. -/
example : ∃ s hist R, drive true growClient (fun h => steps h.length) 4 demoSt [] = some (s, hist) ∧
    Spec empty hist R ∧ Rel R s ∧ s.alloc = 1000 :=
  history_partial growClient_careful growClient_noZero (h := freshHeap) (w := ⟨some 1000, fun _ => 7⟩) rfl rfl
    (by intro a ha; cases ha; exact ⟨by decide, fun _ _ => rfl⟩) 4 growClient_legal

example : create freshHeap ⟨some 1000, fun _ => 7⟩ = (demoSt.heap, 1000, SUCCESS) := rfl

example : Legal freshHeap.live SIZEOF_ALLOCATOR ⟨some 1000, fun _ => 7⟩ := by
  intro a ha
  cases ha
  exact ⟨by decide, fun _ _ => rfl⟩

end Rcpr.Malloc
