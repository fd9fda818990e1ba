import Verif.LifeOwn

/-!
The invariant of programs with a scheduler: what is held is divided among the program, the trees, the
vectors and the idle fiber.
-/
namespace Rcpr.Life

open Rcpr

variable {e : Env} {c : Heap}

theorem ioDiscCreate_tri (g : e.Good) : Tri e c ioDiscCreate (Made e Chained.own c) := by
  unfold ioDiscCreate
  apply Tri.bind
  refine (epollCreate_tri g).mono ?_
  rintro ⟨a, o⟩ c1 (⟨h, heq, hc1⟩ | ⟨ha, ho, hw, hc1⟩)
  · cases heq
    dsimp only
    apply Tri.bind
    refine (discCreate_tri g).mono ?_
    rintro ⟨a, o⟩ c2 (⟨d, heq, hc2⟩ | ⟨ha, ho, hw, hc2⟩)
    · cases heq
      simp only [Disc.own, Two.own] at hc1 hc2
      tri
      made
    · dsimp only at ho ha
      subst ho
      dsimp only
      apply Tri.bind
      refine (epollRelease_tri g (c' := c) fun i j => by rw [hc2, hc1]).mono ?_
      rintro r c3 ⟨rfl, hc3⟩
      exact Tri.pure (.inr ⟨by cnt, rfl, hw, fun i j => by have := hc3 i j; rw [hc2, hc1] at this; omega⟩)
  · dsimp only at ho ha
    subst ho
    exact Tri.pure (.inr ⟨ha, rfl, hw, hc1⟩)

theorem ioDiscRelease_tri (g : e.Good) {h : Chained} {c' : Heap} (hc : ∀ i j, c i j = h.own i j + c' i j) :
    Tri e c (ioDiscRelease h) (Freed h.own c) := by
  unfold ioDiscRelease epollRelease discRelease
  simp only [Chained.own, Two.own, Disc.own] at hc
  tri
  all_goals exact ⟨by cnt, fun i j => by simp only [Chained.own, Two.own, Disc.own]; cnt⟩

theorem entryValueRelease_tri (g : e.Good) {d : Disc} {x : Ctx} {c' : Heap}
    (hc : ∀ i j, c i j = d.own i j + x.own i j + c' i j) :
    Tri e c (entryValueRelease d x) (Freed (fun i j => d.own i j + x.own i j) c) := by
  cases x with
  | none =>
    refine (discRelease_tri g (c' := c') fun i j => by rw [hc]; rfl).mono ?_
    rintro r c1 ⟨rfl, h⟩
    exact ⟨rfl, h⟩
  | tree h =>
    unfold entryValueRelease contextRelease blockRelease discRelease
    simp only [Ctx.own, Two.own, Disc.own] at hc
    tri
    all_goals exact ⟨by cnt, fun i j => by simp only [Ctx.own, Two.own, Disc.own]; cnt⟩
  | io h =>
    refine (ioDiscRelease_tri g (h := ⟨h, d⟩) (c' := c') fun i j => by
      rw [hc]; simp only [Ctx.own, Chained.own]; omega).mono ?_
    rintro r c1 ⟨rfl, h⟩
    exact ⟨rfl, fun i j => by rw [h]; simp only [Ctx.own, Chained.own]; omega⟩

theorem nodeRelease_tri (g : e.Good) {n : Nat} {m : M Status} {own c' : Heap}
    (hm : Tri e c m (Freed own c)) (hc : ∀ i j, c i j = one n .mem i j + own i j + c' i j) :
    Tri e c (nodeRelease n m) (Freed (fun i j => one n .mem i j + own i j) c) := by
  unfold nodeRelease
  apply Tri.bind
  refine Tri.use (by cnt) ?_
  apply Tri.bind
  refine hm.mono ?_
  rintro r c1 ⟨rfl, h⟩
  tri
  · contradiction
  · exact ⟨rfl, fun i j => by cnt⟩

/-- Releases everything a list of things owns. -/
theorem releaseNodes_tri {X : Type} (_ : e.Good) {own : X → Heap} {rel : X → M Status}
    (hr : ∀ x (c c' : Heap), (∀ i j, c i j = own x i j + c' i j) → Tri e c (rel x) (Freed (own x) c)) {l : List X} {c' : Heap}
    (hc : ∀ i j, c i j = total own l i j + c' i j) :
    Tri e c (releaseNodes (l.map rel)) (Freed (total own l) c) := by
  induction l generalizing c with
  | nil => exact Tri.pure ⟨rfl, fun i j => by simp [total]⟩
  | cons x l ih =>
    simp only [List.map_cons, releaseNodes]
    simp only [total] at hc
    apply Tri.bind
    refine (hr x c (fun i j => total own l i j + c' i j) fun i j => by rw [hc]; omega).mono ?_
    rintro r c1 ⟨rfl, h1⟩
    apply Tri.bind
    refine (ih (c := c1) fun i j => by have := h1 i j; rw [hc] at this; omega).mono ?_
    rintro r c2 ⟨rfl, h2⟩
    refine Tri.pure ⟨by simp [first], fun i j => ?_⟩
    simp only [total]
    rw [h1, h2]; omega

theorem total_mem {X : Type} {own : X → Heap} {l : List X} {x : X} (h : x ∈ l) (i : Nat) (j : Kind) :
    own x i j ≤ total own l i j := by
  induction l with
  | nil => cases h
  | cons y l ih =>
    simp only [total]
    rcases List.mem_cons.1 h with rfl | h
    · omega
    · have := ih h; omega

theorem total_erase {X : Type} {own : X → Heap} {l : List X} {x : X} {n : Nat} (h : l[n]? = some x) (i : Nat) (j : Kind) :
    total own l i j = own x i j + total own (l.eraseIdx n) i j := by
  induction l generalizing n with
  | nil => simp at h
  | cons y l ih =>
    cases n with
    | zero => simp at h; subst h; simp [total]
    | succ n =>
      simp only [List.getElem?_cons_succ] at h
      simp only [List.eraseIdx_cons_succ, total]
      rw [ih h]; omega

def nodeOwn (x : Nat × Fiber) : Heap := fun i j => one x.1 .mem i j + x.2.own i j

def idleOwn : Option Fiber → Heap
  | some f => f.own
  | none => fun _ _ => 0

/-- What a scheduler owns. -/
def Sch.own (s : Sch) : Heap := fun i j =>
  total Entry.own s.discs i j + total nodeOwn s.fibers i j + vecOwn s.vec i j + vecOwn s.cvec i j + idleOwn s.idle i j

theorem find_tri {id : Nat} {l : List Entry} {c' : Heap} (hc : ∀ i j, c i j = total Entry.own l i j + c' i j) :
    Tri e c (find id l) fun r c1 => c = c1 ∧ r = l.find? (fun en => decide (en.id = id)) := by
  induction l generalizing c' with
  | nil => exact Tri.pure ⟨rfl, rfl⟩
  | cons en l ih =>
    simp only [total, Entry.own, Disc.own] at hc
    unfold find
    apply Tri.bind
    refine Tri.use (by cnt) ?_
    apply Tri.bind
    refine Tri.use (by cnt) ?_
    apply Tri.ite
    · intro h; exact Tri.pure ⟨rfl, by simp [h]⟩
    · intro h
      refine (ih (c' := fun i j => Entry.own en i j + c' i j) fun i j => by
        rw [hc]; simp only [Entry.own, Disc.own]; omega).mono ?_
      rintro r c1 ⟨rfl, rfl⟩
      exact ⟨rfl, by simp [h]⟩

theorem grow_tri {v : Option Nat} {c' : Heap} (hc : ∀ i j, c i j = vecOwn v i j + c' i j) :
    Tri e c (grow v) fun r c1 => (∀ i j, c1 i j = vecOwn r.2 i j + c' i j) ∧ (e.Willing → r.1 = SUCCESS) := by
  unfold grow
  cases v with
  | none =>
    simp only [vecOwn] at hc
    tri
    · exact ⟨fun i j => by simp only [vecOwn]; cnt, fun w => absurd w (by assumption)⟩
    · exact ⟨fun i j => by simp only [vecOwn]; cnt, fun _ => rfl⟩
  | some v =>
    simp only [vecOwn] at hc
    tri
    exact ⟨fun i j => by simp only [vecOwn]; cnt, by assumption⟩

/-- `fiber_scheduler_discipline_add`: what it leaves. If the discipline ends up in the tree, it is counted
there; whether the call succeeds or not, the caller's count has it as well unless the caller gives it up. -/
theorem discAdd_tri {sch : Sch} {id : Nat} {d : Disc} {x : Ctx} {c' : Heap}
    (hc : ∀ i j, c i j = sch.own i j + d.own i j + c' i j) :
    Tri e c (discAdd sch id d x) fun r c1 =>
      (r.2.discs = sch.discs ∧ r.2 = sch ∧ r.1 ≠ SUCCESS ∧ (∀ i j, c1 i j = c i j) ∧
        ((∀ en ∈ sch.discs, en.id ≠ id) → ¬ e.Willing)) ∨
      ∃ n, (∀ en ∈ sch.discs, en.id ≠ id) ∧ r.2.discs = ⟨id, n, d, x⟩ :: sch.discs ∧ r.2.fibers = sch.fibers ∧
        r.2.idle = sch.idle ∧ (e.Willing → r.1 = SUCCESS) ∧
        ∀ i j, c1 i j + x.own i j = r.2.own i j + c' i j := by
  unfold discAdd
  have hd : ∀ i j, c i j = total Entry.own sch.discs i j +
      (total nodeOwn sch.fibers i j + vecOwn sch.vec i j + vecOwn sch.cvec i j + idleOwn sch.idle i j + d.own i j + c' i j) :=
    fun i j => by rw [hc]; simp only [Sch.own]; omega
  apply Tri.bind
  refine Tri.use (by have := hc d.p .mem; simp only [Disc.own, one_self] at this; omega) ?_
  apply Tri.bind
  refine (find_tri hd).mono ?_
  rintro r c1 ⟨rfl, rfl⟩
  cases hf : sch.discs.find? (fun en => decide (en.id = id)) with
  | some en =>
    refine Tri.pure (.inl ⟨rfl, rfl, dup_ne, fun _ _ => rfl, fun h => ?_⟩)
    have h1 := List.find?_some hf
    exact absurd (by simpa using h1) (h en (List.mem_of_find?_eq_some hf))
  | none =>
    have hno : ∀ en ∈ sch.discs, en.id ≠ id := by simpa using hf
    dsimp only
    apply Tri.bind
    apply Tri.get
    · intro a ha hw
      exact Tri.pure (.inl ⟨rfl, rfl, ha, fun _ _ => rfl, fun _ => hw⟩)
    · intro n c2 hc2
      dsimp only
      apply Tri.bind
      refine (grow_tri (v := sch.vec) (c' := fun i j => one n .mem i j + (total Entry.own sch.discs i j +
        total nodeOwn sch.fibers i j + vecOwn sch.cvec i j + idleOwn sch.idle i j + d.own i j + c' i j)) fun i j => by
          rw [hc2, hd]; omega).mono ?_
      rintro ⟨a, v⟩ c3 ⟨hc3, hw3⟩
      dsimp only at hc3 hw3 ⊢
      apply Tri.ite
      · intro ha
        refine Tri.pure (.inr ⟨n, hno, rfl, rfl, rfl, hw3, fun i j => ?_⟩)
        rw [hc3]; simp only [Sch.own, total, Entry.own]; omega
      · intro ha
        apply Tri.bind
        refine (grow_tri (v := sch.cvec) (c' := fun i j => one n .mem i j + (total Entry.own sch.discs i j +
          total nodeOwn sch.fibers i j + vecOwn v i j + idleOwn sch.idle i j + d.own i j + c' i j)) fun i j => by
            rw [hc3]; omega).mono ?_
        rintro ⟨b, u⟩ c4 ⟨hc4, hw4⟩
        dsimp only at hc4 hw4 ⊢
        apply Tri.ite
        · intro hb
          refine Tri.pure (.inr ⟨n, hno, rfl, rfl, rfl, hw4, fun i j => ?_⟩)
          rw [hc4]; simp only [Sch.own, total, Entry.own]; omega
        · intro hb
          apply Tri.bind
          refine Tri.use (by have := hc4 d.p .mem; simp only [Disc.own, one_self] at this; omega) ?_
          refine Tri.pure (.inr ⟨n, hno, rfl, rfl, rfl, fun _ => rfl, fun i j => ?_⟩)
          rw [hc4]; simp only [Sch.own, total, Entry.own]; omega

/-- What a call that looks for a discipline, or creates it, leaves: either it failed, took its discipline
back, and left it in the tree all the same; or all is accounted for. -/
def Got (e : Env) (id : Nat) (sch : Sch) (c' : Heap) (r : Status × Out Disc × Sch) (c1 : Heap) : Prop :=
  r.2.2.fibers = sch.fibers ∧
  (r.2.2.discs = sch.discs ∨
    ((∀ en ∈ sch.discs, en.id ≠ id) ∧ ∃ n d x, r.2.2.discs = ⟨id, n, d, x⟩ :: sch.discs ∧ (∀ d', r.2.1 = .set d' → d' = d))) ∧
  (r.1 = SUCCESS → ∃ d, r.2.1 = .set d ∧ ∃ en ∈ r.2.2.discs, en.id = id ∧ en.disc = d) ∧
  ((r.2.1 = .null ∧ r.2.2.discs ≠ sch.discs ∧ r.1 ≠ SUCCESS ∧ ¬ e.Willing) ∨ ∀ i j, c1 i j = r.2.2.own i j + c' i j)

private theorem ne_cons {X : Type} {x : X} {l : List X} : x :: l ≠ l := by
  intro h
  have := congrArg List.length h
  simp at this

private theorem found {id : Nat} {l : List Entry} {en : Entry} (h : l.find? (fun en => decide (en.id = id)) = some en) :
    en ∈ l ∧ en.id = id :=
  ⟨List.mem_of_find?_eq_some h, by simpa using List.find?_some h⟩

theorem over_ok {a : Status} : over a SUCCESS = a := by simp [over]

theorem ownDisc_tri (g : e.Good) {sch : Sch} {id : Nat} {c' : Heap} (hc : ∀ i j, c i j = sch.own i j + c' i j) :
    Tri e c (ownDisc id sch) fun r c1 => Got e id sch c' r c1 ∧ r.2.2.idle = sch.idle ∧
      (e.Willing → r.2.1 = .null → r.2.2.discs = sch.discs) := by
  unfold ownDisc
  apply Tri.bind
  refine (discCreate_tri g).mono ?_
  rintro ⟨a, o⟩ c1 (⟨d, heq, hc1⟩ | ⟨ha, ho, hw, hc1⟩)
  · cases heq
    dsimp only
    apply Tri.bind
    refine (discAdd_tri (d := d) (x := .none) (c' := c') fun i j => by rw [hc1, hc]; omega).mono ?_
    rintro ⟨a, s1⟩ c2 (⟨h1, h2, h3, h4, h5⟩ | ⟨n, h1, h2, h3, h4, h5, h6⟩)
    · dsimp only at h1 h2 h3 ⊢
      subst h2
      rw [if_pos h3]
      apply Tri.bind
      refine (discRelease_tri g (d := d) (c' := c) fun i j => by rw [h4, hc1]).mono ?_
      rintro r c3 ⟨rfl, hc3⟩
      simp only [over_ok]
      refine Tri.pure ⟨⟨rfl, .inl rfl, fun h => absurd h h3, .inr fun i j => ?_⟩, rfl, fun _ _ => rfl⟩
      have := hc3 i j; rw [h4, hc1, hc] at this; dsimp only; omega
    · dsimp only at h2 h3 h4 h5 h6 ⊢
      simp only [Ctx.own] at h6
      apply Tri.ite
      · intro ha
        apply Tri.bind
        refine (discRelease_tri g (d := d) (c' := fun i j => one n .mem i j + total Entry.own sch.discs i j +
          total nodeOwn s1.fibers i j + vecOwn s1.vec i j + vecOwn s1.cvec i j + idleOwn s1.idle i j + c' i j) fun i j => by
            have := h6 i j; simp only [Sch.own, h2, total, Entry.own, Ctx.own] at this; omega).mono ?_
        rintro r c3 ⟨rfl, hc3⟩
        simp only [over_ok]
        refine Tri.pure ⟨⟨h3, .inr ⟨h1, n, d, .none, h2, fun _ h => by cases h⟩, fun h => absurd h ha,
          .inl ⟨rfl, by dsimp only; rw [h2]; exact ne_cons, ha, fun w => ha (h5 w)⟩⟩, h4, fun w => absurd (h5 w) ha⟩
      · intro ha
        refine Tri.pure ⟨⟨h3, .inr ⟨h1, n, d, .none, h2, fun _ h => by cases h; rfl⟩, fun _ => ⟨d, rfl, _, by
          dsimp only; rw [h2]; exact List.mem_cons_self, rfl, rfl⟩, .inr fun i j => h6 i j⟩, h4, fun _ h => by cases h⟩
  · dsimp only at ha ho
    subst ho
    exact Tri.pure ⟨⟨rfl, .inl rfl, fun h => absurd h ha, .inr fun i j => by rw [hc1, hc]⟩, rfl, fun _ _ => rfl⟩

theorem getOrCreate_tri (g : e.Good) {sch : Sch} {id : Nat} {c' : Heap} (hc : ∀ i j, c i j = sch.own i j + c' i j) :
    Tri e c (getOrCreate id sch) fun r c1 => Got e id sch c' r c1 ∧ r.2.2.idle = sch.idle ∧
      (∀ en ∈ sch.discs, en.id = id → r.1 = SUCCESS ∧ r.2.2 = sch) ∧ (e.Willing → r.1 = SUCCESS) := by
  unfold getOrCreate
  have hd : ∀ i j, c i j = total Entry.own sch.discs i j +
      (total nodeOwn sch.fibers i j + vecOwn sch.vec i j + vecOwn sch.cvec i j + idleOwn sch.idle i j + c' i j) :=
    fun i j => by rw [hc]; simp only [Sch.own]; omega
  apply Tri.bind
  refine (find_tri hd).mono ?_
  rintro r c1 ⟨rfl, rfl⟩
  cases hf : sch.discs.find? (fun en => decide (en.id = id)) with
  | some en =>
    obtain ⟨hm, hi⟩ := found hf
    exact Tri.pure ⟨⟨rfl, .inl rfl, fun _ => ⟨_, rfl, en, hm, hi, rfl⟩, .inr hc⟩, rfl, fun _ _ _ => ⟨rfl, rfl⟩, fun _ => rfl⟩
  | none =>
    have hno : ∀ en ∈ sch.discs, en.id ≠ id := by simpa using hf
    dsimp only
    apply Tri.bind
    refine (contextCreate_tri g).mono ?_
    rintro ⟨a, o⟩ c1 (⟨x, heq, hc1⟩ | ⟨ha, ho, hw, hc1⟩)
    · cases heq
      dsimp only
      apply Tri.bind
      refine (discCreate_tri g).mono ?_
      rintro ⟨a, o⟩ c2 (⟨d, heq, hc2⟩ | ⟨ha, ho, hw, hc2⟩)
      · cases heq
        dsimp only
        apply Tri.bind
        refine (discAdd_tri (d := d) (x := .tree x) (c' := fun i j => x.own .mem i j + c' i j) fun i j => by
          rw [hc2, hc1, hc]; omega).mono ?_
        rintro ⟨a, s1⟩ c3 (⟨h1, h2, h3, h4, h5⟩ | ⟨n, h1, h2, h3, h4, h5, h6⟩)
        · dsimp only at h1 h2 h3 ⊢
          subst h2
          rw [if_pos h3]
          apply Tri.bind
          refine (discRelease_tri g (d := d) (c' := c1) fun i j => by rw [h4, hc2]).mono ?_
          rintro r c4 ⟨rfl, hc4⟩
          apply Tri.bind
          refine (contextRelease_tri g (d := x) (c' := c) fun i j => by
            have := hc4 i j; rw [h4, hc2, hc1] at this; omega).mono ?_
          rintro r c5 ⟨rfl, hc5⟩
          simp only [over_ok]
          refine Tri.pure ⟨⟨rfl, .inl rfl, fun h => absurd h h3, .inr fun i j => ?_⟩, rfl,
            fun en hen hid => absurd hid (hno en hen), fun w => absurd w (h5 hno)⟩
          have := hc4 i j; have := hc5 i j; have := h4 i j; have := hc2 i j; have := hc1 i j; have := hc i j
          dsimp only; omega
        · dsimp only at h2 h3 h4 h5 h6 ⊢
          simp only [Ctx.own] at h6
          apply Tri.ite
          · intro ha
            apply Tri.bind
            refine (discRelease_tri g (d := d) (c' := fun i j => x.own .mem i j + (one n .mem i j + total Entry.own sch.discs i j +
              total nodeOwn s1.fibers i j + vecOwn s1.vec i j + vecOwn s1.cvec i j + idleOwn s1.idle i j + c' i j)) fun i j => by
                have := h6 i j; simp only [Sch.own, h2, total, Entry.own, Ctx.own] at this; omega).mono ?_
            rintro r c4 ⟨rfl, hc4⟩
            apply Tri.bind
            refine (contextRelease_tri g (d := x) (c' := fun i j => one n .mem i j + total Entry.own sch.discs i j +
              total nodeOwn s1.fibers i j + vecOwn s1.vec i j + vecOwn s1.cvec i j + idleOwn s1.idle i j + c' i j) fun i j => by
                have h6 := h6 i j; have := hc4 i j; simp only [Sch.own, h2, total, Entry.own, Ctx.own] at h6; omega).mono ?_
            rintro r c5 ⟨rfl, hc5⟩
            simp only [over_ok]
            refine Tri.pure ⟨⟨h3, .inr ⟨h1, n, d, .tree x, h2, fun _ h => by cases h⟩,
              fun h => absurd h ha,
              .inl ⟨rfl, by dsimp only; rw [h2]; exact ne_cons, ha, fun w => ha (h5 w)⟩⟩, h4,
              fun en hen hid => absurd hid (hno en hen), fun w => absurd (h5 w) ha⟩
          · intro ha
            have h7 : ∀ i j, c3 i j = s1.own i j + c' i j := fun i j => by have := h6 i j; omega
            apply Tri.bind
            refine Tri.use (by
              have := h7 d.p .mem
              simp only [Sch.own, h2, total, Entry.own, Disc.own, one_self] at this
              omega) ?_
            apply Tri.bind
            refine Tri.use (by
              have := h7 x.p .mem
              simp only [Sch.own, h2, total, Entry.own, Ctx.own, Two.own, one_self] at this
              omega) ?_
            refine Tri.pure ⟨⟨h3, .inr ⟨h1, n, d, .tree x, h2, fun _ h => by cases h; rfl⟩, fun _ => ⟨d, rfl, _, by
              dsimp only; rw [h2]; exact List.mem_cons_self, rfl, rfl⟩, .inr h7⟩, h4,
              fun en hen hid => absurd hid (hno en hen), fun _ => rfl⟩
      · dsimp only at ha ho
        subst ho
        dsimp only
        apply Tri.bind
        refine (contextRelease_tri g (d := x) (c' := c) fun i j => by rw [hc2, hc1]).mono ?_
        rintro r c3 ⟨rfl, hc3⟩
        simp only [over_ok]
        refine Tri.pure ⟨⟨rfl, .inl rfl, fun h => absurd h ha, .inr fun i j => ?_⟩, rfl,
          fun en hen hid => absurd hid (hno en hen), fun w => absurd w hw⟩
        have := hc3 i j; rw [hc2, hc1, hc] at this; dsimp only; omega
    · dsimp only at ha ho
      subst ho
      exact Tri.pure ⟨⟨rfl, .inl rfl, fun h => absurd h ha, .inr fun i j => by rw [hc1, hc]⟩, rfl,
        fun en hen hid => absurd hid (hno en hen), fun w => absurd w hw⟩

theorem ioGetOrCreate_tri (g : e.Good) {sch : Sch} {c' : Heap} (hc : ∀ i j, c i j = sch.own i j + c' i j) :
    Tri e c (ioGetOrCreate sch) fun r c1 =>
      (r.2.2.discs = sch.discs ∨
        ((∀ en ∈ sch.discs, en.id ≠ IO_ID) ∧ ∃ n d x, r.2.2.discs = ⟨IO_ID, n, d, x⟩ :: sch.discs)) ∧
      r.2.2.fibers = sch.fibers ∧
      (∀ en ∈ sch.discs, en.id = IO_ID → r.2.2 = sch) ∧
      (e.Willing → r.1 = SUCCESS ∧ r.2.1 ≠ .null) ∧
      (r.1 = SUCCESS → (∀ en ∈ sch.discs, en.id ≠ IO_ID) → r.2.2.idle ≠ none) ∧
      (r.2.2.idle = sch.idle ∨ r.2.2.idle ≠ none ∧ ∃ en ∈ r.2.2.discs, en.id = IO_ID) ∧
      ((r.2.1 = .null ∧ r.2.2.discs ≠ sch.discs ∧ r.1 ≠ SUCCESS ∧ ¬ e.Willing) ∨ (sch.idle ≠ none ∧ r.2.2.idle ≠ sch.idle) ∨
        ∀ i j, c1 i j = r.2.2.own i j + c' i j) := by
  unfold ioGetOrCreate
  have hd : ∀ i j, c i j = total Entry.own sch.discs i j +
      (total nodeOwn sch.fibers i j + vecOwn sch.vec i j + vecOwn sch.cvec i j + idleOwn sch.idle i j + c' i j) :=
    fun i j => by rw [hc]; simp only [Sch.own]; omega
  apply Tri.bind
  refine (find_tri hd).mono ?_
  rintro r c1 ⟨rfl, rfl⟩
  cases hf : sch.discs.find? (fun en => decide (en.id = IO_ID)) with
  | some en =>
    obtain ⟨hm, hi⟩ := found hf
    exact Tri.pure ⟨.inl rfl, rfl, fun _ _ _ => rfl, fun _ => ⟨rfl, by simp⟩, fun _ h => absurd hi (h en hm), .inl rfl,
      .inr (.inr hc)⟩
  | none =>
    have hno : ∀ en ∈ sch.discs, en.id ≠ IO_ID := by simpa using hf
    dsimp only
    apply Tri.bind
    refine (ioDiscCreate_tri g).mono ?_
    rintro ⟨a, o⟩ c1 (⟨x, heq, hc1⟩ | ⟨ha, ho, hw, hc1⟩)
    · cases heq
      dsimp only
      simp only [Chained.own] at hc1
      apply Tri.bind
      refine (discAdd_tri (d := x.disc) (x := .io x.ctx) (c' := fun i j => x.ctx.own .desc i j + c' i j) fun i j => by
        rw [hc1, hc]; omega).mono ?_
      rintro ⟨a, s1⟩ c3 (⟨h1, h2, h3, h4, h5⟩ | ⟨n, h1, h2, h3, h4, h5, h6⟩)
      · dsimp only at h1 h2 h3 ⊢
        subst h2
        rw [if_pos h3]
        apply Tri.bind
        refine (ioDiscRelease_tri g (h := x) (c' := c) fun i j => by rw [h4, hc1]; rfl).mono ?_
        rintro r c4 ⟨rfl, hc4⟩
        simp only [over_ok]
        refine Tri.pure ⟨.inl rfl, rfl, fun en hen hid => absurd hid (hno en hen), fun w => absurd w (h5 hno),
          fun h => absurd h h3, .inl rfl, .inr (.inr fun i j => ?_)⟩
        have := hc4 i j; simp only [Chained.own] at this; rw [h4, hc1, hc] at this; dsimp only; omega
      · dsimp only at h2 h3 h4 h5 h6 ⊢
        simp only [Ctx.own] at h6
        apply Tri.ite
        · intro ha
          apply Tri.bind
          refine (ioDiscRelease_tri g (h := x) (c' := fun i j => one n .mem i j + total Entry.own sch.discs i j +
            total nodeOwn s1.fibers i j + vecOwn s1.vec i j + vecOwn s1.cvec i j + idleOwn s1.idle i j + c' i j) fun i j => by
              have h6 := h6 i j; simp only [Sch.own, h2, total, Entry.own, Ctx.own] at h6
              simp only [Chained.own]; omega).mono ?_
          rintro r c4 ⟨rfl, hc4⟩
          simp only [over_ok]
          exact Tri.pure ⟨.inr ⟨h1, n, x.disc, .io x.ctx, h2⟩, h3, fun en hen hid => absurd hid (hno en hen),
            fun w => absurd (h5 w) ha, fun h => absurd h ha, .inl h4,
            .inl ⟨rfl, by dsimp only; rw [h2]; exact ne_cons, ha, fun w => ha (h5 w)⟩⟩
        · intro ha
          have h7 : ∀ i j, c3 i j = s1.own i j + c' i j := fun i j => by have := h6 i j; omega
          apply Tri.bind
          refine (fiberCreate_tri g).bound.mono ?_
          rintro ⟨a, o⟩ c4 ⟨⟨f, heq, hc4⟩ | ⟨ha', ho, hw, hc4⟩, hb⟩
          · cases heq
            refine Tri.pure ⟨.inr ⟨h1, n, x.disc, .io x.ctx, h2⟩, h3, fun en hen hid => absurd hid (hno en hen),
              fun _ => ⟨rfl, by simp⟩, fun _ _ => by simp, .inr ⟨by simp, _, by dsimp only; rw [h2]; exact List.mem_cons_self, rfl⟩, ?_⟩
            right
            cases hidle : sch.idle with
            | none =>
              right
              intro i j
              rw [hidle] at h4
              rw [hc4, h7]; simp only [Sch.own, h4, idleOwn]; omega
            | some f0 =>
              by_cases hff : f0 = f
              · subst hff
                -- the new fiber cannot be one that is held already
                exfalso
                rw [hidle] at h4
                have hb := hb f0.p .mem
                rw [hc4, h7] at hb
                simp only [Sch.own, h4, idleOwn, Fiber.own, one_self] at hb
                omega
              · left
                exact ⟨by simp, by simp; exact fun h => hff h.symm⟩
          · dsimp only at ho ha'
            subst ho
            exact Tri.pure ⟨.inr ⟨h1, n, x.disc, .io x.ctx, h2⟩, h3, fun en hen hid => absurd hid (hno en hen),
              fun w => absurd w hw, fun h => absurd h ha', .inl h4, .inr (.inr fun i j => by rw [hc4, h7])⟩
    · dsimp only at ha ho
      subst ho
      exact Tri.pure ⟨.inl rfl, rfl, fun en hen hid => absurd hid (hno en hen), fun w => absurd w hw,
        fun h => absurd h ha, .inl rfl, .inr (.inr fun i j => by rw [hc1, hc])⟩

theorem fiberAdd_tri (g : e.Good) {mgmt : Bool} {sch : Sch} {f : Fiber} {c' : Heap}
    (hc : ∀ i j, c i j = sch.own i j + f.own i j + c' i j) :
    Tri e c (fiberAdd mgmt sch f) fun r c1 =>
      r.2.discs = sch.discs ∧ r.2.idle = sch.idle ∧ (e.Willing → r.1 = SUCCESS) ∧
      ((r.1 ≠ SUCCESS ∧ r.2.fibers ≠ sch.fibers) ∨
        (r.1 ≠ SUCCESS ∧ ∀ i j, c1 i j = r.2.own i j + f.own i j + c' i j) ∨
        (r.1 = SUCCESS ∧ ∀ i j, c1 i j = r.2.own i j + c' i j)) := by
  have big : ∀ n (c1 : Heap), (∀ i j, c1 i j = one n .mem i j + c i j) → ∀ i j,
      c1 i j = Sch.own { sch with fibers := (n, f) :: sch.fibers } i j + c' i j := by
    intro n c1 h i j
    rw [h, hc]; simp only [Sch.own, total, nodeOwn]; omega
  unfold fiberAdd
  apply Tri.bind
  refine Tri.use (by have := hc f.p .mem; simp only [Fiber.own, one_self] at this; omega) ?_
  apply Tri.bind
  apply Tri.get
  · intro a ha hw
    exact Tri.pure ⟨rfl, rfl, fun w => absurd w hw, .inr (.inl ⟨ha, hc⟩)⟩
  · intro n c1 hc1
    apply Tri.bind
    apply Tri.ask
    intro a hw
    apply Tri.ite
    · intro ha
      apply Tri.bind
      refine Tri.put g (by rw [hc1, one_self]; omega) ?_
      intro c2 hc2
      simp only [over_ok]
      exact Tri.pure ⟨rfl, rfl, hw, .inr (.inl ⟨ha, fun i j => by
        have := hc2 i j; rw [hc1, hc] at this; dsimp only; omega⟩)⟩
    · intro _
      dsimp only
      apply Tri.bind
      apply Tri.ask
      intro a hw
      apply Tri.ite
      · intro ha
        exact Tri.pure ⟨rfl, rfl, hw, .inl ⟨ha, ne_cons⟩⟩
      · intro _
        apply Tri.ite
        · intro _
          apply Tri.bind
          apply Tri.ask
          intro a hw
          apply Tri.ite
          · intro ha
            exact Tri.pure ⟨rfl, rfl, hw, .inl ⟨ha, ne_cons⟩⟩
          · intro _
            exact Tri.pure ⟨rfl, rfl, fun _ => rfl, .inr (.inr ⟨rfl, big n _ hc1⟩)⟩
        · intro _
          exact Tri.pure ⟨rfl, rfl, fun _ => rfl, .inr (.inr ⟨rfl, big n _ hc1⟩)⟩

theorem fiberRemove_tri (g : e.Good) {sch : Sch} {n : Nat} {c' : Heap} (hc : ∀ i j, c i j = sch.own i j + c' i j) :
    Tri e c (fiberRemove sch n) fun r c1 =>
      r.2.2.discs = sch.discs ∧ r.2.2.idle = sch.idle ∧
      ((r.1 = ERROR_RBTREE_NOT_FOUND ∧ r.2.1 = none ∧ r.2.2 = sch ∧ c1 = c) ∨
        ∃ f, r.1 = SUCCESS ∧ r.2.1 = some f ∧ ∀ i j, c1 i j = r.2.2.own i j + f.own i j + c' i j) := by
  unfold fiberRemove
  cases h : sch.fibers[n]? with
  | none => exact Tri.pure ⟨rfl, rfl, .inl ⟨rfl, rfl, rfl, rfl⟩⟩
  | some x =>
    obtain ⟨node, f⟩ := x
    have ht := total_erase (own := nodeOwn) h
    have hpos : 0 < c node .mem := by
      rw [hc]; simp only [Sch.own]; rw [ht]; simp only [nodeOwn, one_self]; omega
    dsimp only
    apply Tri.bind
    refine Tri.use hpos ?_
    apply Tri.bind
    refine Tri.put g hpos ?_
    intro c1 hc1
    refine Tri.pure ⟨rfl, rfl, .inr ⟨f, rfl, rfl, fun i j => ?_⟩⟩
    have := hc1 i j
    rw [hc] at this
    simp only [Sch.own] at this ⊢
    rw [ht] at this
    simp only [nodeOwn] at this ⊢
    omega

theorem putIf_tri (g : e.Good) {v : Option Nat} {c' : Heap} (hc : ∀ i j, c i j = vecOwn v i j + c' i j) :
    Tri e c (putIf v) (Freed (vecOwn v) c) := by
  cases v with
  | none => exact Tri.pure ⟨rfl, fun i j => by simp [vecOwn]⟩
  | some v =>
    refine Tri.put g (by rw [hc]; simp only [vecOwn, one_self]; omega) ?_
    intro c1 h
    exact ⟨rfl, h⟩

theorem schRelease_tri (g : e.Good) {sch : Sch} {c' : Heap} (hc : ∀ i j, c i j = sch.own i j + c' i j) :
    Tri e c (schRelease sch) (Freed sch.own c) := by
  unfold schRelease
  simp only [Sch.own] at hc
  apply Tri.bind
  refine (releaseNodes_tri g (own := nodeOwn) (l := sch.fibers) (c' := fun i j => total Entry.own sch.discs i j +
    vecOwn sch.vec i j + vecOwn sch.cvec i j + idleOwn sch.idle i j + c' i j) (fun x c c' h => ?_) fun i j => by
      rw [hc]; omega).mono ?_
  · exact nodeRelease_tri g (c' := c')
      (fiberRelease_tri g (c' := fun i j => one x.1 .mem i j + c' i j) fun i j => by rw [h]; simp only [nodeOwn]; omega) h
  rintro r c1 ⟨rfl, h1⟩
  apply Tri.bind
  refine (releaseNodes_tri g (own := Entry.own) (l := sch.discs) (c' := fun i j =>
    vecOwn sch.vec i j + vecOwn sch.cvec i j + idleOwn sch.idle i j + c' i j) (fun x c c' h => ?_) fun i j => by
      have := h1 i j; rw [hc] at this; omega).mono ?_
  · refine (nodeRelease_tri g (n := x.node) (own := fun i j => x.disc.own i j + x.ctx.own i j) (c' := c')
      (entryValueRelease_tri g (c' := fun i j => one x.node .mem i j + c' i j) fun i j => by
        rw [h]; simp only [Entry.own]; omega) fun i j => by rw [h]; simp only [Entry.own]; omega).mono ?_
    rintro r c1 ⟨rfl, h1⟩
    exact ⟨rfl, fun i j => by rw [h1]; simp only [Entry.own]; omega⟩
  rintro r c2 ⟨rfl, h2⟩
  apply Tri.bind
  have h3 : Tri e c2 (idleRelease sch.idle) (Freed (idleOwn sch.idle) c2) := by
    cases hi : sch.idle with
    | none => exact Tri.pure ⟨rfl, fun i j => by simp [idleOwn]⟩
    | some f =>
      refine fiberRelease_tri g (c' := fun i j => vecOwn sch.vec i j + vecOwn sch.cvec i j + c' i j) fun i j => ?_
      have := h1 i j; have := h2 i j; have := hc i j
      simp only [hi, idleOwn] at this; omega
  refine h3.mono ?_
  rintro r c3 ⟨rfl, h3⟩
  apply Tri.bind
  refine (putIf_tri g (v := sch.vec) (c' := fun i j => vecOwn sch.cvec i j + c' i j) fun i j => by
    have := h1 i j; have := h2 i j; have := h3 i j; have := hc i j; omega).mono ?_
  rintro r c4 ⟨rfl, h4⟩
  apply Tri.bind
  refine (putIf_tri g (v := sch.cvec) (c' := c') fun i j => by
    have := h1 i j; have := h2 i j; have := h3 i j; have := h4 i j; have := hc i j; omega).mono ?_
  rintro r c5 ⟨rfl, h5⟩
  refine Tri.pure ⟨by simp [first], fun i j => ?_⟩
  have := h1 i j; have := h2 i j; have := h3 i j; have := h4 i j; have := h5 i j
  simp only [Sch.own]; omega

/-! ### Programs -/

/-- What is held is what the scheduler and the program own, and every discipline is registered once. -/
structure Prog.Inv (w : Prog) : Prop where
  holds : Holds w.st fun i j => w.sch.own i j + total Fiber.own w.mine i j
  ids : (w.sch.discs.map (·.id)).Nodup

/-- A call that failed left nothing in the trees that it also left with its caller, and no call replaced an
idle fiber. -/
structure CleanCall (s : Sch) (a : Status) (d : Out Disc) (s' : Sch) : Prop where
  fibers : a ≠ SUCCESS → s'.fibers = s.fibers
  discs : d = .null → s'.discs = s.discs
  idle : s.idle ≠ none → s'.idle = s.idle

/-- What one call does. -/
structure Stepped (e : Env) (w : Prog) (o : Do) (a : Status) (d : Out Disc) (s' : Sch) (mine : List Fiber) (c : Heap) : Prop where
  inv : CleanCall w.sch a d s' → ∀ i j, c i j = s'.own i j + total Fiber.own mine i j
  ids : (s'.discs.map (·.id)).Nodup
  mono : ∀ en ∈ w.sch.discs, en ∈ s'.discs
  msg : ∀ id, o = .messages id → Got e id w.sch (total Fiber.own w.mine) (a, d, s') c ∧ s'.idle = w.sch.idle ∧
        (∀ en ∈ w.sch.discs, en.id = id → a = SUCCESS ∧ s' = w.sch) ∧ (e.Willing → a = SUCCESS)
  io : o = .io → a = SUCCESS → (∀ en ∈ w.sch.discs, en.id ≠ IO_ID) → s'.idle ≠ none
  willing : e.Willing → (a ≠ SUCCESS → s'.fibers = w.sch.fibers) ∧ (d = .null → s'.discs = w.sch.discs)
  idle : (∀ n, o ≠ .setIdle n) → o ≠ .idleExit → s'.idle = w.sch.idle ∨
        ((∀ en ∈ w.sch.discs, en.id ≠ IO_ID) ∧ ∃ en ∈ s'.discs, en.id = IO_ID)
  keep : o ≠ .idleExit → w.sch.idle ≠ none → s'.idle ≠ none
  new : ∀ en ∈ s'.discs, en ∈ w.sch.discs ∨ o = .io ∨ o = .disc en.id ∨ o = .messages en.id

private theorem ids_cons {l : List Entry} {id n : Nat} {d : Disc} {x : Ctx} (h : (l.map (·.id)).Nodup)
    (hn : ∀ en ∈ l, en.id ≠ id) : (((⟨id, n, d, x⟩ : Entry) :: l).map (·.id)).Nodup := by
  simp only [List.map_cons, List.nodup_cons, h, and_true, List.mem_map, not_exists, not_and]
  exact hn

/-- A call that changes neither trees nor idle fiber. -/
private theorem Stepped.quiet {w : Prog} {o : Do} {a : Status} {mine : List Fiber} (h : w.Inv) (h1 : ∀ id, o ≠ .messages id)
    (h2 : o ≠ .io) (hc : ∀ i j, c i j = w.sch.own i j + total Fiber.own mine i j) :
    Stepped e w o a .untouched w.sch mine c :=
  ⟨fun _ => hc, h.ids, fun _ h => h, fun id hid => absurd hid (h1 id), fun h => absurd h h2,
    fun _ => ⟨fun _ => rfl, fun _ => rfl⟩, fun _ _ => .inl rfl, fun _ h => h, fun _ h => .inl h⟩

theorem Prog.act_tri (g : e.Good) {w : Prog} (h : w.Inv) {o : Do} (ho : ∀ n, o ≠ .setIdleAdded n)
    (hc : ∀ i j, c i j = w.sch.own i j + total Fiber.own w.mine i j) :
    Tri e c (w.act o) fun r c' => Stepped e w o r.1 r.2.1 r.2.2.1 r.2.2.2 c' := by
  cases o with
  | disc id =>
    dsimp only [Prog.act]
    apply Tri.bind
    refine (ownDisc_tri g hc).mono ?_
    rintro ⟨a, d, s'⟩ c1 ⟨⟨h1, h2, h3, h4⟩, h5, h7⟩
    dsimp only at h1 h2 h3 h4 h5 h7
    refine Tri.pure ?_
    refine ⟨fun cl => ?_, ?_, ?_, fun _ h => (by cases h), fun h => (by cases h), fun hw => ⟨fun _ => h1, fun hd => ?_⟩, fun _ _ => .inl h5, fun _ h => by dsimp only; rw [h5]; exact h, fun en hen => ?_⟩
    · rcases h4 with ⟨h4, h6, _⟩ | h4
      · exact absurd (cl.discs h4) h6
      · exact h4
    · rcases h2 with h2 | ⟨h2, n, d', x, h6, _⟩
      · dsimp only; rw [h2]; exact h.ids
      · dsimp only; rw [h6]; exact ids_cons h.ids h2
    · intro en hen
      rcases h2 with h2 | ⟨h2, n, d', x, h6, _⟩
      · dsimp only; rw [h2]; exact hen
      · dsimp only; rw [h6]; exact List.mem_cons_of_mem _ hen
    · exact h7 hw hd
    · rcases h2 with h2 | ⟨h2, n, d', x, h6, _⟩
      · dsimp only at hen; rw [h2] at hen; exact .inl hen
      · dsimp only at hen; rw [h6] at hen
        rcases List.mem_cons.1 hen with rfl | hen
        · exact .inr (.inr (.inl rfl))
        · exact .inl hen
  | messages id =>
    dsimp only [Prog.act]
    apply Tri.bind
    refine (getOrCreate_tri g hc).mono ?_
    rintro ⟨a, d, s'⟩ c1 ⟨⟨h1, h2, h3, h4⟩, h5, h7, h8⟩
    dsimp only at h1 h2 h3 h4 h5
    refine Tri.pure ?_
    refine ⟨fun cl => ?_, ?_, ?_, fun id' hid => ?_, fun h => (by cases h), fun hw => ⟨fun _ => h1, fun hd => ?_⟩, fun _ _ => .inl h5, fun _ h => by dsimp only; rw [h5]; exact h, fun en hen => ?_⟩
    · rcases h4 with ⟨h4, h6, _⟩ | h4
      · exact absurd (cl.discs h4) h6
      · exact h4
    · rcases h2 with h2 | ⟨h2, n, d', x, h6, _⟩
      · dsimp only; rw [h2]; exact h.ids
      · dsimp only; rw [h6]; exact ids_cons h.ids h2
    · intro en hen
      rcases h2 with h2 | ⟨h2, n, d', x, h6, _⟩
      · dsimp only; rw [h2]; exact hen
      · dsimp only; rw [h6]; exact List.mem_cons_of_mem _ hen
    · cases hid
      exact ⟨⟨h1, h2, h3, h4⟩, h5, h7, h8⟩
    · obtain ⟨d', h9, _⟩ := h3 (h8 hw)
      rw [h9] at hd; cases hd
    · rcases h2 with h2 | ⟨h2, n, d', x, h6, _⟩
      · dsimp only at hen; rw [h2] at hen; exact .inl hen
      · dsimp only at hen; rw [h6] at hen
        rcases List.mem_cons.1 hen with rfl | hen
        · exact .inr (.inr (.inr rfl))
        · exact .inl hen
  | io =>
    dsimp only [Prog.act]
    apply Tri.bind
    refine (ioGetOrCreate_tri g hc).mono ?_
    rintro ⟨a, d, s'⟩ c1 ⟨h1, h2, h3, h4, h5, h6, h7⟩
    dsimp only at h1 h2 h3 h4 h5 h6 h7
    refine Tri.pure ?_
    refine ⟨fun cl => ?_, ?_, ?_, fun id' hid => (by cases hid), fun _ => h5, fun hw => ⟨fun _ => h2, fun hd => ?_⟩, fun _ _ => ?_, fun _ h => ?_, fun _ _ => .inr (.inl rfl)⟩
    · rcases h7 with ⟨h7, h8, _⟩ | ⟨h7, h8⟩ | h7
      · exact absurd (cl.discs h7) h8
      · exact absurd (cl.idle h7) h8
      · exact h7
    · rcases h1 with h1 | ⟨h1, n, d', x, h8⟩
      · dsimp only; rw [h1]; exact h.ids
      · dsimp only; rw [h8]; exact ids_cons h.ids h1
    · intro en hen
      rcases h1 with h1 | ⟨h1, n, d', x, h8⟩
      · dsimp only; rw [h1]; exact hen
      · dsimp only; rw [h8]; exact List.mem_cons_of_mem _ hen
    · exact absurd hd (h4 hw).2
    · rcases h6 with h6 | ⟨_, en, h6, h8⟩
      · exact .inl h6
      · rcases h1 with h1 | ⟨h1, _⟩
        · dsimp only; rw [h1] at h6; rw [h3 en h6 h8]; exact .inl rfl
        · exact .inr ⟨h1, en, h6, h8⟩
    · rcases h6 with h6 | ⟨h6, _⟩
      · dsimp only; rw [h6]; exact h
      · exact h6
  | create =>
    dsimp only [Prog.act]
    apply Tri.bind
    refine (fiberCreate_tri g).mono ?_
    rintro ⟨a, d⟩ c1 (⟨f, heq, h1⟩ | ⟨ha, hd, hw, h1⟩)
    · cases heq
      refine Tri.pure (Stepped.quiet h (by simp) (by simp) fun i j => ?_)
      rw [h1, hc]; simp only [total]; omega
    · dsimp only at hd
      subst hd
      exact Tri.pure (Stepped.quiet h (by simp) (by simp) fun i j => by rw [h1, hc])
  | add mgmt n =>
    dsimp only [Prog.act]
    cases hn : w.mine[n]? with
    | none => exact Tri.pure (Stepped.quiet h (by simp) (by simp) hc)
    | some f =>
      have ht := total_erase (own := Fiber.own) hn
      dsimp only
      apply Tri.bind
      refine (fiberAdd_tri g (c' := total Fiber.own (w.mine.eraseIdx n)) fun i j => by
        rw [hc, ht]; omega).mono ?_
      rintro ⟨a, s'⟩ c1 ⟨h1, h2, h3, h4⟩
      dsimp only at h1 h2 h3 h4 ⊢
      refine Tri.pure ⟨fun cl => ?_, (by dsimp only; rw [h1]; exact h.ids), fun en hen => (by dsimp only; rw [h1]; exact hen),
        fun _ hid => (by cases hid), fun hio => (by cases hio), fun hw => ⟨fun ha => absurd (h3 hw) ha, fun hd => (by cases hd)⟩,
        fun _ _ => .inl h2, fun _ h => (by dsimp only; rw [h2]; exact h), fun en hen => .inl (by dsimp only at hen; rw [h1] at hen; exact hen)⟩
      rcases h4 with ⟨h4, h5⟩ | ⟨h4, h5⟩ | ⟨h4, h5⟩
      · exact absurd (cl.fibers h4) h5
      · intro i j
        dsimp only
        rw [if_neg h4, h5, ht]; omega
      · dsimp only
        rw [if_pos h4]; exact h5
  | remove n =>
    dsimp only [Prog.act]
    apply Tri.bind
    refine (fiberRemove_tri g hc).mono ?_
    rintro ⟨a, f, s'⟩ c1 ⟨h1, h2, h3⟩
    dsimp only at h1 h2 h3
    rcases h3 with ⟨h3, h4, h5, h6⟩ | ⟨f', h3, h4, h5⟩
    · subst h4 h5 h6
      exact Tri.pure (Stepped.quiet h (by simp) (by simp) hc)
    · subst h4 h3
      exact Tri.pure ⟨fun _ i j => (by dsimp only; rw [h5]; simp only [total]; omega), (by dsimp only; rw [h1]; exact h.ids),
        fun en hen => (by dsimp only; rw [h1]; exact hen),
        fun _ hid => (by cases hid), fun hio => (by cases hio), fun hw => ⟨fun ha => absurd rfl ha, fun hd => (by cases hd)⟩,
        fun _ _ => .inl h2, fun _ h => (by dsimp only; rw [h2]; exact h), fun en hen => .inl (by dsimp only at hen; rw [h1] at hen; exact hen)⟩
  | release n =>
    dsimp only [Prog.act]
    cases hn : w.mine[n]? with
    | none => exact Tri.pure (Stepped.quiet h (by simp) (by simp) hc)
    | some f =>
      have ht := total_erase (own := Fiber.own) hn
      dsimp only
      apply Tri.bind
      refine (fiberRelease_tri g (c' := fun i j => w.sch.own i j + total Fiber.own (w.mine.eraseIdx n) i j) fun i j => by
        rw [hc, ht]; omega).mono ?_
      rintro a c1 ⟨rfl, h1⟩
      exact Tri.pure (Stepped.quiet h (by simp) (by simp) fun i j => by
        have := h1 i j; rw [hc, ht] at this; dsimp only; omega)
  | setIdle n =>
    dsimp only [Prog.act]
    cases hn : w.mine[n]? with
    | none => exact Tri.pure (Stepped.quiet h (by simp) (by simp) hc)
    | some f =>
      have ht := total_erase (own := Fiber.own) hn
      cases hi : w.sch.idle with
      | some f' => exact Tri.pure (Stepped.quiet h (by simp) (by simp) hc)
      | none =>
        refine Tri.pure ⟨fun _ i j => ?_, h.ids, fun _ h => h, fun _ hid => (by cases hid), fun hio => (by cases hio),
          fun hw => ⟨fun ha => absurd rfl ha, fun hd => (by cases hd)⟩, fun hs => absurd rfl (hs n), fun _ _ => by simp, fun _ h => .inl h⟩
        rw [hc, ht]; simp only [Sch.own, hi, idleOwn]; omega
  | setIdleAdded n => exact absurd rfl (ho n)
  | idleExit =>
    dsimp only [Prog.act]
    refine Tri.pure ⟨fun cl i j => ?_, h.ids, fun _ h => h, fun _ hid => (by cases hid), fun hio => (by cases hio),
          fun hw => ⟨fun ha => absurd rfl ha, fun hd => (by cases hd)⟩, fun _ hs => absurd rfl hs, fun hs => absurd rfl hs, fun _ h => .inl h⟩
    have hi : w.sch.idle = none := by
      cases hi : w.sch.idle with
      | none => rfl
      | some f => have := cl.idle (by simp [hi]); rw [hi] at this; cases this
    rw [hc]; simp only [Sch.own, hi]

theorem Prog.step_tri (g : e.Good) {w : Prog} (h : w.Inv) {o : Do} (ho : ∀ n, o ≠ .setIdleAdded n) :
    ∃ a d w' c, w.step e o = some (a, d, w') ∧ Holds w'.st c ∧ Stepped e w o a d w'.sch w'.mine c := by
  obtain ⟨⟨a, d, s', m⟩, st, c', h1, h2, h3⟩ := (Prog.act_tri g h ho fun _ _ => rfl).elim h.holds
  exact ⟨a, d, ⟨s', m, st⟩, c', by simp only [Prog.step, h1], h2, h3⟩

theorem Holds.congr {s : St} {c c' : Heap} (h : Holds s c) (he : ∀ i j, c i j = c' i j) : Holds s c' :=
  ⟨h.ok, fun i k => by rw [← he, h.eq]⟩

theorem Prog.step_inv {w w' : Prog} {o : Do} {a : Status} {d : Out Disc} {c : Heap} (hh : Holds w'.st c)
    (hs : Stepped e w o a d w'.sch w'.mine c) (hc : CleanCall w.sch a d w'.sch) : w'.Inv :=
  ⟨hh.congr (hs.inv hc), hs.ids⟩

theorem Prog.start_inv : Prog.start.Inv := by
  refine ⟨⟨fun i hi => ?_, fun i k => ?_⟩, List.nodup_nil⟩
  · simp only [Prog.start] at hi ⊢
    rw [if_neg (by omega)]
  · simp only [Prog.start, Sch.own, total, vecOwn, idleOwn, one]
    grind

/-- The end of a program gives everything back. -/
theorem Prog.finish_inv (g : e.Good) {w : Prog} (h : w.Inv) :
    ∃ s, w.finish e w.st = some (SUCCESS, s) ∧ ∀ i, s.live i = none := by
  have ht : Tri e (fun i j => w.sch.own i j + total Fiber.own w.mine i j) w.finish fun a c => a = SUCCESS ∧ ∀ i j, c i j = 0 := by
    unfold Prog.finish
    apply Tri.bind
    refine (releaseNodes_tri g (own := Fiber.own) (l := w.mine) (c' := w.sch.own)
      (fun x c c' h => fiberRelease_tri g h) fun i j => by omega).mono ?_
    rintro r c1 ⟨rfl, h1⟩
    apply Tri.bind
    refine (schRelease_tri g (c' := fun _ _ => 0) fun i j => by have := h1 i j; dsimp only at this; omega).mono ?_
    rintro r c2 ⟨rfl, h2⟩
    exact Tri.pure ⟨by simp [first], fun i j => by have h1 := h1 i j; have h2 := h2 i j; dsimp only at h1; omega⟩
  obtain ⟨a, s, c, h1, h2, rfl, h3⟩ := ht.elim h.holds
  refine ⟨s, h1, fun i => ?_⟩
  cases hl : s.live i with
  | none => rfl
  | some k => have := h2.eq i k; rw [h3, if_pos hl] at this; cases this

end Rcpr.Life
