import Verif.LifeWp
import Verif.LifeSched

/-!
The ledger as a function that counts, and rules for programs in the manner of separation logic, for
environments in which what is given back is taken back.
-/
namespace Rcpr.Life

open Rcpr

/-- How often something is held. -/
abbrev Heap := Nat → Kind → Nat

/-- `c` counts exactly what is held, each thing once. -/
structure Holds (s : St) (c : Heap) : Prop where
  ok : s.Ok
  eq : ∀ i k, c i k = if s.live i = some k then 1 else 0

/-- `m`, started on the heap `c`, is defined and ends with an answer and a heap that satisfy `Q`. -/
def Tri {α : Type} (e : Env) (c : Heap) (m : M α) (Q : α → Heap → Prop) : Prop :=
  ∀ s, Holds s c → wp m e s fun a s' => ∃ c', Holds s' c' ∧ Q a c'

/-- One thing. -/
def one (p : Nat) (k : Kind) : Heap := fun i j => if i = p ∧ j = k then 1 else 0

theorem one_self {p : Nat} {k : Kind} : one p k p k = 1 := by simp [one]

variable {α β : Type} {e : Env} {c : Heap}

theorem Tri.mono {m : M α} {P Q : α → Heap → Prop} (h : Tri e c m P) (hq : ∀ a c', P a c' → Q a c') : Tri e c m Q :=
  fun s hs => wp_mono (h s hs) fun a _ ⟨c', h1, h2⟩ => ⟨c', h1, hq a c' h2⟩

theorem Tri.bound {m : M α} {Q : α → Heap → Prop} (h : Tri e c m Q) :
    Tri e c m fun a c' => Q a c' ∧ ∀ i j, c' i j ≤ 1 :=
  fun s hs => wp_mono (h s hs) fun a _ ⟨c', h1, h2⟩ => ⟨c', h1, h2, fun i j => by rw [h1.eq]; split <;> omega⟩

theorem Tri.pure {a : α} {Q : α → Heap → Prop} (h : Q a c) : Tri e c (Pure.pure a) Q :=
  fun _ hs => wp_pure ⟨c, hs, h⟩

theorem Tri.bind {m : M α} {f : α → M β} {Q : β → Heap → Prop}
    (h : Tri e c m fun a c' => Tri e c' (f a) Q) : Tri e c (m >>= f) Q :=
  fun s hs => wp_bind (wp_mono (h s hs) fun _ _ ⟨_, h1, h2⟩ => h2 _ h1)

theorem Tri.ite {p : Prop} [Decidable p] {m n : M α} {Q : α → Heap → Prop} (h1 : p → Tri e c m Q)
    (h2 : ¬ p → Tri e c n Q) : Tri e c (if p then m else n) Q := by
  by_cases h : p
  · rw [if_pos h]; exact h1 h
  · rw [if_neg h]; exact h2 h

theorem Tri.use {i : Nat} {Q : Unit → Heap → Prop} (h : 0 < c i .mem) (hq : Q () c) : Tri e c (use i) Q := by
  intro s hs
  have := hs.eq i .mem
  refine wp_use ?_ ⟨c, hs, hq⟩
  by_cases hl : s.live i = some .mem
  · exact hl
  · rw [if_neg hl] at this; omega

theorem Tri.ask {Q : Status → Heap → Prop} (h : ∀ a, (e.Willing → a = SUCCESS) → Q a c) : Tri e c ask Q := by
  intro s hs
  apply wp_ask
  intro a s' hw h1 h2 h3
  exact ⟨c, ⟨h3 hs.ok, fun i k => by rw [h1]; exact hs.eq i k⟩, h a hw⟩

theorem Tri.get {k : Kind} {Q : Except Status Nat → Heap → Prop}
    (h1 : ∀ a, a ≠ SUCCESS → ¬ e.Willing → Q (.error a) c)
    (h2 : ∀ p c', (∀ i j, c' i j = one p k i j + c i j) → Q (.ok p) c') : Tri e c (get k) Q := by
  intro s hs
  apply wp_get
  · intro a s' h0 hw h1' h2 h3
    exact ⟨c, ⟨h3 hs.ok, fun i k => by rw [h1']; exact hs.eq i k⟩, h1 a h0 hw⟩
  · intro s' h1 h2' h3
    refine ⟨fun i j => one s.next k i j + c i j, ⟨h3 hs.ok, ?_⟩, h2 _ _ fun _ _ => rfl⟩
    intro i j
    show one s.next k i j + c i j = _
    rw [h1, hs.eq i j]
    unfold one
    by_cases h : i = s.next
    · subst h
      have := hs.ok s.next (Nat.le_refl _)
      simp [this, eq_comm]
    · simp [h]

private theorem drop_holds {s s' : St} {k : Kind} {p : Nat} (hs : Holds s c) (hc : s.live p = some k)
    (h1 : ∀ j, s'.live j = if j = p then none else s.live j) (h3 : s.Ok → s'.Ok) :
    ∃ c', Holds s' c' ∧ ∀ i j, c i j = one p k i j + c' i j := by
  refine ⟨fun i j => if s'.live i = some j then 1 else 0, ⟨h3 hs.ok, fun _ _ => rfl⟩, fun i j => ?_⟩
  show c i j = one p k i j + if s'.live i = some j then 1 else 0
  rw [h1, hs.eq]
  unfold one
  by_cases h : i = p
  · subst h
    simp [hc, eq_comm]
  · simp [h]

theorem Tri.put {k : Kind} {p : Nat} {Q : Status → Heap → Prop} (g : e.Good) (h : 0 < c p k)
    (hq : ∀ c', (∀ i j, c i j = one p k i j + c' i j) → Q SUCCESS c') : Tri e c (put k p) Q := by
  intro s hs
  have hl : s.live p = some k := by
    have := hs.eq p k
    by_cases hl : s.live p = some k
    · exact hl
    · rw [if_neg hl] at this; omega
  apply wp_put hl
  · intro _ _ _ ng; exact absurd g ng
  · intro s' h1 _ h3
    obtain ⟨c', h4, h5⟩ := drop_holds hs hl h1 h3
    exact ⟨c', h4, hq c' h5⟩

theorem Tri.drop {k : Kind} {p : Nat} {Q : Status → Heap → Prop} (h : 0 < c p k)
    (hq : ∀ a c', (∀ i j, c i j = one p k i j + c' i j) → Q a c') : Tri e c (drop k p) Q := by
  intro s hs
  have hl : s.live p = some k := by
    have := hs.eq p k
    by_cases hl : s.live p = some k
    · exact hl
    · rw [if_neg hl] at this; omega
  apply wp_drop hl
  intro a s' h1 _ h3
  obtain ⟨c', h4, h5⟩ := drop_holds hs hl h1 h3
  exact ⟨c', h4, hq a c' h5⟩

/-- From a statement about heaps back to states. -/
theorem Tri.elim {m : M α} {Q : α → Heap → Prop} (h : Tri e c m Q) {s : St} (hs : Holds s c) :
    ∃ a s' c', m e s = some (a, s') ∧ Holds s' c' ∧ Q a c' := by
  obtain ⟨a, s', h1, c', h2, h3⟩ := h s hs
  exact ⟨a, s', c', h1, h2, h3⟩

/-! ### What objects own -/

def Two.own (k : Kind) (h : Two) : Heap := fun i j => one h.p .mem i j + one h.q k i j

def Disc.own (d : Disc) : Heap := fun i j => one d.p .mem i j + one d.vec .mem i j + one d.codes .mem i j

def Fiber.own (f : Fiber) : Heap := fun i j => one f.p .mem i j + match f.st with
    | some st => st.own .map i j
    | none => 0

def Ctx.own : Ctx → Heap
  | .none => fun _ _ => 0
  | .tree h => h.own .mem
  | .io h => h.own .desc

def Chained.own (h : Chained) : Heap := fun i j => h.ctx.own .desc i j + h.disc.own i j

def Entry.own (en : Entry) : Heap := fun i j => one en.node .mem i j + en.disc.own i j + en.ctx.own i j

def vecOwn : Option Nat → Heap
  | some v => one v .mem
  | none => fun _ _ => 0

/-- What a list of things owns. -/
def total {X : Type} (own : X → Heap) : List X → Heap
  | [] => fun _ _ => 0
  | x :: l => fun i j => own x i j + total own l i j

/-- What a constructor leaves. -/
def Made {H : Type} (e : Env) (own : H → Heap) (c : Heap) (r : Status × Out H) (c' : Heap) : Prop :=
  (∃ h, r = (SUCCESS, .set h) ∧ ∀ i j, c' i j = own h i j + c i j) ∨
    (r.1 ≠ SUCCESS ∧ r.2 = .untouched ∧ ¬ e.Willing ∧ ∀ i j, c' i j = c i j)

/-- What a release method does. -/
def Freed (own : Heap) (c : Heap) (r : Status) (c' : Heap) : Prop :=
  r = SUCCESS ∧ ∀ i j, c i j = own i j + c' i j

macro "cnt" : tactic => `(tactic| grind (ext := false) (splits := 30) [one_self, over_eq, first_eq])

/-- Runs a program symbolically over heaps. -/
macro "tri" : tactic => `(tactic|
  repeat' (first
    | (dsimp only)
    | (with_reducible apply Tri.bind)
    | (with_reducible apply Tri.pure)
    | (with_reducible apply Tri.get <;> intros)
    | (with_reducible apply Tri.ask <;> intros)
    | (with_reducible apply Tri.ite <;> intros)
    | (with_reducible refine Tri.use (by cnt) ?_)
    | (with_reducible refine Tri.put (by assumption) (by cnt) ?_ <;> intros)
    | (with_reducible refine Tri.drop (by cnt) ?_ <;> intros)))

/-- The status of an error that is used as such. -/
theorem oom_ne : ERROR_GENERAL_OUT_OF_MEMORY ≠ SUCCESS := by decide
theorem epoll_ne : ERROR_PSOCK_EPOLL_CREATE_FAILED ≠ SUCCESS := by decide
theorem dup_ne : ERROR_FIBER_SCHEDULER_DUPLICATE_DISCIPLINE_ID ≠ SUCCESS := by decide
theorem notfound_ne : ERROR_RBTREE_NOT_FOUND ≠ SUCCESS := by decide

macro "made" : tactic => `(tactic| first
  | (left; refine ⟨_, rfl, ?_⟩; intro i j; simp only [Two.own, Disc.own, Fiber.own, Chained.own]; cnt)
  | (right; have := oom_ne; have := epoll_ne; refine ⟨?_, rfl, ?_, ?_⟩ <;> cnt))

theorem discCreate_tri (g : e.Good) : Tri e c discCreate (Made e Disc.own c) := by
  unfold discCreate; tri
  all_goals made

theorem discRelease_tri (g : e.Good) {d : Disc} {c' : Heap} (h : ∀ i j, c i j = d.own i j + c' i j) :
    Tri e c (discRelease d) (Freed d.own c) := by
  unfold discRelease
  simp only [Disc.own] at h
  tri
  all_goals exact ⟨by cnt, fun i j => by simp only [Disc.own]; cnt⟩

theorem stackCreate_tri (g : e.Good) : Tri e c stackCreate (Made e (Two.own .map) c) := by
  unfold stackCreate; tri
  all_goals made

theorem stackRelease_tri (g : e.Good) {d : Two} {c' : Heap} (h : ∀ i j, c i j = d.own .map i j + c' i j) :
    Tri e c (stackRelease d) (Freed (d.own .map) c) := by
  unfold stackRelease
  simp only [Two.own] at h
  tri
  all_goals first | contradiction | exact ⟨by cnt, fun i j => by simp only [Two.own]; cnt⟩

theorem fiberCreate_tri (g : e.Good) : Tri e c fiberCreate (Made e Fiber.own c) := by
  unfold fiberCreate stackCreate; tri
  all_goals made

theorem fiberRelease_tri (g : e.Good) {f : Fiber} {c' : Heap} (h : ∀ i j, c i j = f.own i j + c' i j) :
    Tri e c (fiberRelease f) (Freed f.own c) := by
  unfold fiberRelease
  obtain ⟨p, st⟩ := f
  cases st with
  | none =>
    simp only [Fiber.own] at h
    tri
    all_goals exact ⟨by cnt, fun i j => by simp only [Fiber.own]; cnt⟩
  | some st =>
    simp only [Fiber.own, Two.own] at h
    unfold stackRelease
    tri
    all_goals first | contradiction | exact ⟨by cnt, fun i j => by simp only [Fiber.own, Two.own]; cnt⟩

theorem contextCreate_tri (g : e.Good) : Tri e c contextCreate (Made e (Two.own .mem) c) := by
  unfold contextCreate treeCreate; tri
  all_goals made

theorem contextRelease_tri (g : e.Good) {d : Two} {c' : Heap} (h : ∀ i j, c i j = d.own .mem i j + c' i j) :
    Tri e c (contextRelease d) (Freed (d.own .mem) c) := by
  unfold contextRelease blockRelease
  simp only [Two.own] at h
  tri
  all_goals exact ⟨by cnt, fun i j => by simp only [Two.own]; cnt⟩

theorem epollCreate_tri (g : e.Good) : Tri e c epollCreate (Made e (Two.own .desc) c) := by
  unfold epollCreate; tri
  all_goals made

theorem epollRelease_tri (g : e.Good) {d : Two} {c' : Heap} (h : ∀ i j, c i j = d.own .desc i j + c' i j) :
    Tri e c (epollRelease d) (Freed (d.own .desc) c) := by
  unfold epollRelease
  simp only [Two.own] at h
  tri
  all_goals exact ⟨by cnt, fun i j => by simp only [Two.own]; cnt⟩

end Rcpr.Life
