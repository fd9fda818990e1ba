import Verif.Wrap

/-!
The mode of a descriptor whose psock is wrapped (C100). The theorem with the suffix `_partial` takes each open file to have one
descriptor; if there are more, `wrap_shared_violated` shows that they become nonblocking too.
-/
namespace Rcpr.Wrap

open Rcpr

/-- The flags as the kernel keeps them: `F_GETFL` gives them back as an `int` that is not negative. -/
def Sane (k : Kern) : Prop := ∀ g, (k.flags g).msb = false

/-- A read or write on the descriptor returns at once if it would have to wait. -/
def Nonblocking (k : Kern) (fd : Nat) : Prop := ∃ g, k.file fd = some g ∧ (k.flags g).getLsbD 11 = true

theorem nonblock_bit (i : Nat) : O_NONBLOCK.getLsbD i = decide (i = 11) := by
  by_cases h : i < 32
  · have : ∀ i : Fin 32, O_NONBLOCK.getLsbD i = decide (i.val = 11) := by decide
    exact this ⟨i, h⟩
  · rw [BitVec.getLsbD_of_ge _ _ (by omega)]; simp; omega

theorem settable_11 : SETTABLE.getLsbD 11 = true := by decide

theorem merged (v : BitVec 32) (i : Nat) :
    ((v &&& ~~~SETTABLE) ||| ((v ||| O_NONBLOCK) &&& SETTABLE)).getLsbD i = (v.getLsbD i || decide (i = 11)) := by
  by_cases hi : i < 32
  · simp only [BitVec.getLsbD_or, BitVec.getLsbD_and, BitVec.getLsbD_not, nonblock_bit, hi, decide_true, Bool.true_and]
    by_cases h : i = 11
    · subst h; simp [settable_11]
    · cases v.getLsbD i <;> cases SETTABLE.getLsbD i <;> simp [h]
  · rw [BitVec.getLsbD_of_ge _ _ (by omega), BitVec.getLsbD_of_ge _ _ (by omega)]; simp; omega

/-- On success the descriptor is open and nonblocking, and every other flag, of this file and of all others, is as it
was; on failure nothing has changed. It succeeds if the descriptor is open and the kernel does not refuse. -/
theorem set_nonblock {k : Kern} (hk : Sane k) (fd : Nat) (ok : Bool) :
    (setNonblock k fd ok).1.file = k.file ∧
    ((setNonblock k fd ok).2 = SUCCESS ↔ (k.file fd).isSome ∧ ok = true) ∧
    ((setNonblock k fd ok).2 ≠ SUCCESS → (setNonblock k fd ok) = (k, ERROR_SOCKET_UTILITIES_SET_NONBLOCK_FAILURE)) ∧
    ((setNonblock k fd ok).2 = SUCCESS → ∀ g i, ((setNonblock k fd ok).1.flags g).getLsbD i =
      ((k.flags g).getLsbD i || decide (k.file fd = some g ∧ i = 11))) := by
  have he : ERROR_SOCKET_UTILITIES_SET_NONBLOCK_FAILURE ≠ SUCCESS := by decide
  unfold setNonblock getfl setfl
  cases hf : k.file fd with
  | none => simp [he]
  | some g =>
    simp only [hk g, Bool.false_eq_true, if_false]
    cases ok with
    | false => simp [he]
    | true =>
      simp only [if_true, ne_eq, not_true_eq_false, false_implies, Option.isSome_some, true_and, true_implies, and_true]
      intro h i
      by_cases hg : h = g
      · subst hg; rw [if_pos rfl, merged]; simp
      · rw [if_neg hg]; simp [Ne.symm hg]

/-- When the call succeeds the child is a psock of a descriptor that is open, the caller has a new psock of the same
kind of socket, which has the child, the fiber and the discipline and on which no fiber is blocked, and no other psock
has changed. The descriptor is nonblocking and no other flag of any file has changed. -/
theorem wrap_success {w w' : World} (hk : Sane w.kern) {a fib c : Nat} {x : Ans} {o : Option Nat}
    (h : create w a fib c x = some (w', SUCCESS, o)) :
    ∃ p fd g, w.heap c = some p ∧ p.body = .descriptor fd ∧ w.kern.file fd = some g ∧ o = some x.blk ∧
      w'.heap x.blk = some ⟨a, p.socktype, .async c fib x.disc 0 0⟩ ∧ (∀ b, b ≠ x.blk → w'.heap b = w.heap b) ∧
      w'.kern.file = w.kern.file ∧ Nonblocking w'.kern fd ∧
      ∀ h i, (w'.kern.flags h).getLsbD i = ((w.kern.flags h).getLsbD i || decide (h = g ∧ i = 11)) := by
  unfold create at h
  split at h
  · nomatch h
  · next p hp =>
    split at h
    · next fd hb =>
      split at h
      · next h1 => simp only [Option.some.injEq, Prod.mk.injEq] at h; exact absurd h.2.1 h1
      · split at h
        · next h1 => simp only [Option.some.injEq, Prod.mk.injEq] at h; exact absurd h.2.1 h1
        · obtain ⟨s1, s2, s3, s4⟩ := set_nonblock hk fd x.setfl
          simp only at h
          split at h
          · next h1 =>
            split at h <;> simp only [Option.some.injEq, Prod.mk.injEq] at h
            · next h2 => exact absurd h.2.1 h2
            · exact absurd h.2.1 h1
          · next h1 =>
            have h1 := Classical.not_not.1 h1
            simp only [Option.some.injEq, Prod.mk.injEq, true_and] at h
            obtain ⟨rfl, rfl⟩ := h
            obtain ⟨g, hg⟩ := Option.isSome_iff_exists.1 (s2.1 h1).1
            refine ⟨p, fd, g, hp, hb, hg, rfl, by simp, fun b h => by simp [h], s1, ⟨g, by rw [s1]; exact hg, ?_⟩, fun h i => ?_⟩
            · rw [s4 h1 g 11]; simp [hg]
            · rw [s4 h1 h i, hg]; simp [eq_comm]
    · simp only [Option.some.injEq, Prod.mk.injEq] at h
      exact absurd h.2.1 (by decide)

/-- When the call fails, no flag of any file has changed, the pointer of the caller is not set, the child is still
there for the caller, and if the allocator takes back what it gave there is no new psock. -/
theorem wrap_failure {w w' : World} (hk : Sane w.kern) {a fib c : Nat} {x : Ans} {o : Option Nat} {st : Status}
    (hf : x.alloc = SUCCESS → w.heap x.blk = none) (h : create w a fib c x = some (w', st, o)) (hs : st ≠ SUCCESS) :
    o = none ∧ w'.kern = w.kern ∧ w'.heap c = w.heap c ∧ (x.reclaim = SUCCESS → w' = w) := by
  unfold create at h
  split at h
  · nomatch h
  · next p hp =>
    split at h
    · next fd hb =>
      split at h
      · simp only [Option.some.injEq, Prod.mk.injEq] at h; obtain ⟨rfl, -, rfl⟩ := h; simp
      · split at h
        · simp only [Option.some.injEq, Prod.mk.injEq] at h; obtain ⟨rfl, -, rfl⟩ := h; simp
        · next ha =>
          have hx := hf (Classical.not_not.1 ha)
          have hc : c ≠ x.blk := fun e => by rw [e, hx] at hp; nomatch hp
          obtain ⟨s1, s2, s3, s4⟩ := set_nonblock hk fd x.setfl
          simp only at h
          split at h
          · next h1 =>
            have s3 := s3 h1
            split at h <;> simp only [Option.some.injEq, Prod.mk.injEq] at h
            · next h2 =>
              obtain ⟨rfl, -, rfl⟩ := h
              exact ⟨rfl, by rw [s3], by simp [hc], fun h => absurd h h2⟩
            · obtain ⟨rfl, -, rfl⟩ := h
              refine ⟨rfl, by rw [s3], by simp [hc], fun _ => ?_⟩
              rw [s3]
              obtain ⟨hp', k⟩ := w
              simp only [World.mk.injEq, and_true]
              funext b
              by_cases hb : b = x.blk
              · simp only [hb, if_true]; exact hx.symm
              · simp [hb]
          · simp only [Option.some.injEq, Prod.mk.injEq] at h
            exact absurd h.2.1.symm hs
    · simp only [Option.some.injEq, Prod.mk.injEq] at h; obtain ⟨rfl, -, rfl⟩ := h; simp

/-- What a call that fails may leave behind is a psock that wraps another, nothing else. -/
theorem failed_heap {w w' : World} {a fib c : Nat} {x : Ans} {o : Option Nat} {st : Status}
    (hf : x.alloc = SUCCESS → w.heap x.blk = none) (h : create w a fib c x = some (w', st, o)) (hs : st ≠ SUCCESS) :
    (∀ b q, w.heap b = some q → w'.heap b = some q) ∧
      ∀ b q fd, w'.heap b = some q → q.body = .descriptor fd → w.heap b = some q := by
  unfold create at h
  split at h
  · nomatch h
  · split at h
    · split at h
      · cases h; exact ⟨fun _ _ h => h, fun _ _ _ h _ => h⟩
      · split at h
        · cases h; exact ⟨fun _ _ h => h, fun _ _ _ h _ => h⟩
        · next ha =>
          have hx := hf (Classical.not_not.1 ha)
          simp only at h
          split at h
          · split at h <;> cases h <;> grind
          · simp only [Option.some.injEq, Prod.mk.injEq] at h
            exact absurd h.2.1.symm hs
    · cases h; exact ⟨fun _ _ h => h, fun _ _ _ h _ => h⟩

/-- The call succeeds if and only if the child is a psock of a descriptor that is open, the discipline is there, there is
memory, and the kernel does not refuse. A child of another type is refused as the documentation says. -/
theorem wrap_when {w : World} (hk : Sane w.kern) {a fib c : Nat} {x : Ans} {p : Psock} (hp : w.heap c = some p) :
    ∃ w' st o, create w a fib c x = some (w', st, o) ∧
      (st = SUCCESS ↔ ∃ fd g, p.body = .descriptor fd ∧ w.kern.file fd = some g ∧ x.prep = SUCCESS ∧ x.alloc = SUCCESS ∧ x.setfl = true) ∧
      ((∀ fd, p.body ≠ .descriptor fd) → st = ERROR_PSOCK_UNSUPPORTED_TYPE) := by
  unfold create
  rw [hp]
  simp only
  cases hb : p.body with
  | descriptor fd =>
    simp only
    by_cases h1 : x.prep = SUCCESS
    · by_cases h2 : x.alloc = SUCCESS
      · obtain ⟨s1, s2, s3, s4⟩ := set_nonblock hk fd x.setfl
        simp only [h1, h2, ne_eq, not_true_eq_false, if_false]
        by_cases h3 : (setNonblock w.kern fd x.setfl).2 = SUCCESS
        · simp only [h3, not_true_eq_false, if_false]
          obtain ⟨g, hg⟩ := Option.isSome_iff_exists.1 (s2.1 h3).1
          exact ⟨_, _, _, rfl, ⟨fun _ => ⟨fd, g, rfl, hg, trivial, trivial, (s2.1 h3).2⟩, fun _ => rfl⟩, fun h => absurd rfl (h fd)⟩
        · simp only [h3, not_false_eq_true, if_true]
          have hn : ¬ ∃ fd' g, Body.descriptor fd = .descriptor fd' ∧ w.kern.file fd' = some g ∧ True ∧ True ∧ x.setfl = true := by
            rintro ⟨fd', g, e, hg, -, -, h⟩
            cases e
            exact h3 (s2.2 ⟨by rw [hg]; rfl, h⟩)
          by_cases h4 : x.reclaim = SUCCESS
          · simp only [h4, not_true_eq_false, if_false]
            refine ⟨_, _, _, rfl, ⟨fun h => absurd h h3, fun h => absurd ?_ hn⟩, fun h => absurd rfl (h fd)⟩
            simpa using h
          · simp only [h4, not_false_eq_true, if_true]
            refine ⟨_, _, _, rfl, ⟨fun h => absurd h h4, fun h => absurd ?_ hn⟩, fun h => absurd rfl (h fd)⟩
            simpa using h
      · simp only [h1, h2, ne_eq, not_true_eq_false, if_false, not_false_eq_true, if_true]
        exact ⟨_, _, _, rfl, by simp [h2], fun h => absurd rfl (h fd)⟩
    · simp only [h1, ne_eq, not_false_eq_true, if_true]
      exact ⟨_, _, _, rfl, by simp [h1], fun h => absurd rfl (h fd)⟩
  | async _ _ _ _ _ => exact ⟨_, _, _, rfl, by simp; decide, fun _ => rfl⟩
  | other _ => exact ⟨_, _, _, rfl, by simp; decide, fun _ => rfl⟩

/-- A call of the history has wrapped the psock that was there at the start for this descriptor. -/
def Wrapped (w₀ : World) (tr : List (Call × Status)) (fd : Nat) : Prop :=
  ∃ c p, (c, SUCCESS) ∈ tr ∧ w₀.heap c.child = some p ∧ p.body = .descriptor fd

theorem wrapped_append {w₀ : World} {tr : List (Call × Status)} {c : Call} {st : Status} {fd : Nat} :
    Wrapped w₀ (tr ++ [(c, st)]) fd ↔ Wrapped w₀ tr fd ∨ st = SUCCESS ∧ ∃ p, w₀.heap c.child = some p ∧ p.body = .descriptor fd := by
  simp only [Wrapped, List.mem_append, List.mem_singleton, Prod.mk.injEq]
  constructor
  · rintro ⟨c', p, h | ⟨rfl, rfl⟩, h2, h3⟩
    · exact .inl ⟨c', p, h, h2, h3⟩
    · exact .inr ⟨rfl, p, h2, h3⟩
  · rintro (⟨c', p, h, h2, h3⟩ | ⟨rfl, p, h2, h3⟩)
    · exact ⟨c', p, .inl h, h2, h3⟩
    · exact ⟨c, p, .inr ⟨rfl, rfl⟩, h2, h3⟩

/-- After any number of calls that succeed or fail: the flags of a file are as at the start, but that it is nonblocking if
a call has succeeded for a descriptor of it. The psocks that were there at the start are as they were. -/
theorem wrap_history {w₀ w : World} {tr : List (Call × Status)} (h : Hist w₀ w tr) (hk : Sane w₀.kern) :
    Sane w.kern ∧ w.kern.file = w₀.kern.file ∧ (∀ b p, w₀.heap b = some p → w.heap b = some p) ∧
      ∀ g i, (w.kern.flags g).getLsbD i = true ↔ (w₀.kern.flags g).getLsbD i = true ∨
        i = 11 ∧ ∃ fd, w₀.kern.file fd = some g ∧ Wrapped w₀ tr fd := by
  suffices H : Sane w.kern ∧ w.kern.file = w₀.kern.file ∧ (∀ b p, w₀.heap b = some p → w.heap b = some p) ∧
      (∀ b p fd, w.heap b = some p → p.body = .descriptor fd → w₀.heap b = some p) ∧
      ∀ g i, (w.kern.flags g).getLsbD i = true ↔ (w₀.kern.flags g).getLsbD i = true ∨
        i = 11 ∧ ∃ fd, w₀.kern.file fd = some g ∧ Wrapped w₀ tr fd from ⟨H.1, H.2.1, H.2.2.1, H.2.2.2.2⟩
  induction h with
  | init => exact ⟨hk, rfl, fun _ _ h => h, fun _ _ _ h _ => h, by simp [Wrapped]⟩
  | @step w w' tr st o c _ hf hc ih =>
    obtain ⟨i1, i2, i3, i4, i5⟩ := ih
    by_cases hs : st = SUCCESS
    · subst hs
      obtain ⟨p, fd, g, e1, e2, e3, -, e5, e6, e7, -, e9⟩ := wrap_success i1 hc
      have ha : c.x.alloc = SUCCESS := by
        obtain ⟨_, _, _, h1, h2, -⟩ := wrap_when i1 (a := c.a) (fib := c.fib) (x := c.x) e1
        rw [hc] at h1; cases h1
        obtain ⟨_, _, -, -, -, h, -⟩ := h2.1 rfl
        exact h
      have hb := hf ha
      refine ⟨fun h => ?_, e7.trans i2, fun b q h => ?_, fun b q fd' h h' => ?_, fun h i => ?_⟩
      · rw [BitVec.msb_eq_getLsbD_last, e9 h, ← BitVec.msb_eq_getLsbD_last, i1 h]; simp
      · have := i3 b q h
        rw [e6 b fun e => by rw [e, hb] at this; nomatch this]; exact this
      · by_cases hx : b = c.x.blk
        · rw [hx, e5] at h; cases h; nomatch h'
        · rw [e6 b hx] at h; exact i4 b q fd' h h'
      · rw [e9 h i, Bool.or_eq_true, i5 h i, decide_eq_true_iff]
        have e0 := i4 _ _ _ e1 e2
        rw [i2] at e3
        constructor
        · rintro ((h1 | ⟨h1, fd', h2, h3⟩) | ⟨rfl, h1⟩)
          · exact .inl h1
          · exact .inr ⟨h1, fd', h2, wrapped_append.2 (.inl h3)⟩
          · exact .inr ⟨h1, fd, e3, wrapped_append.2 (.inr ⟨rfl, p, e0, e2⟩)⟩
        · rintro (h1 | ⟨h1, fd', h2, h3⟩)
          · exact .inl (.inl h1)
          · rcases wrapped_append.1 h3 with h3 | ⟨-, q, h3, h4⟩
            · exact .inl (.inr ⟨h1, fd', h2, h3⟩)
            · rw [e0] at h3; cases h3
              rw [e2] at h4; cases h4
              rw [e3] at h2; cases h2
              exact .inr ⟨rfl, h1⟩
    · obtain ⟨-, e1, -, -⟩ := wrap_failure i1 hf hc hs
      have hw : ∀ fd, Wrapped w₀ (tr ++ [(c, st)]) fd ↔ Wrapped w₀ tr fd := fun fd => by rw [wrapped_append]; simp [hs]
      have hh := failed_heap hf hc hs
      refine ⟨e1 ▸ i1, e1 ▸ i2, fun b q h => hh.1 b q (i3 b q h), fun b q fd h h' => i4 b q fd (hh.2 b q fd h h') h', fun g i => ?_⟩
      rw [e1, i5 g i]
      simp only [hw]

/-- **C100** (partial: no two descriptors share an open file): after any number of calls, a descriptor is nonblocking if
and only if it was so before or a call has succeeded for its psock. -/
theorem wrap_only_partial {w₀ w : World} {tr : List (Call × Status)} (h : Hist w₀ w tr) (hk : Sane w₀.kern)
    (ho : ∀ fd fd' g, w₀.kern.file fd = some g → w₀.kern.file fd' = some g → fd = fd') (fd : Nat) :
    Nonblocking w.kern fd ↔ Nonblocking w₀.kern fd ∨ (w₀.kern.file fd).isSome ∧ Wrapped w₀ tr fd := by
  obtain ⟨-, h2, -, h4⟩ := wrap_history h hk
  unfold Nonblocking
  rw [h2]
  constructor
  · rintro ⟨g, e, h⟩
    rcases (h4 g 11).1 h with h | ⟨-, fd', e', hw⟩
    · exact .inl ⟨g, e, h⟩
    · rw [ho _ _ _ e e']; rw [ho _ _ _ e e'] at e; exact .inr ⟨by rw [e]; rfl, hw⟩
  · rintro (⟨g, e, h⟩ | ⟨hs, hw⟩)
    · exact ⟨g, e, (h4 g 11).2 (.inl h)⟩
    · obtain ⟨g, e⟩ := Option.isSome_iff_exists.1 hs
      exact ⟨g, e, (h4 g 11).2 (.inr ⟨rfl, fd, e, hw⟩)⟩

/-! ### Cases -/

/-- Psocks of descriptors 3 and 4, and another one; `O_RDWR`, and `O_RDWR | O_APPEND`. -/
def w₁ : World :=
  ⟨fun b => if b = 30 then some ⟨7, 1, .descriptor 3⟩ else if b = 40 then some ⟨7, 2, .descriptor 4⟩
      else if b = 50 then some ⟨7, 0, .other 2⟩ else none,
    ⟨fun fd => if fd = 3 then some 0 else if fd = 4 then some 1 else none, fun g => if g = 1 then 0x402#32 else 0x2#32⟩⟩

/-- All goes well. -/
def fine : Ans := ⟨9, SUCCESS, 100, SUCCESS, true, SUCCESS⟩

theorem w₁_sane : Sane w₁.kern := by intro g; simp only [w₁]; split <;> decide

example : (create w₁ 7 5 40 fine).map (fun r => (r.2.1, r.2.2, r.1.kern.flags 1, r.1.kern.flags 0)) =
    some (SUCCESS, some 100, 0xc02#32, 0x2#32) := by decide

example : (create w₁ 7 5 40 { fine with setfl := false }).map (fun r => (r.2.1, r.2.2, r.1.kern.flags 1, r.1.heap 100)) =
    some (ERROR_SOCKET_UTILITIES_SET_NONBLOCK_FAILURE, none, 0x402#32, none) := by decide

example : (create w₁ 7 5 50 fine).map (fun r => (r.2.1, r.2.2)) = some (ERROR_PSOCK_UNSUPPORTED_TYPE, none) := by decide

/-- A failure, then a success; no two descriptors of `w₁` share a file. -/
example : ∃ w tr, Hist w₁ w tr ∧ Wrapped w₁ tr 4 ∧ ¬ Wrapped w₁ tr 3 ∧
    ∀ fd fd' g, w₁.kern.file fd = some g → w₁.kern.file fd' = some g → fd = fd' := by
  obtain ⟨r, e⟩ : ∃ r, create w₁ 7 5 30 { fine with setfl := false } = some r := ⟨_, rfl⟩
  obtain ⟨q, e'⟩ : ∃ q, create r.1 7 5 40 fine = some q := by
    have : r.1.heap 40 = some ⟨7, 2, .descriptor 4⟩ := by cases e; decide
    obtain ⟨w', st, o, h, -⟩ := wrap_when (w := r.1) (by cases e; exact w₁_sane)
      (a := 7) (fib := 5) (x := fine) this
    exact ⟨_, h⟩
  have h1 : r.2.1 ≠ SUCCESS := by cases e; decide
  have h2 : q.2.1 = SUCCESS := by cases e; cases e'; decide
  have h3 : r.1.heap 100 = none := by cases e; decide
  refine ⟨q.1, _, .step ⟨7, 5, 40, fine⟩ (.step ⟨7, 5, 30, { fine with setfl := false }⟩ .init (fun _ => rfl) e) (fun _ => h3) e', ?_, ?_, ?_⟩
  · exact ⟨⟨7, 5, 40, fine⟩, ⟨7, 2, .descriptor 4⟩, by simp [h2], rfl, rfl⟩
  · rintro ⟨c, p, hm, hp, hb⟩
    simp only [List.nil_append, List.singleton_append, List.mem_cons, Prod.mk.injEq, List.not_mem_nil, or_false] at hm
    rcases hm with ⟨rfl, h⟩ | ⟨rfl, -⟩
    · exact h1 h.symm
    · cases hp; cases hb
  · intro fd fd' g h h'
    simp only [w₁] at h h'
    grind

/-- Descriptors 3 and 4 share an open file, as after `dup`, or in a child process. -/
def w₂ : World := { w₁ with kern := { w₁.kern with file := fun fd => if fd = 3 ∨ fd = 4 then some 0 else none } }

/-- **C100** is false if descriptors share an open file: descriptor 4 becomes nonblocking because descriptor 3 is wrapped. -/
theorem wrap_shared_violated : ∃ w tr, Hist w₂ w tr ∧ Sane w₂.kern ∧ ¬ Nonblocking w₂.kern 4 ∧ ¬ Wrapped w₂ tr 4 ∧
    Nonblocking w.kern 4 := by
  obtain ⟨r, e⟩ : ∃ r, create w₂ 7 5 30 fine = some r := ⟨_, rfl⟩
  refine ⟨r.1, _, .step ⟨7, 5, 30, fine⟩ .init (fun _ => rfl) e, by intro g; simp only [w₂, w₁]; split <;> decide, ?_, ?_, ?_⟩
  · rintro ⟨g, h, hb⟩
    have : g = 0 := by simpa [w₂] using h.symm
    subst this
    exact absurd hb (by decide)
  · rintro ⟨c, p, hm, hp, hb⟩
    simp only [List.nil_append, List.mem_singleton, Prod.mk.injEq] at hm
    obtain ⟨rfl, -⟩ := hm
    cases hp; cases hb
  · cases e; exact ⟨0, rfl, by decide⟩

end Rcpr.Wrap
