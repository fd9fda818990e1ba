import Verif.Life

/-!
Weakest preconditions for the programs of `Verif.Life`.
-/
namespace Rcpr.Life

open Rcpr

/-- Fresh names are not in use. -/
def St.Ok (s : St) : Prop := ∀ i, s.next ≤ i → s.live i = none

/-- Everything that is given back is taken back. -/
def Env.Good (e : Env) : Prop := ∀ n, e.put n = SUCCESS

/-- Everything that is asked for is granted. -/
def Env.Willing (e : Env) : Prop := ∀ n, e.ask n = SUCCESS

/-- `m` is defined and ends with `Q`. -/
def wp {α : Type} (m : M α) (e : Env) (s : St) (Q : α → St → Prop) : Prop :=
  ∃ a s', m e s = some (a, s') ∧ Q a s'

theorem wp_pure {α : Type} {a : α} {e s} {Q : α → St → Prop} (h : Q a s) : wp (pure a) e s Q := ⟨a, s, rfl, h⟩

theorem wp_bind {α β : Type} {m : M α} {f : α → M β} {e s} {Q : β → St → Prop}
    (h : wp m e s fun a s' => wp (f a) e s' Q) : wp (m >>= f) e s Q := by
  obtain ⟨a, s', h1, b, s'', h2, h3⟩ := h
  refine ⟨b, s'', ?_, h3⟩
  show (match m e s with | none => none | some (a, s') => f a e s') = _
  rw [h1]; exact h2

theorem wp_get {k e s} {Q : Except Status Nat → St → Prop}
    (h1 : ∀ a s', a ≠ SUCCESS → ¬ e.Willing → (∀ i, s'.live i = s.live i) → s'.next = s.next → (s.Ok → s'.Ok) → Q (.error a) s')
    (h2 : ∀ s', (∀ i, s'.live i = if i = s.next then some k else s.live i) → s'.next = s.next + 1 → (s.Ok → s'.Ok) → Q (.ok s.next) s') :
    wp (get k) e s Q := by
  unfold wp get
  by_cases h : e.ask s.asks = SUCCESS
  · rw [if_pos h]; exact ⟨_, _, rfl, h2 _ (fun _ => rfl) rfl (fun o i hi => by
      show (if i = s.next then some k else s.live i) = none
      have hi : s.next + 1 ≤ i := hi
      rw [if_neg (by omega)]
      exact o i (by omega))⟩
  · rw [if_neg h]; exact ⟨_, _, rfl, h1 _ _ h (fun w => h (w _)) (fun _ => rfl) rfl id⟩

theorem wp_ask {e s} {Q : Status → St → Prop}
    (h : ∀ a s', (e.Willing → a = SUCCESS) → (∀ i, s'.live i = s.live i) → s'.next = s.next → (s.Ok → s'.Ok) → Q a s') :
    wp ask e s Q :=
  ⟨_, _, rfl, h _ _ (fun w => w _) (fun _ => rfl) rfl id⟩

private theorem ok_del {s : St} {i n : Nat} (o : s.Ok) :
    St.Ok { s with live := fun j => if j = i then none else s.live j, puts := n } := by
  intro j hj
  show (if j = i then none else s.live j) = none
  by_cases h : j = i
  · rw [if_pos h]
  · rw [if_neg h]; exact o j hj

theorem wp_put {k i e s} {Q : Status → St → Prop} (h0 : s.live i = some k)
    (h1 : ∀ a s', a ≠ SUCCESS → ¬ e.Good → (∀ i, s'.live i = s.live i) → s'.next = s.next → (s.Ok → s'.Ok) → Q a s')
    (h2 : ∀ s', (∀ j, s'.live j = if j = i then none else s.live j) → s'.next = s.next → (s.Ok → s'.Ok) → Q SUCCESS s') :
    wp (put k i) e s Q := by
  unfold wp put
  rw [if_pos h0]
  by_cases h : e.put s.puts = SUCCESS
  · rw [if_pos h]; exact ⟨_, _, rfl, h2 _ (fun _ => rfl) rfl ok_del⟩
  · rw [if_neg h]; exact ⟨_, _, rfl, h1 _ _ h (fun g => h (g _)) (fun _ => rfl) rfl id⟩

theorem wp_drop {k i e s} {Q : Status → St → Prop} (h0 : s.live i = some k)
    (h : ∀ a s', (∀ j, s'.live j = if j = i then none else s.live j) → s'.next = s.next → (s.Ok → s'.Ok) → Q a s') :
    wp (drop k i) e s Q := by
  unfold wp drop
  rw [if_pos h0]
  exact ⟨_, _, rfl, h _ _ (fun _ => rfl) rfl ok_del⟩

theorem wp_use {i e s} {Q : Unit → St → Prop} (h0 : s.live i = some .mem) (h : Q () s) : wp (use i) e s Q := by
  unfold wp use
  rw [if_pos h0]
  exact ⟨_, _, rfl, h⟩

theorem wp_mono {α : Type} {m : M α} {e s} {P Q : α → St → Prop} (h : wp m e s P) (hq : ∀ a s', P a s' → Q a s') :
    wp m e s Q := by
  obtain ⟨a, s', h1, h2⟩ := h
  exact ⟨a, s', h1, hq a s' h2⟩

theorem wp_ite {α : Type} {c : Prop} [Decidable c] {m n : M α} {e s} {Q : α → St → Prop}
    (h1 : c → wp m e s Q) (h2 : ¬ c → wp n e s Q) : wp (if c then m else n) e s Q := by
  by_cases h : c
  · rw [if_pos h]; exact h1 h
  · rw [if_neg h]; exact h2 h

/-- Fresh names stay fresh. -/
theorem St.Ok.lt {s : St} (h : s.Ok) {i : Nat} {k : Kind} (hi : s.live i = some k) : i < s.next := by
  apply Decidable.byContradiction
  intro c
  rw [h i (by omega)] at hi
  cases hi

/-- Runs a program symbolically; what it leaves are the conditions on the last state. -/
macro "wps" : tactic => `(tactic|
  repeat' (first
    | (dsimp only)
    | (with_reducible apply wp_bind)
    | (with_reducible apply wp_pure)
    | (with_reducible apply wp_get <;> intros)
    | (with_reducible apply wp_ask <;> intros)
    | (with_reducible apply wp_ite <;> intros)
    | (with_reducible refine wp_use (by grind (ext := false) (gen := 24) (ematch := 20) (splits := 24) [St.Ok]) ?_)
    | (with_reducible refine wp_put (by grind (ext := false) (gen := 24) (ematch := 20) (splits := 24) [St.Ok]) ?_ ?_ <;> intros)
    | (with_reducible refine wp_drop (by grind (ext := false) (gen := 24) (ematch := 20) (splits := 24) [St.Ok]) ?_ <;> intros)))

theorem over_eq {a b : Status} : over a b = SUCCESS ↔ b = SUCCESS ∧ a = SUCCESS := by
  unfold over
  by_cases h : b = SUCCESS
  · simp [h]
  · simp [h]

theorem first_eq {a b : Status} : first a b = SUCCESS ↔ a = SUCCESS ∧ b = SUCCESS := by
  unfold first
  by_cases h : a = SUCCESS
  · simp [h]
  · simp [h]

end Rcpr.Life
