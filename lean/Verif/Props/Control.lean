import Verif.Control

/-!
Functions that are written with the control macros clean up what they have made (C101). The full claim, that such a function
returns a status whatever happens, needs an operation to be tried: `untried_unassigned`.
-/
namespace Rcpr.Control

open Rcpr

/-- The first `k` of `n` operations succeed, and the next one, if there is one, fails. -/
def Reaches (o : Ops) (n k : Nat) : Prop := k ≤ n ∧ (∀ i, i < k → o.tries i = SUCCESS) ∧ (k < n → o.tries k ≠ SUCCESS)

theorem reaches_total (o : Ops) (n : Nat) : ∃ k, Reaches o n k := by
  induction n with
  | zero => exact ⟨0, Nat.le_refl _, by omega, by omega⟩
  | succ n ih =>
    obtain ⟨k, h1, h2, h3⟩ := ih
    by_cases h : k < n
    · exact ⟨k, by omega, h2, fun _ => h3 h⟩
    · by_cases ht : o.tries k = SUCCESS
      · refine ⟨k + 1, by omega, fun i hi => ?_, by omega⟩
        rcases Nat.lt_or_eq_of_le (Nat.lt_succ_iff.1 hi) with h | rfl
        · exact h2 i h
        · exact ht
      · exact ⟨k, by omega, h2, fun _ => ht⟩

/-- The part that cleans up: all are called, and the last failure is returned. -/
theorem run_cleanups (n : Nat) (keep : Bool) (o : Ops) : ∀ (k f : Nat) (r : Option Status) (log : List Ev), k ≤ n →
    ∃ r', run (pattern n keep) o (f + k + 1) ⟨2 * n + 1 - k, r, log⟩ = some (r', log ++ (List.range k).reverse.map .cleaned) ∧
      ((∀ i, i < k → o.cleans i = SUCCESS) → r' = r) ∧
      ∀ i, i < k → o.cleans i ≠ SUCCESS → (∀ j, j < i → o.cleans j = SUCCESS) → r' = some (o.cleans i) := by
  intro k
  induction k with
  | zero =>
    intro f r log _
    refine ⟨r, ?_, fun _ => rfl, by omega⟩
    have : pattern n keep (2 * n + 1) = .ret := by
      unfold pattern; rw [if_neg (by omega), if_neg (by omega), if_neg (by omega)]
    simp [run, step, this]
  | succ k ih =>
    intro f r log hk
    have hp : pattern n keep (2 * n + 1 - (k + 1)) = .cleanup k := by
      unfold pattern
      rw [if_neg (by omega), if_neg (by omega), if_pos (by omega)]
      congr 1; omega
    obtain ⟨r', e, e1, e2⟩ := ih f (if SUCCESS ≠ o.cleans k then some (o.cleans k) else r) (log ++ [.cleaned k]) (by omega)
    refine ⟨r', ?_, fun h => ?_, fun i hi hc hj => ?_⟩
    · rw [show f + (k + 1) + 1 = (f + k + 1) + 1 by omega, run]
      simp only [step, hp]
      rw [show 2 * n + 1 - (k + 1) + 1 = 2 * n + 1 - k by omega, e]
      simp [List.range_succ]
    · rw [e1 fun i hi => h i (by omega)]
      simp [h k (by omega)]
    · by_cases hik : i < k
      · exact e2 i hik hc hj
      · have : i = k := by omega
        subst this
        rw [e1 hj, if_pos (Ne.symm hc)]

/-- The part that tries, as long as all succeeds. -/
theorem run_tries (n : Nat) (keep : Bool) (o : Ops) : ∀ k f, k ≤ n → (∀ i, i < k → o.tries i = SUCCESS) →
    run (pattern n keep) o (f + k) start =
      run (pattern n keep) o f ⟨k, if k = 0 then none else some SUCCESS, (List.range k).map .tried⟩ := by
  intro k
  induction k with
  | zero => intro f _ _; rfl
  | succ k ih =>
    intro f hk h
    rw [show f + (k + 1) = (f + 1) + k by omega, ih (f + 1) (by omega) fun i hi => h i (by omega), run]
    have hp : pattern n keep k = .tryOrFail k (2 * n + 1 - k) := by unfold pattern; rw [if_pos (by omega)]
    simp only [step, hp, h k (by omega), ne_eq, not_true_eq_false, if_false]
    simp [List.range_succ]

/-- **C101** A function of this pattern ends. If the first `k` operations succeed and the next one fails, it calls these, then
cleans up after exactly the `k` ones that succeeded, each once and in the opposite order, even if some of that fails. It
returns the last failure; it returns success only if nothing has failed. -/
theorem control_cleans {n : Nat} (keep : Bool) {o : Ops} {k : Nat} (hr : Reaches o n k) :
    ∃ r log, run (pattern n keep) o (2 * n + 2) start = some (r, log) ∧
      log = (List.range (min (k + 1) n)).map .tried ++ (if keep = true ∧ k = n then [] else (List.range k).reverse.map .cleaned) ∧
      (0 < n → (r = some SUCCESS ↔ k = n ∧ (keep = true ∨ ∀ i, i < n → o.cleans i = SUCCESS))) ∧
      (¬ (keep = true ∧ k = n) → ∀ i, i < k → o.cleans i ≠ SUCCESS → (∀ j, j < i → o.cleans j = SUCCESS) → r = some (o.cleans i)) ∧
      (k < n → (∀ i, i < k → o.cleans i = SUCCESS) → r = some (o.tries k)) := by
  obtain ⟨h1, h2, h3⟩ := hr
  have first : ∀ m, (∀ i, i < m → o.cleans i = SUCCESS) ∨
      ∃ i, i < m ∧ o.cleans i ≠ SUCCESS ∧ ∀ j, j < i → o.cleans j = SUCCESS := by
    intro m
    induction m with
    | zero => exact .inl (by omega)
    | succ m ih =>
      rcases ih with h | ⟨i, hi, h⟩
      · by_cases hc : o.cleans m = SUCCESS
        · refine .inl fun i hi => ?_
          rcases Nat.lt_or_eq_of_le (Nat.lt_succ_iff.1 hi) with h' | rfl
          · exact h i h'
          · exact hc
        · exact .inr ⟨m, by omega, hc, h⟩
      · exact .inr ⟨i, by omega, h⟩
  rw [show 2 * n + 2 = (2 * n + 2 - k) + k by omega, run_tries n keep o k _ h1 h2]
  by_cases hk : k < n
  · have hp : pattern n keep k = .tryOrFail k (2 * n + 1 - k) := by unfold pattern; rw [if_pos hk]
    have ht := h3 hk
    obtain ⟨r, e, e1, e2⟩ := run_cleanups n keep o k (2 * n - 2 * k) (some (o.tries k)) ((List.range k).map .tried ++ [.tried k]) h1
    refine ⟨r, (List.range k).map .tried ++ [.tried k] ++ (List.range k).reverse.map .cleaned, ?_, ?_, fun _ => ?_, fun _ => e2, fun _ => e1⟩
    · rw [show 2 * n + 2 - k = (2 * n - 2 * k + k + 1) + 1 by omega, run]
      simp only [step, hp, ne_eq, Ne.symm ht, not_false_eq_true, if_true]
      exact e
    · rw [Nat.min_eq_left (by omega), if_neg (by omega)]
      simp [List.range_succ]
    · refine ⟨fun h => ?_, fun h => absurd h.1 (by omega)⟩
      exfalso
      rcases first k with hc | ⟨i, hi, hc, hj⟩
      · rw [e1 hc] at h; exact ht (Option.some.inj h)
      · rw [e2 i hi hc hj] at h; exact hc (Option.some.inj h)
  · have hkn : k = n := by omega
    subst hkn
    rw [Nat.min_eq_right (by omega)]
    cases keep with
    | true =>
      have hp : pattern k true k = .goto (2 * k + 1) := by unfold pattern; rw [if_neg (by omega), if_pos rfl, if_pos rfl]
      have hq : pattern k true (2 * k + 1) = .ret := by
        unfold pattern; rw [if_neg (by omega), if_neg (by omega), if_neg (by omega)]
      refine ⟨if k = 0 then none else some SUCCESS, (List.range k).map .tried, ?_, by simp, fun h => ?_, fun h => absurd ⟨rfl, rfl⟩ h, fun h => absurd h hk⟩
      · rw [show 2 * k + 2 - k = k + 1 + 1 by omega, run]
        simp [step, hp, run, hq]
      · simp [Nat.ne_of_gt h]
    | false =>
      have hp : pattern k false k = .skip := by unfold pattern; rw [if_neg (by omega), if_pos rfl]; rfl
      obtain ⟨r, e, e1, e2⟩ := run_cleanups k false o k 0 (if k = 0 then none else some SUCCESS) ((List.range k).map .tried) (Nat.le_refl _)
      refine ⟨r, (List.range k).map .tried ++ (List.range k).reverse.map .cleaned, ?_, by simp, fun h0 => ?_, fun _ => e2, fun h => absurd h hk⟩
      · rw [show 2 * k + 2 - k = 0 + k + 1 + 1 by omega, run]
        simp only [step, hp]
        rw [show k + 1 = 2 * k + 1 - k by omega]
        simpa using e
      · refine ⟨fun h => ⟨rfl, .inr fun i hi => ?_⟩, fun h => ?_⟩
        · rcases first k with hc | ⟨i, hi, hc, hj⟩
          · exact hc i ‹_›
          · rw [e2 i hi hc hj] at h; exact absurd (Option.some.inj h) hc
        · rcases h.2 with h | h
          · nomatch h
          · rw [e1 h, if_neg (by omega)]

/-- A function that tries nothing before it returns, returns what was never assigned. -/
theorem untried_unassigned (keep : Bool) (o : Ops) : run (pattern 0 keep) o 2 start = some (none, []) := by
  cases keep <;> rfl

/-! ### Cases -/

/-- The third of four operations fails, and so does cleaning up after the first. -/
def o₁ : Ops := ⟨fun i => if i = 2 then ERROR_GENERAL_OUT_OF_MEMORY else SUCCESS, fun i => if i = 0 then ERROR_GENERAL_OUT_OF_MEMORY + 1 else SUCCESS⟩

example : Reaches o₁ 4 2 := ⟨by decide, by decide, fun _ => by decide⟩

example : run (pattern 4 true) o₁ 10 start =
    some (some (ERROR_GENERAL_OUT_OF_MEMORY + 1), [.tried 0, .tried 1, .tried 2, .cleaned 1, .cleaned 0]) := by decide

example : run (pattern 2 false) o₁ 10 start =
    some (some (ERROR_GENERAL_OUT_OF_MEMORY + 1), [.tried 0, .tried 1, .cleaned 1, .cleaned 0]) ∧
    run (pattern 2 true) o₁ 10 start = some (some SUCCESS, [.tried 0, .tried 1]) := by decide

end Rcpr.Control
