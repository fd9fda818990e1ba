import Verif.Trigger

/-! Properties of the auto-reset trigger: C38. -/
namespace Rcpr.Trigger

open Rcpr

/-! ### Lemmas -/

theorem since_snoc_call (tr : List Ev) (p : Nat × Nat) : since (tr ++ [.step (some p)]) = [] := by
  simp [since, Ev.isCall]

theorem since_snoc (tr : List Ev) (e : Ev) (h : e.isCall = false) : since (tr ++ [e]) = since tr ++ [e] := by
  simp [since, h]

theorem Good.snoc {tr : List Ev} {e : Ev} (g : Good tr) (h : Allowed tr e) : Good (tr ++ [e]) := by
  intro pre e' post heq
  rcases List.eq_nil_or_concat post with rfl | ⟨q, x, rfl⟩
  · have := List.append_inj' heq rfl
    obtain ⟨rfl, h2⟩ := this
    simp at h2; subst h2; exact h
  · have h' : tr ++ [e] = (pre ++ e' :: q) ++ [x] := by simpa using heq
    exact g pre e' q (List.append_inj' h' rfl).1

/-- the fields say what the history since the last call was -/
def Inv (t : Trig) (tr : List Ev) : Prop :=
  (t.triggered = true ↔ .signal ∈ since tr) ∧
  ∀ c x, .register c x SUCCESS ∈ since tr ↔ (t.cb = c ∧ t.ctx = x ∧ c ≠ 0)

theorem exec_good {ops : List Op} : ∀ {n : Nat} {t : Trig} {tr : List Ev} {t' : Trig} {tr' : List Ev},
    OkOps ops → Inv t tr → Good tr → exec (fun _ _ _ => []) n t tr ops = some (t', tr') →
    Inv t' tr' ∧ Good tr' := by
  induction ops with
  | nil => intro n t tr t' tr' _ i g h; simp [exec] at h; obtain ⟨rfl, rfl⟩ := h; exact ⟨i, g⟩
  | cons op ops ih =>
    intro n t tr t' tr' ok i g h
    have ok' : OkOps ops := fun c x hc => ok c x (List.mem_cons_of_mem _ hc)
    obtain ⟨i1, i2⟩ := i
    cases n with
    | zero => simp [exec] at h
    | succ n =>
      cases op with
      | signal =>
        simp only [exec] at h
        refine ih ok' ⟨?_, ?_⟩ (g.snoc (e := .signal) trivial) h
        · rw [since_snoc _ _ rfl]; simp [signal]
        · intro c x; rw [since_snoc _ _ rfl]; simpa [signal] using i2 c x
      | register cb ctx =>
        simp only [exec] at h
        have hcb : cb ≠ 0 := ok cb ctx (by simp)
        by_cases h0 : t.cb = 0
        · have hr : register t cb ctx = ({ t with cb := cb, ctx := ctx }, SUCCESS) := by
            simp [register, h0]
          have hno : ∀ c x, Ev.register c x SUCCESS ∉ since tr := by
            intro c x hm
            have := (i2 c x).1 hm
            exact this.2.2 (by rw [← this.1, h0])
          rw [hr] at h
          refine ih ok' ⟨?_, ?_⟩ (g.snoc (e := .register cb ctx SUCCESS) (Or.inl ⟨rfl, hno⟩)) h
          · rw [since_snoc _ _ rfl]; simpa using i1
          · intro c x; rw [since_snoc _ _ rfl]
            simp only [List.mem_append, List.mem_singleton, Ev.register.injEq, hno c x, false_or]
            constructor
            · rintro ⟨rfl, rfl, _⟩; exact ⟨rfl, rfl, hcb⟩
            · rintro ⟨rfl, rfl, _⟩; exact ⟨rfl, rfl, trivial⟩
        · have hr : register t cb ctx = (t, ERROR_AUTO_RESET_TRIGGER_LISTENER_ALREADY_REGISTERED) := by
            simp [register, h0]
          rw [hr] at h
          refine ih ok' ⟨?_, ?_⟩ (g.snoc
            (e := .register cb ctx ERROR_AUTO_RESET_TRIGGER_LISTENER_ALREADY_REGISTERED) (Or.inr ⟨rfl, t.cb, t.ctx, (i2 _ _).2 ⟨rfl, rfl, h0⟩⟩)) h
          · rw [since_snoc _ _ rfl]; simpa using i1
          · intro c x; rw [since_snoc _ _ rfl]
            have hne : ¬ SUCCESS = ERROR_AUTO_RESET_TRIGGER_LISTENER_ALREADY_REGISTERED := by decide
            simpa [hne] using i2 c x
      | step =>
        simp only [exec] at h
        by_cases ht : t.triggered = true
        · rw [if_pos ht] at h
          by_cases h0 : t.cb = 0
          · rw [if_neg (by simp [h0])] at h
            refine ih ok' ⟨?_, ?_⟩ (g.snoc ?_) h
            · rw [since_snoc _ _ rfl]; simpa using i1
            · intro c x; rw [since_snoc _ _ rfl]; simpa using i2 c x
            · rintro ⟨_, c, x, hm⟩
              have := (i2 c x).1 hm
              exact this.2.2 (by rw [← this.1, h0])
          · rw [if_pos h0] at h
            refine ih ok' ⟨?_, ?_⟩ (g.snoc (e := .step (some (t.cb, t.ctx))) ⟨i1.1 ht, (i2 _ _).2 ⟨rfl, rfl, h0⟩⟩) h
            · rw [since_snoc_call]; simp
            · intro c x; rw [since_snoc_call]
              simp only [List.not_mem_nil, false_iff]
              rintro ⟨rfl, _, hc⟩; exact hc rfl
        · rw [if_neg ht] at h
          refine ih ok' ⟨?_, ?_⟩ (g.snoc ?_) h
          · rw [since_snoc _ _ rfl]; simpa using i1
          · intro c x; rw [since_snoc _ _ rfl]; simpa using i2 c x
          · rintro ⟨hs, _⟩; exact ht (i1.2 hs)

theorem calls_append (a b : List Ev) : calls (a ++ b) = calls a ++ calls b := by simp [calls]
theorem accepted_append (a b : List Ev) : accepted (a ++ b) = accepted a ++ accepted b := by
  simp [accepted]

/-- the registered listener -/
def pending (t : Trig) : List (Nat × Nat) := if t.cb ≠ 0 then [(t.cb, t.ctx)] else []

/-- every call in the history had a signal and its registration since the previous call -/
def Justified (tr : List Ev) : Prop :=
  ∀ pre c x post, tr = pre ++ .step (some (c, x)) :: post →
    .signal ∈ since pre ∧ .register c x SUCCESS ∈ since pre

theorem Justified.snoc {tr : List Ev} {e : Ev} (g : Justified tr)
    (h : ∀ c x, e = .step (some (c, x)) → .signal ∈ since tr ∧ .register c x SUCCESS ∈ since tr) :
    Justified (tr ++ [e]) := by
  intro pre c x post heq
  rcases List.eq_nil_or_concat post with rfl | ⟨q, y, rfl⟩
  · obtain ⟨rfl, h2⟩ := List.append_inj' heq rfl
    simp at h2; exact h c x h2
  · have h' : tr ++ [e] = (pre ++ .step (some (c, x)) :: q) ++ [y] := by simpa using heq
    exact g pre c x q (List.append_inj' h' rfl).1

/-- calls from within a listener that does not step: the registered listener stays, nothing is
accepted and nothing called -/
theorem exec_inner {body : List Ev → Nat → Nat → List Op} {ops : List Op} :
    ∀ {n : Nat} {t : Trig} {tr : List Ev} {t' : Trig} {tr' : List Ev},
    .step ∉ ops → t.cb ≠ 0 → Justified tr → exec body n t tr ops = some (t', tr') →
    calls tr' = calls tr ∧ accepted tr' = accepted tr ∧ Justified tr' := by
  induction ops with
  | nil => intro n t tr t' tr' _ _ j h; simp [exec] at h; obtain ⟨_, rfl⟩ := h; exact ⟨rfl, rfl, j⟩
  | cons op ops ih =>
    intro n t tr t' tr' hs hc j h
    have hs' : Op.step ∉ ops := fun hm => hs (List.mem_cons_of_mem _ hm)
    cases n with
    | zero => simp [exec] at h
    | succ n =>
      cases op with
      | signal =>
        simp only [exec] at h
        obtain ⟨a, b, c⟩ := ih hs' (by exact hc) (j.snoc (by simp)) h
        exact ⟨by rw [a, calls_append]; simp [calls], by rw [b, accepted_append]; simp [accepted], c⟩
      | register cb ctx =>
        simp only [exec] at h
        have hr : register t cb ctx = (t, ERROR_AUTO_RESET_TRIGGER_LISTENER_ALREADY_REGISTERED) := by
          simp [register, hc]
        rw [hr] at h
        have hne : ¬ ERROR_AUTO_RESET_TRIGGER_LISTENER_ALREADY_REGISTERED = SUCCESS := by decide
        obtain ⟨a, b, c⟩ := ih hs' hc (j.snoc (by simp)) h
        exact ⟨by rw [a, calls_append]; simp [calls],
          by rw [b, accepted_append]; simp [accepted, hne], c⟩
      | step => simp at hs

/-- one direction of `Inv`: what the fields say has happened since the last call -/
def Inv1 (t : Trig) (tr : List Ev) : Prop :=
  (t.triggered = true → .signal ∈ since tr) ∧
  (t.cb ≠ 0 → .register t.cb t.ctx SUCCESS ∈ since tr) ∧
  calls tr ++ pending t = accepted tr

theorem exec_once {body : List Ev → Nat → Nat → List Op} (hb : ∀ tr c x, .step ∉ body tr c x)
    {ops : List Op} : ∀ {n : Nat} {t : Trig} {tr : List Ev} {t' : Trig} {tr' : List Ev},
    OkOps ops → Inv1 t tr → Justified tr → exec body n t tr ops = some (t', tr') →
    Inv1 t' tr' ∧ Justified tr' := by
  induction ops with
  | nil => intro n t tr t' tr' _ i g h; simp [exec] at h; obtain ⟨rfl, rfl⟩ := h; exact ⟨i, g⟩
  | cons op ops ih =>
    intro n t tr t' tr' ok i g h
    have ok' : OkOps ops := fun c x hc => ok c x (List.mem_cons_of_mem _ hc)
    obtain ⟨i1, i2, i3⟩ := i
    cases n with
    | zero => simp [exec] at h
    | succ n =>
      cases op with
      | signal =>
        simp only [exec] at h
        refine ih ok' ⟨?_, ?_, ?_⟩ (g.snoc (by simp)) h
        · rw [since_snoc _ _ rfl]; simp
        · rw [since_snoc _ _ rfl]; intro hc; exact List.mem_append_left _ (i2 hc)
        · rw [calls_append, accepted_append, ← i3]; by_cases hc : t.cb = 0 <;> simp [calls, accepted, pending, signal, hc]
      | register cb ctx =>
        simp only [exec] at h
        have hcb : cb ≠ 0 := ok cb ctx (by simp)
        by_cases h0 : t.cb = 0
        · have hr : register t cb ctx = ({ t with cb := cb, ctx := ctx }, SUCCESS) := by
            simp [register, h0]
          rw [hr] at h
          refine ih ok' ⟨?_, ?_, ?_⟩ (g.snoc (by simp)) h
          · rw [since_snoc _ _ rfl]; intro ht; exact List.mem_append_left _ (i1 ht)
          · rw [since_snoc _ _ rfl]; simp
          · rw [calls_append, accepted_append, ← i3]; simp [calls, accepted, pending, h0, hcb]
        · have hr : register t cb ctx = (t, ERROR_AUTO_RESET_TRIGGER_LISTENER_ALREADY_REGISTERED) := by
            simp [register, h0]
          rw [hr] at h
          have hne : ¬ ERROR_AUTO_RESET_TRIGGER_LISTENER_ALREADY_REGISTERED = SUCCESS := by decide
          refine ih ok' ⟨?_, ?_, ?_⟩ (g.snoc (by simp)) h
          · rw [since_snoc _ _ rfl]; intro ht; exact List.mem_append_left _ (i1 ht)
          · rw [since_snoc _ _ rfl]; intro hc; exact List.mem_append_left _ (i2 hc)
          · rw [calls_append, accepted_append, ← i3]; simp [calls, accepted, hne]
      | step =>
        simp only [exec] at h
        have quiet : Inv1 t (tr ++ [.step none]) := by
          refine ⟨?_, ?_, ?_⟩
          · rw [since_snoc _ _ rfl]; intro ht; exact List.mem_append_left _ (i1 ht)
          · rw [since_snoc _ _ rfl]; intro hc; exact List.mem_append_left _ (i2 hc)
          · rw [calls_append, accepted_append, ← i3]; simp [calls, accepted]
        by_cases ht : t.triggered = true
        · rw [if_pos ht] at h
          by_cases h0 : t.cb = 0
          · rw [if_neg (by simp [h0])] at h
            exact ih ok' quiet (g.snoc (by simp)) h
          · rw [if_pos h0] at h
            split at h
            · simp at h
            · rename_i t1 tr1 heq
              have j1 : Justified (tr ++ [.step (some (t.cb, t.ctx))]) :=
                g.snoc (by rintro c x ⟨⟩; exact ⟨i1 ht, i2 h0⟩)
              obtain ⟨a, b, c⟩ := exec_inner (hb _ _ _) h0 j1 heq
              refine ih ok' ⟨by simp, by simp, ?_⟩ c h
              rw [a, b, calls_append, accepted_append, ← i3]; simp [calls, accepted, pending, h0]
        · rw [if_neg ht] at h
          exact ih ok' quiet (g.snoc (by simp)) h

/-! ### Theorems -/

/-- C38, listeners that do not touch the trigger: in every history of a new trigger a registration is
accepted exactly when none is waiting, and a step calls a listener exactly when there were a signal
and an accepted registration (in either order) since the last call. -/
theorem trigger_fires_partial {n : Nat} {ops : List Op} {t' : Trig} {tr : List Ev} (ok : OkOps ops)
    (h : exec (fun _ _ _ => []) n ⟨false, 0, 0⟩ [] ops = some (t', tr)) : Good tr := by
  refine (exec_good ok ?_ ?_ h).2
  · refine ⟨by simp [since], fun c x => ?_⟩
    simp only [since, List.reverse_nil, List.takeWhile_nil, List.not_mem_nil, false_iff]
    rintro ⟨rfl, _, hc⟩; exact hc rfl
  · intro pre e post he; simp at he

/-- such histories run to their end -/
theorem trigger_total (ops : List Op) (t : Trig) (tr : List Ev) :
    ∃ r, exec (fun _ _ _ => []) ops.length t tr ops = some r := by
  induction ops generalizing t tr with
  | nil => exact ⟨_, rfl⟩
  | cons op ops ih =>
    cases op with
    | signal => exact ih _ _
    | register cb ctx => exact ih _ _
    | step =>
      simp only [List.length_cons, exec]
      by_cases ht : t.triggered = true
      · rw [if_pos ht]
        by_cases h0 : t.cb = 0
        · rw [if_neg (by simp [h0])]; exact ih _ _
        · rw [if_pos h0]; exact ih _ _
      · rw [if_neg ht]; exact ih _ _

/-- C38, listeners that may signal and register but do not step: every accepted registration is called
exactly once, in order, except the one still waiting at the end; and no call happens without a signal
and its registration since the previous call. -/
theorem trigger_once_partial {body : List Ev → Nat → Nat → List Op} (hb : ∀ tr c x, .step ∉ body tr c x)
    {n : Nat} {ops : List Op} {t' : Trig} {tr : List Ev} (ok : OkOps ops)
    (h : exec body n ⟨false, 0, 0⟩ [] ops = some (t', tr)) :
    calls tr ++ pending t' = accepted tr ∧ Justified tr := by
  obtain ⟨⟨_, _, i⟩, j⟩ := exec_once hb ok ⟨by simp, by simp, rfl⟩ (by intro pre c x post he; simp at he) h
  exact ⟨i, j⟩

/-- C38 violated: a signal raised by the listener while it runs is lost; a listener registered later
is not called. -/
theorem trigger_reentrant_signal_violated :
    ∃ (body : List Ev → Nat → Nat → List Op) (ops : List Op) (n : Nat) (t' : Trig) (tr : List Ev),
      OkOps ops ∧ (∀ tr c x, .step ∉ body tr c x) ∧ (∀ tr c x, OkOps (body tr c x)) ∧
      exec body n ⟨false, 0, 0⟩ [] ops = some (t', tr) ∧ ¬ Good tr := by
  refine ⟨fun _ c _ => if c = 1 then [.signal] else [], [.register 1 7, .signal, .step, .register 2 8, .step],
    9, ⟨false, 2, 8⟩, [.register 1 7 SUCCESS, .signal, .step (some (1, 7)), .signal,
      .register 2 8 SUCCESS, .step none], ?_, ?_, ?_, by decide, ?_⟩
  · intro c x hm; simp at hm; omega
  · intro _ c _; dsimp only; split <;> simp
  · intro _ c _ c' x hm; dsimp only at hm; split at hm <;> simp at hm
  · intro g
    have := g [.register 1 7 SUCCESS, .signal, .step (some (1, 7)), .signal, .register 2 8 SUCCESS]
      (.step none) [] rfl
    exact this ⟨by decide, 2, 8, by decide⟩

/-- C38 violated: a listener cannot register again from within its call, although it was removed. -/
theorem trigger_reentrant_register_violated :
    ∃ (body : List Ev → Nat → Nat → List Op) (ops : List Op) (n : Nat) (t' : Trig) (tr : List Ev),
      OkOps ops ∧ (∀ tr c x, .step ∉ body tr c x) ∧ (∀ tr c x, OkOps (body tr c x)) ∧
      exec body n ⟨false, 0, 0⟩ [] ops = some (t', tr) ∧ ¬ Good tr := by
  refine ⟨fun _ _ _ => [.register 1 7], [.register 1 7, .signal, .step],
    9, ⟨false, 0, 0⟩, [.register 1 7 SUCCESS, .signal, .step (some (1, 7)),
      .register 1 7 ERROR_AUTO_RESET_TRIGGER_LISTENER_ALREADY_REGISTERED], ?_, ?_, ?_, by decide, ?_⟩
  · intro c x hm; simp at hm; omega
  · intro _ c _; simp
  · intro _ c _ c' x hm; simp at hm; omega
  · intro g
    rcases g [.register 1 7 SUCCESS, .signal, .step (some (1, 7))]
      (.register 1 7 ERROR_AUTO_RESET_TRIGGER_LISTENER_ALREADY_REGISTERED) [] rfl with ⟨h, _⟩ | ⟨_, c, x, h⟩
    · exact absurd h (by decide)
    · rw [show since [.register 1 7 SUCCESS, .signal, .step (some (1, 7))] = [] from rfl] at h
      simp at h

/-- C38 violated: a listener that steps the trigger is called again although it registered once. -/
theorem trigger_reentrant_step_violated :
    ∃ (body : List Ev → Nat → Nat → List Op) (ops : List Op) (n : Nat) (t' : Trig) (tr : List Ev),
      OkOps ops ∧ (∀ tr c x, OkOps (body tr c x)) ∧
      exec body n ⟨false, 0, 0⟩ [] ops = some (t', tr) ∧
      accepted tr = [(1, 7)] ∧ calls tr = [(1, 7), (1, 7)] := by
  refine ⟨fun tr _ _ => if tr.length = 2 then [.step] else [], [.register 1 7, .signal, .step],
    9, ⟨false, 0, 0⟩, [.register 1 7 SUCCESS, .signal, .step (some (1, 7)), .step (some (1, 7))],
    ?_, ?_, by decide, by decide, by decide⟩
  · intro c x hm; simp at hm; omega
  · intro tr c _ c' x hm; dsimp only at hm; split at hm <;> simp at hm

/-- If the listener always steps the trigger first, the outer step never returns. -/
theorem trigger_reentrant_step_diverges {rest : List Op} {tr : List Ev} {n : Nat} {c x : Nat} (hc : c ≠ 0) :
    exec (fun _ _ _ => .step :: rest) n ⟨true, c, x⟩ tr [.step] = none ∧
    ∀ ops, exec (fun _ _ _ => .step :: rest) n ⟨true, c, x⟩ tr (.step :: ops) = none := by
  have key : ∀ ops, exec (fun _ _ _ => .step :: rest) n ⟨true, c, x⟩ tr (.step :: ops) = none := by
    induction n generalizing tr with
    | zero => intro _; rfl
    | succ n ih => intro ops; simp only [exec]; rw [if_pos trivial, if_pos hc, ih]
  exact ⟨key _, key⟩

/-- a failing create says so and stores nothing; otherwise the trigger is quiet -/
theorem trigger_create (st : Status) :
    (st ≠ SUCCESS → create st = (st, none)) ∧ (st = SUCCESS → create st = (SUCCESS, some ⟨false, 0, 0⟩)) := by
  constructor <;> intro h <;> simp [create, h]

/-- signal before registration, two rounds, a rejected registration -/
example : exec (fun _ _ _ => []) 9 ⟨false, 0, 0⟩ []
    [.signal, .step, .register 1 7, .register 2 8, .step, .step, .register 2 8, .step, .signal, .step] =
  none ∧ (exec (fun _ _ _ => []) 10 ⟨false, 0, 0⟩ []
    [.signal, .step, .register 1 7, .register 2 8, .step, .step, .register 2 8, .step, .signal, .step]).map
    (calls ·.2) = some [(1, 7), (2, 8)] := by decide

end Rcpr.Trigger
