import Verif.MandelEnd

/-! How many steps the mandelbrot example can make when no call fails. -/
namespace Rcpr.Mandel

open Rcpr Rcpr.Monitor

/-- what is left to do for a worker -/
def wt (c : Cfg) : Mode → At → Nat
  | .waiting _ _, _ => 0
  | .woken _ _, _ => 5
  | .run, .acq => 2
  | .run, .doze => 1
  | .run, .look => 4
  | .run, .test => 3
  | .run, .take => 2
  | .run, .unlock _ => c.cols + 9
  | .run, .draw _ ps => c.cols - ps.length + 8
  | .run, .lock _ _ => 7
  | .run, .save _ _ => 6
  | .run, .report => 5
  | .run, _ => 0

/-- what a line costs at most -/
def perLine (c : Cfg) : Nat := c.cols + 8

/-- what a frame costs at most -/
def perFrame (c : Cfg) : Nat := c.lines * perLine c + 5 * c.jobs + 15

/-- what is left to do for the main thread -/
def mw (c : Cfg) : Mode → At → Nat
  | _, .setup => c.frames * perFrame c + 2
  | _, .acquire => c.frames * perFrame c + 1
  | _, .begin i _ => (c.frames - i) * perFrame c
  | _, .tell i _ => (c.frames - i - 1) * perFrame c + 5 * c.jobs + 6
  | .run, .sleep i _ => (c.frames - i - 1) * perFrame c + 4
  | .waiting _ _, .sleep i _ => (c.frames - i - 1) * perFrame c + 2
  | .woken _ _, .sleep i _ => (c.frames - i - 1) * perFrame c + 3
  | _, .write i _ => (c.frames - i - 1) * perFrame c + 1
  | _, _ => 0

/-- what is left of the frame -/
def shared (c : Cfg) (d : Info) : Nat := (c.lines - d.curr) * perLine c + if d.done then 0 else 8

def sum (f : Nat → Nat) : Nat → Nat
  | 0 => 0
  | n + 1 => sum f n + f (n + 1)

theorem sum_congr {f g : Nat → Nat} : ∀ n, (∀ u, u ≠ 0 → u ≤ n → g u = f u) → sum g n = sum f n
  | 0, _ => rfl
  | n + 1, h => by
    unfold sum
    rw [sum_congr n fun u h0 hu => h u h0 (by omega), h (n + 1) (by omega) (Nat.le_refl _)]

theorem sum_upd {f g : Nat → Nat} {t : Nat} (ht : t ≠ 0) : ∀ n, t ≤ n → (∀ u, u ≠ t → g u = f u) → sum g n + f t = sum f n + g t
  | 0, h, _ => by omega
  | n + 1, h, he => by
    unfold sum
    by_cases e : t = n + 1
    · subst e
      rw [sum_congr n fun u _ hu => he u (by omega)]
      omega
    · have := sum_upd ht n (by omega) he
      have := he (n + 1) (fun k => e k.symm)
      omega

theorem sum_le {f g : Nat → Nat} : ∀ n, (∀ u, u ≠ 0 → g u ≤ f u + 5) → sum g n ≤ sum f n + 5 * n
  | 0, _ => Nat.le_refl _
  | n + 1, h => by
    unfold sum
    have := sum_le n h
    have := h (n + 1) (by omega)
    omega

/-- what a wake-up without a signal costs -/
def cost : Choice → Nat
  | .spurious => 6
  | _ => 0

theorem cost_spurious : cost .spurious = 6 := rfl
theorem cost_call (e : Status) (w : Nat → Bool) : cost (.call e w) = 0 := rfl
theorem cost_resume : cost .resume = 0 := rfl

/-- everything that is left to do -/
def left (c : Cfg) (s : St) : Nat :=
  sum (fun t => wt c (s.mode t) (s.loc t)) c.jobs + mw c (s.mode 0) (s.loc 0) + shared c (s.data 0)

structure Orderly (c : Cfg) (s : St) : Prop extends Shape c s, Fine s where
  take : ∀ t, s.loc t = .take → (s.data 0).done = false
  frame : ∀ i f, s.loc 0 = .begin i f → i < c.frames

theorem left_worker {c : Cfg} {s s' : St} {t k : Nat} (ht : t ≠ 0) (hj : t ≤ c.jobs) (hm : ∀ u, u ≠ t → s'.mode u = s.mode u)
    (hl : ∀ u, u ≠ t → s'.loc u = s.loc u)
    (h : wt c (s'.mode t) (s'.loc t) + shared c (s'.data 0) + 1 ≤ wt c (s.mode t) (s.loc t) + shared c (s.data 0) + k) :
    left c s' + 1 ≤ left c s + k := by
  have := sum_upd (f := fun t => wt c (s.mode t) (s.loc t)) (g := fun t => wt c (s'.mode t) (s'.loc t)) ht c.jobs hj
    fun u hu => by rw [hm u hu, hl u hu]
  unfold left
  rw [hm 0 (Ne.symm ht), hl 0 (Ne.symm ht)]
  omega

theorem left_main {c : Cfg} {s s' : St} {k : Nat} (hm : ∀ u, u ≠ 0 → s'.mode u = s.mode u)
    (hl : ∀ u, u ≠ 0 → s'.loc u = s.loc u)
    (h : mw c (s'.mode 0) (s'.loc 0) + shared c (s'.data 0) + 1 ≤ mw c (s.mode 0) (s.loc 0) + shared c (s.data 0) + k) :
    left c s' + 1 ≤ left c s + k := by
  have := sum_congr (f := fun t => wt c (s.mode t) (s.loc t)) (g := fun t => wt c (s'.mode t) (s'.loc t)) c.jobs
    fun u hu _ => by rw [hm u hu, hl u hu]
  unfold left
  omega

theorem mw_top {c : Cfg} {i : Nat} {f : List (List Slot)} {m : Mode} : mw c m (top c i f) ≤ (c.frames - i) * perFrame c := by
  unfold top
  split
  · exact Nat.le_refl _
  · exact Nat.zero_le _

theorem shared_begin {c : Cfg} {d : Info} : shared c { d with done := false, curr := 0, written := 0 } = c.lines * perLine c + 8 := rfl

theorem Orderly.main {c : Cfg} {s s' : St} {ch : Choice} (h : Orderly c s) (hm : Move c s 0 ch s') (hc : Succeeds ch) :
    left c s' + 1 ≤ left c s + cost ch := by
  have hfl := h.loc 0
  have hr : isMain (s.loc 0) = true := (h.role 0).2 rfl
  cases hm with
  | @spur cnd m hm =>
    rw [cost_spurious]
    refine left_main (fun u hu => upd_ne _ _ hu) (fun u hu => rfl) ?_
    dsimp only
    rw [upd_self, hm]
    rcases h.mode_main with e | ⟨⟨i, f, hl⟩, _⟩
    · rw [hm] at e; cases e
    rw [hl]
    dsimp only [mw]
    omega
  | fail _ he _ => exact absurd (hc _ _ rfl) he
  | one _ hl _ => rw [hl] at hr; cases hr
  | acq hm _ hl =>
    refine left_main (fun u hu => rfl) (fun u hu => upd_ne _ _ hu) ?_
    dsimp only
    rw [upd_self]
    generalize s.loc 0 = l at *
    cases l <;> simp only [acqNext, reduceCtorEq, Option.some.injEq] at hl <;> subst hl <;>
      first | (cases hfl; done) | (cases hr; done) | skip
    have := mw_top (c := c) (i := 0) (f := []) (m := s.mode 0)
    rw [Nat.sub_zero] at this
    generalize mw c (s.mode 0) (top c 0 []) = x at this ⊢
    simp only [mw]
    omega
  | rel _ _ hl =>
    generalize s.loc 0 = l at *
    cases l <;> simp only [relNext, reduceCtorEq, Option.some.injEq] at hl <;> first | (cases hfl; done) | (cases hr; done)
  | resume hm ho =>
    refine left_main (fun u hu => upd_ne _ _ hu) (fun u hu => upd_ne _ _ hu) ?_
    dsimp only
    rw [upd_self, upd_self, hm]
    rcases h.mode_main with e | ⟨⟨i, f, hl⟩, _⟩
    · rw [hm] at e; cases e
    rw [hl]
    simp only [next, mw, ne_eq, not_true, if_false]
    omega
  | wait hm ho hl =>
    refine left_main (fun u hu => upd_ne _ _ hu) (fun u hu => rfl) ?_
    dsimp only
    rw [upd_self, hm]
    generalize s.loc 0 = l at *
    cases l <;> simp only [condOf, reduceCtorEq] at hl <;> first | (cases hr; done) | skip
    simp only [mw]
    omega
  | all hm hl =>
    generalize hl0 : s.loc 0 = l at *
    cases l <;> simp only [allNext, reduceCtorEq, Option.some.injEq] at hl <;> subst hl <;> first | (cases hfl; done) | skip
    rename_i i f
    have key := sum_le (f := fun t => wt c (s.mode t) (s.loc t))
      (g := fun t => wt c ((wake s workerCond fun _ => true).mode t) (upd s.loc 0 (.sleep i f) t)) c.jobs fun u hu => by
        rw [upd_ne _ _ hu]
        rcases h.mode_worker hu with e | ⟨_, e | e⟩
        · rw [wake_run.2 e, e]; omega
        · simp [wake, e, wt]
        · simp [wake, e, wt]
    have e0 := (wake_run (s := s) (cnd := workerCond) (w := fun _ => true) (t := 0)).2 hm
    unfold left
    dsimp only at key ⊢
    rw [e0, upd_self, hl0, hm]
    simp only [mw]
    have : (wake s workerCond fun _ => true).data = s.data := rfl
    rw [this]
    omega
  | acc hm ho hl _ =>
    refine left_main (fun u hu => rfl) (fun u hu => upd_ne _ _ hu) ?_
    dsimp only
    rw [upd_self, upd_self, cost_call]
    have hfr := h.frame
    generalize s.loc 0 = l at *
    cases l <;> simp only [accNext, reduceCtorEq, Option.some.injEq] at hl <;> subst hl <;>
      first | (cases hfl; done) | (cases hr; done) | skip
    case begin =>
      have := hfr _ _ rfl
      dsimp only
      rw [shared_begin]
      simp only [mw]
      rename_i i _ _
      obtain ⟨k, hk⟩ : ∃ k, c.frames - i = k + 1 := ⟨c.frames - i - 1, by omega⟩
      rw [hk, Nat.add_sub_cancel, Nat.succ_mul k]
      have : perFrame c = c.lines * perLine c + 5 * c.jobs + 15 := rfl
      omega
    case write =>
      rename_i i f _
      have := mw_top (c := c) (i := i + 1) (f := f ++ [file c (s.data 0)]) (m := s.mode 0)
      rw [Nat.sub_add_eq] at this
      dsimp only
      generalize mw c (s.mode 0) (top c (i + 1) (f ++ [file c (s.data 0)])) = x at this ⊢
      simp only [mw, shared]
      omega
  | put hm hl =>
    refine left_main (fun u hu => rfl) (fun u hu => upd_ne _ _ hu) ?_
    dsimp only [Mandel.put]
    rw [upd_self, upd_self]
    generalize s.loc 0 = l at *
    cases l <;> simp only [putNext, reduceCtorEq, Option.some.injEq] at hl <;> first | (cases hfl; done) | (cases hr; done) | skip
    subst hl
    simp only [mw, shared]
    omega

theorem Orderly.work {c : Cfg} {s s' : St} {t : Nat} {ch : Choice} (h : Orderly c s) (ht : t ≠ 0) (hj : t ≤ c.jobs)
    (hm : Move c s t ch s') (hc : Succeeds ch) : left c s' + 1 ≤ left c s + cost ch := by
  have hfl := h.loc t
  have hr : isMain (s.loc t) ≠ true := fun e => ht ((h.role t).1 e)
  cases hm with
  | @spur cnd m hm =>
    rw [cost_spurious]
    refine left_worker ht hj (fun u hu => upd_ne _ _ hu) (fun u hu => rfl) ?_
    dsimp only
    rw [upd_self, hm]
    simp only [wt]
    omega
  | fail _ he _ => exact absurd (hc _ _ rfl) he
  | all _ hl => exact absurd (allNext_ok hl).2.2.2 hr
  | acq hm _ hl =>
    refine left_worker ht hj (fun u hu => rfl) (fun u hu => upd_ne _ _ hu) ?_
    dsimp only
    rw [upd_self, hm, cost_call]
    generalize s.loc t = l at *
    cases l <;> simp only [acqNext, reduceCtorEq, Option.some.injEq] at hl <;> subst hl <;>
      first | (cases hfl; done) | exact absurd rfl hr | skip
    all_goals simp only [wt]; omega
  | rel hm _ hl =>
    refine left_worker ht hj (fun u hu => rfl) (fun u hu => upd_ne _ _ hu) ?_
    dsimp only
    rw [upd_self, hm, cost_call]
    generalize s.loc t = l at *
    cases l <;> simp only [relNext, reduceCtorEq, Option.some.injEq] at hl <;> subst hl <;>
      first | (cases hfl; done) | exact absurd rfl hr | skip
    all_goals simp only [wt, List.length_nil]; omega
  | resume hm ho =>
    refine left_worker ht hj (fun u hu => upd_ne _ _ hu) (fun u hu => upd_ne _ _ hu) ?_
    dsimp only
    rw [upd_self, upd_self, hm]
    rcases h.mode_worker ht with e | ⟨hl, _⟩
    · rw [hm] at e; cases e
    rw [hl]
    simp only [next, wt, ne_eq, not_true, if_false]
    omega
  | wait hm ho hl =>
    refine left_worker ht hj (fun u hu => upd_ne _ _ hu) (fun u hu => rfl) ?_
    dsimp only
    rw [upd_self, hm, cost_call]
    generalize s.loc t = l at *
    cases l <;> simp only [condOf, reduceCtorEq] at hl <;> first | exact absurd rfl hr | skip
    simp only [wt]
    omega
  | @one w hm hl hw =>
    have hmode : ∀ u, u ≠ 0 → (wake s mainCond w).mode u = s.mode u := fun u hu => by
      rcases h.mode_worker hu with e | ⟨_, e | e⟩
      · rw [wake_run.2 e, e]
      · simp [wake, e, workerCond, mainCond]
      · simp [wake, e]
    have key := sum_upd (f := fun t => wt c (s.mode t) (s.loc t))
      (g := fun u => if u = 0 then wt c (s.mode u) (s.loc u) else wt c ((wake s mainCond w).mode u) (upd s.loc t .test u)) ht c.jobs hj
      fun u hu => by
        by_cases e : u = 0
        · rw [if_pos e]
        · rw [if_neg e, hmode u e, upd_ne _ _ hu]
    rw [sum_congr (f := fun u => wt c ((wake s mainCond w).mode u) (upd s.loc t .test u)) c.jobs fun u e _ => if_neg e] at key
    rw [if_neg ht, upd_self, hmode t ht, hm, hl] at key
    have hmain : mw c ((wake s mainCond w).mode 0) (s.loc 0) ≤ mw c (s.mode 0) (s.loc 0) + 1 := by
      rcases h.mode_main with e | ⟨⟨i, f, e0⟩, e | e⟩
      · rw [wake_run.2 e, e]; omega
      · rw [e0, e]
        simp only [wake, e]
        split <;> simp only [mw] <;> omega
      · rw [e0, e]
        simp only [wake, e]
        omega
    unfold left
    dsimp only at key ⊢
    rw [upd_ne _ _ (Ne.symm ht), cost_call]
    have : (wake s mainCond w).data = s.data := rfl
    rw [this]
    have w1 : wt c .run .report = 5 := rfl
    have w2 : wt c .run .test = 3 := rfl
    rw [w1, w2] at key
    omega
  | acc hm ho hl _ =>
    refine left_worker ht hj (fun u hu => rfl) (fun u hu => upd_ne _ _ hu) ?_
    dsimp only
    rw [upd_self, upd_self, hm, cost_call]
    have htk := h.take t
    have hq := h.quiesce
    generalize s.loc t = l at *
    cases l <;> simp only [accNext, reduceCtorEq, Option.some.injEq] at hl <;> subst hl <;>
      first | (cases hfl; done) | exact absurd rfl hr | skip
    case look => rw [hq]; simp only [wt, Bool.false_eq_true, if_false]; omega
    case test => cases hd : (s.data 0).done <;> simp only [wt, Bool.false_eq_true, if_false, if_true] <;> omega
    case take =>
      by_cases hk : (s.data 0).curr < c.lines
      · rw [if_pos hk]
        simp only [wt, shared]
        obtain ⟨k, hk⟩ : ∃ k, c.lines - (s.data 0).curr = k + 1 := ⟨c.lines - (s.data 0).curr - 1, by omega⟩
        have : c.lines - ((s.data 0).curr + 1) = k := by omega
        rw [this, hk, Nat.succ_mul]
        have : perLine c = c.cols + 8 := rfl
        omega
      · rw [if_neg hk]
        simp only [wt, shared, htk rfl, Bool.false_eq_true, if_false, if_true]
        omega
    case save =>
      simp only [shared]
      by_cases hk : (s.data 0).written + 1 = c.lines
      · simp only [hk, if_true, wt]
        split <;> omega
      · simp only [hk, if_false, wt]
        omega
  | put hm hl =>
    refine left_worker ht hj (fun u hu => rfl) (fun u hu => upd_ne _ _ hu) ?_
    dsimp only [Mandel.put]
    rw [upd_self, upd_self, hm, cost_call]
    generalize s.loc t = l at *
    cases l <;> simp only [putNext, reduceCtorEq, Option.some.injEq] at hl <;> first | (cases hfl; done) | exact absurd rfl hr | skip
    split at hl
    next hk =>
      cases hl
      simp only [wt, List.length_append, List.length_singleton]
      omega
    next hk =>
      cases hl
      simp only [wt]
      omega

theorem top_begin {c : Cfg} {i j : Nat} {f g : List (List Slot)} (h : top c i f = .begin j g) : j < c.frames := by
  unfold top at h
  split at h
  · cases h; assumption
  · cases h

theorem top_take {c : Cfg} {i : Nat} {f : List (List Slot)} : top c i f ≠ .take := by unfold top; split <;> simp

/-- who comes to `take` has seen that the frame is not done -/
theorem Move.take {c : Cfg} {s s' : St} {t : Nat} {ch : Choice} (hm : Move c s t ch s') (hu : s'.loc t = .take)
    (h0 : s.loc t = .take → (s.data 0).done = false) : (s'.data 0).done = false := by
  cases hm with
  | spur _ => exact h0 hu
  | wait _ _ _ => exact h0 hu
  | resume _ _ =>
    dsimp only at hu
    rw [upd_self] at hu
    generalize s.loc t = l at *
    cases l <;> simp [next] at hu h0 ⊢
    exact h0
  | fail _ _ hl =>
    dsimp only at hu
    rw [upd_self] at hu
    subst hu
    generalize s.loc t = l at *
    cases l <;> cases hl
  | acq _ _ hl =>
    dsimp only at hu
    rw [upd_self] at hu
    subst hu
    generalize s.loc t = l at *
    cases l <;> simp only [acqNext, reduceCtorEq, Option.some.injEq] at hl
    exact absurd hl top_take
  | rel _ _ hl =>
    dsimp only at hu
    rw [upd_self] at hu
    subst hu
    generalize s.loc t = l at *
    cases l <;> cases hl
  | one _ _ _ => dsimp only at hu; rw [upd_self] at hu; cases hu
  | all _ hl =>
    dsimp only at hu
    rw [upd_self] at hu
    subst hu
    generalize s.loc t = l at *
    cases l <;> cases hl
  | acc _ _ hl _ =>
    dsimp only at hu ⊢
    rw [upd_self] at hu ⊢
    generalize s.loc t = l at *
    cases l <;> simp only [accNext, reduceCtorEq, Option.some.injEq] at hl <;> subst hl
    case write => exact absurd hu top_take
    case look => dsimp only at hu; split at hu <;> cases hu
    case test =>
      dsimp only at hu ⊢
      cases hd : (s.data 0).done with
      | false => rfl
      | true => rw [hd] at hu; cases hu
    case save => dsimp only at hu; split at hu <;> cases hu
    case take => split at hu <;> cases hu
    all_goals cases hu
  | put _ hl =>
    dsimp only [Mandel.put] at hu
    rw [upd_self] at hu
    generalize s.loc t = l at *
    cases l <;> simp only [putNext, reduceCtorEq, Option.some.injEq] at hl
    case join =>
      split at hl
      · cases hl; cases hu
      · split at hl <;> cases hl; cases hu
    case draw => split at hl <;> cases hl <;> cases hu
    all_goals subst hl; cases hu

/-- only who has the lock changes `done` -/
theorem Move.done {c : Cfg} {s s' : St} {t : Nat} {ch : Choice} (hm : Move c s t ch s') :
    (s'.data 0).done = (s.data 0).done ∨ s.mode t = .run ∧ holds (s.loc t) = true := by
  cases hm with
  | acc hm _ hl _ => exact .inr ⟨hm, (accNext_ok hl).2.1⟩
  | put _ hl =>
    left
    dsimp only [Mandel.put]
    rw [upd_self]
    generalize s.loc t = l at *
    cases l <;> simp only [putNext, reduceCtorEq, Option.some.injEq] at hl
    case join =>
      split at hl
      · cases hl; rfl
      · split at hl <;> cases hl; rfl
    case draw => split at hl <;> cases hl <;> rfl
    all_goals subst hl; rfl
  | _ => exact .inl rfl

theorem Move.loc {c : Cfg} {s s' : St} {t u : Nat} {ch : Choice} (hm : Move c s t ch s') (hu : u ≠ t) : s'.loc u = s.loc u := by
  cases hm <;> first | rfl | exact upd_ne _ _ hu

theorem Move.begin {c : Cfg} {s s' : St} {t : Nat} {ch : Choice} (hm : Move c s t ch s') {i : Nat} {f : List (List Slot)}
    (hu : s'.loc t = .begin i f) (h0 : ∀ j g, s.loc t = .begin j g → j < c.frames) : i < c.frames := by
  cases hm with
  | spur _ => exact h0 _ _ hu
  | wait _ _ _ => exact h0 _ _ hu
  | resume _ _ =>
    dsimp only at hu
    rw [upd_self] at hu
    generalize s.loc t = l at *
    cases l <;> simp [next] at hu h0
    exact hu.1 ▸ h0
  | fail _ _ hl =>
    dsimp only at hu
    rw [upd_self] at hu
    subst hu
    generalize s.loc t = l at *
    cases l <;> cases hl
  | acq _ _ hl =>
    dsimp only at hu
    rw [upd_self] at hu
    subst hu
    generalize s.loc t = l at *
    cases l <;> simp only [acqNext, reduceCtorEq, Option.some.injEq] at hl
    exact top_begin hl
  | rel _ _ hl =>
    dsimp only at hu
    rw [upd_self] at hu
    subst hu
    generalize s.loc t = l at *
    cases l <;> cases hl
  | one _ _ _ => dsimp only at hu; rw [upd_self] at hu; cases hu
  | all _ hl =>
    dsimp only at hu
    rw [upd_self] at hu
    subst hu
    generalize s.loc t = l at *
    cases l <;> cases hl
  | acc _ _ hl _ =>
    dsimp only at hu
    rw [upd_self] at hu
    generalize s.loc t = l at *
    cases l <;> simp only [accNext, reduceCtorEq, Option.some.injEq] at hl <;> subst hl
    case write => exact top_begin hu
    case look => dsimp only at hu; split at hu <;> cases hu
    case test => dsimp only at hu; split at hu <;> cases hu
    case save => dsimp only at hu; split at hu <;> cases hu
    case take => split at hu <;> cases hu
    all_goals cases hu
  | put _ hl =>
    dsimp only [Mandel.put] at hu
    rw [upd_self] at hu
    generalize s.loc t = l at *
    cases l <;> simp only [putNext, reduceCtorEq, Option.some.injEq] at hl
    case join =>
      split at hl
      · cases hl; cases hu
      · split at hl <;> cases hl; cases hu
    case draw => split at hl <;> cases hl <;> cases hu
    all_goals subst hl; cases hu

theorem Orderly.move {c : Cfg} {s s' : St} {t : Nat} {ch : Choice} (h : Orderly c s) (ht : t ≤ c.jobs) (hm : Move c s t ch s')
    (hc : Succeeds ch) : Orderly c s' := by
  refine ⟨h.toShape.move ht hm, h.toFine.move hm hc, fun u hu => ?_, fun i f hu => ?_⟩
  · by_cases e : u = t
    · subst e; exact hm.take hu (h.take u)
    · rw [hm.loc e] at hu
      rcases hm.done with k | ⟨k1, k2⟩
      · rw [k]; exact h.take u hu
      · exact absurd (h.one_owner (h.inside (by rw [hu]; simp)) ht (h.run_of (by rw [hu]; rfl)) k1 (by rw [hu]; rfl) k2) e
  · by_cases e : 0 = t
    · subst e; exact hm.begin hu h.frame
    · rw [hm.loc e] at hu; exact h.frame i f hu

theorem begins_orderly (c : Cfg) : Orderly c begins := by
  refine ⟨(begins_inv c).toShape, begins_fine, fun t ht => ?_, fun i f h => (nomatch h)⟩
  by_cases h : t = 0
  · subst h; cases ht
  · simp [begins, start, h] at ht

theorem exec_left {c : Cfg} : ∀ (r : Run) {s s' : St}, Orderly c s → Succeed r → exec c s r = .ok s' →
    left c s' + r.length ≤ left c s + (r.map fun p => cost p.2).sum
  | [], s, s', _, _, e => by cases e; exact Nat.le_refl _
  | (t, ch) :: r, s, s', h, hc, e => by
    unfold exec at e
    cases hs : step c s t ch with
    | blocked => rw [hs] at e; cases e
    | fault => rw [hs] at e; cases e
    | ok s1 =>
      rw [hs] at e
      obtain ⟨ht, hm⟩ := step_move hs
      have hch : Succeeds ch := hc (t, ch) List.mem_cons_self
      have key := exec_left r (h.move ht hm hch) (fun p hm => hc p (List.mem_cons_of_mem _ hm)) e
      have one : left c s1 + 1 ≤ left c s + cost ch := by
        by_cases h0 : t = 0
        · subst h0; exact h.main hm hch
        · exact h.work h0 ht hm hch
      rw [List.map_cons, List.sum_cons, List.length_cons]
      dsimp only
      omega

theorem left_begins (c : Cfg) : left c begins = c.frames * perFrame c + c.lines * perLine c + 2 * c.jobs + 2 := by
  have : ∀ n, sum (fun t => wt c (begins.mode t) (begins.loc t)) n = 2 * n := fun n => by
    induction n with
    | zero => rfl
    | succ n ih =>
      unfold sum
      rw [ih]
      have : begins.loc (n + 1) = .acq := by simp [begins, start]
      rw [this]
      simp only [begins, start, wt]
      omega
  unfold left
  rw [this]
  have h1 : mw c (begins.mode 0) (begins.loc 0) = c.frames * perFrame c + 2 := rfl
  have h2 : shared c (begins.data 0) = c.lines * perLine c := rfl
  rw [h1, h2]
  omega

end Rcpr.Mandel
