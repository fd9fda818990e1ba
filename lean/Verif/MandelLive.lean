import Verif.MandelSafe

/-! Progress of the mandelbrot example when no call fails. -/
namespace Rcpr.Mandel

open Rcpr Rcpr.Monitor

/-- a point that is reached without failures -/
def fine : At → Bool
  | .setup | .acquire | .begin _ _ | .tell _ _ | .sleep _ _ | .write _ _ | .finish _ => true
  | .acq | .doze | .look | .test | .take | .unlock _ | .draw _ _ | .lock _ _ | .save _ _ | .report => true
  | _ => false

structure Fine (s : St) : Prop where
  loc : ∀ t, fine (s.loc t) = true
  quiesce : (s.data 0).quiesce = false

theorem fine_top {c : Cfg} {i : Nat} {f : List (List Slot)} : fine (top c i f) = true := by unfold top; split <;> rfl

theorem Fine.upd {s s' : St} (h : Fine s) {t : Nat} {l : At} (h1 : s'.loc = upd s.loc t l) (hl : fine l = true)
    (h2 : (s'.data 0).quiesce = (s.data 0).quiesce) : Fine s' := by
  refine ⟨fun u => ?_, h2.trans h.quiesce⟩
  rw [h1]
  by_cases hu : u = t
  · subst hu; rw [upd_self]; exact hl
  · rw [upd_ne _ _ hu]; exact h.loc u

/-- this choice is no failure -/
def Succeeds (ch : Choice) : Prop := ∀ e w, ch = .call e w → e = SUCCESS

theorem Fine.move {c : Cfg} {s s' : St} {t : Nat} {ch : Choice} (h : Fine s) (hm : Move c s t ch s') (hc : Succeeds ch) : Fine s' := by
  have hf := h.loc t
  have hq := h.quiesce
  cases hm with
  | spur _ => exact ⟨h.loc, hq⟩
  | wait _ _ _ => exact ⟨h.loc, hq⟩
  | resume _ _ =>
    refine h.upd rfl ?_ rfl
    generalize s.loc t = l at *
    cases l <;> simp_all [fine, next]
  | fail _ he _ => exact absurd (hc _ _ rfl) he
  | acq _ _ hl =>
    refine h.upd rfl ?_ rfl
    generalize s.loc t = l at *
    cases l <;> simp only [acqNext, reduceCtorEq, Option.some.injEq] at hl <;> subst hl
    · exact fine_top
    · cases hf
    all_goals rfl
  | rel _ _ hl =>
    refine h.upd rfl ?_ rfl
    generalize s.loc t = l at *
    cases l <;> simp only [relNext, reduceCtorEq, Option.some.injEq] at hl <;> subst hl
    · cases hf
    · rfl
    · cases hf
  | one _ hl _ => exact h.upd rfl rfl rfl
  | all _ hl =>
    refine h.upd rfl ?_ rfl
    generalize s.loc t = l at *
    cases l <;> simp only [allNext, reduceCtorEq, Option.some.injEq] at hl <;> subst hl
    · rfl
    · cases hf
  | acc _ _ hl _ =>
    generalize hl0 : s.loc t = l at *
    cases l <;> simp only [accNext, reduceCtorEq, Option.some.injEq] at hl <;> subst hl
    case begin => exact h.upd rfl rfl (by dsimp only; rw [upd_self])
    case write => exact h.upd rfl fine_top (by dsimp only; rw [upd_self])
    case look => exact h.upd rfl (by rw [hq]; rfl) (by dsimp only; rw [upd_self])
    case test => exact h.upd rfl (by dsimp only; split <;> rfl) (by dsimp only; rw [upd_self])
    case take => exact h.upd rfl (by split <;> rfl) (by dsimp only; rw [upd_self]; split <;> rfl)
    case save => exact h.upd rfl (by dsimp only; split <;> rfl) (by dsimp only; rw [upd_self])
    case failed => cases hf
  | put _ hl =>
    generalize hl0 : s.loc t = l at *
    cases l <;> simp only [putNext, reduceCtorEq, Option.some.injEq] at hl
    case setup => subst hl; exact h.upd rfl rfl (by dsimp only [put]; rw [upd_self])
    case draw =>
      split at hl <;> cases hl <;> exact h.upd rfl rfl (by dsimp only [put]; rw [upd_self])
    all_goals cases hf

/-- A worker that will look at the frame again before it sleeps. -/
def Engaged (s : St) (t : Nat) : Prop :=
  t ≠ 0 ∧ ((s.mode t = .run ∧ s.loc t ≠ .acq ∧ s.loc t ≠ .doze) ∨ s.mode t = .woken workerCond 0)

structure Going (c : Cfg) (s : St) : Prop where
  taken : ∀ j < (s.data 0).curr, isLine ((s.data 0).array j) = true ∨ ∃ t, lineOf (s.loc t) = some j
  done : (s.data 0).done = true → (s.data 0).curr = c.lines
  engaged : (s.data 0).done = false → (∃ i f, s.loc 0 = .tell i f) ∨ ∃ t, Engaged s t
  told : (s.data 0).written = c.lines → (∃ t, s.loc t = .report) ∨ s.mode 0 = .woken mainCond 0 ∨ ∃ i f, s.loc 0 = .write i f

def drawing : At → Bool
  | .tell _ _ | .sleep _ _ | .write _ _ => true
  | _ => false

theorem Shape.mode_worker {c : Cfg} {s : St} (h : Shape c s) {t : Nat} (ht : t ≠ 0) :
    s.mode t = .run ∨ s.loc t = .doze ∧ (s.mode t = .waiting workerCond 0 ∨ s.mode t = .woken workerCond 0) := by
  rcases h.md t with e | ⟨k, h1, h2⟩
  · exact .inl e
  · refine .inr ?_
    have hr : isMain (s.loc t) ≠ true := fun e => ht ((h.role t).1 e)
    generalize s.loc t = l at *
    cases l <;> simp_all [condOf, isMain]

theorem Shape.mode_main {c : Cfg} {s : St} (h : Shape c s) :
    s.mode 0 = .run ∨ (∃ i f, s.loc 0 = .sleep i f) ∧ (s.mode 0 = .waiting mainCond 0 ∨ s.mode 0 = .woken mainCond 0) := by
  rcases h.md 0 with e | ⟨k, h1, h2⟩
  · exact .inl e
  · refine .inr ?_
    have hr : isMain (s.loc 0) = true := (h.role 0).2 rfl
    generalize s.loc 0 = l at *
    cases l <;> simp_all [condOf, isMain]

theorem Shape.run_of {c : Cfg} {s : St} (h : Shape c s) {t : Nat} (hc : condOf (s.loc t) = none) : s.mode t = .run := by
  rcases h.md t with e | ⟨k, h1, _⟩
  · exact e
  · rw [hc] at h1; cases h1

theorem Shape.one_owner {c : Cfg} {s : St} (h : Shape c s) {t u : Nat} (ht : t ≤ c.jobs) (hu : u ≤ c.jobs) (hmt : s.mode t = .run)
    (hmu : s.mode u = .run) (h1 : holds (s.loc t) = true) (h2 : holds (s.loc u) = true) : t = u := by
  have e1 := (h.own t).2 ⟨ht, hmt, h1⟩
  have e2 := (h.own u).2 ⟨hu, hmu, h2⟩
  rw [e1] at e2
  exact Option.some.inj e2

theorem Shape.inside {c : Cfg} {s : St} (h : Shape c s) {t : Nat} (ht : s.loc t ≠ .acq) : t ≤ c.jobs := by
  apply Classical.byContradiction
  intro hj
  exact ht (h.out t (by omega))

/-- other workers stay engaged, whatever happens -/
theorem Engaged.other {c : Cfg} {s s' : St} {t u : Nat} {ch : Choice} (hm : Move c s t ch s') (hu : u ≠ t) (he : Engaged s u) :
    Engaged s' u := by
  have wk : ∀ cnd w, s.mode u = .woken workerCond 0 → (wake s cnd w).mode u = .woken workerCond 0 := fun cnd w e => by
    simp only [wake, e]
  have key : ∀ l, upd s.loc t l u = s.loc u := fun l => upd_ne _ _ hu
  have key2 : ∀ l, upd s.mode t l u = s.mode u := fun l => upd_ne _ _ hu
  obtain ⟨h0, h1⟩ := he
  refine ⟨h0, ?_⟩
  cases hm with
  | one _ _ _ =>
    dsimp only
    rw [key]
    rcases h1 with ⟨a, b⟩ | a
    · exact .inl ⟨wake_run.2 a, b⟩
    · exact .inr (wk _ _ a)
  | all _ _ =>
    dsimp only
    rw [key]
    rcases h1 with ⟨a, b⟩ | a
    · exact .inl ⟨wake_run.2 a, b⟩
    · exact .inr (wk _ _ a)
  | spur _ => dsimp only; rw [key2]; exact h1
  | resume _ _ => dsimp only; rw [key, key2]; exact h1
  | wait _ _ _ => dsimp only; rw [key2]; exact h1
  | put _ _ => dsimp only [put]; rw [key]; exact h1
  | _ => dsimp only; rw [key]; exact h1

/-- an engaged worker stays engaged while the frame is not done -/
theorem Engaged.self {c : Cfg} {s s' : St} {t : Nat} {ch : Choice} (h : Shape c s) (hf : Fine s) (hm : Move c s t ch s')
    (hc : Succeeds ch) (he : Engaged s t) (hd : (s.data 0).done = false) (hd' : (s'.data 0).done = false)
    (hrep : s.loc t = .report → (s.data 0).done = true) : Engaged s' t := by
  obtain ⟨h0, h1⟩ := he
  have hloc : s.loc t ≠ .doze → s.mode t = .run ∧ s.loc t ≠ .acq := fun hn => by
    rcases h1 with ⟨a, b, _⟩ | a
    · exact ⟨a, b⟩
    · rcases h.mode_worker h0 with e | ⟨e, _⟩
      · rw [e] at a; cases a
      · exact absurd e hn
  have hr : isMain (s.loc t) ≠ true := fun e => h0 ((h.role t).1 e)
  have hfl := hf.loc t
  refine ⟨h0, ?_⟩
  cases hm with
  | spur hm =>
    rcases h1 with ⟨a, _⟩ | a <;> rw [hm] at a <;> cases a
  | wait hm ho hl =>
    rcases h1 with ⟨_, _, a⟩ | a
    · generalize s.loc t = l at *
      cases l <;> simp_all [condOf, isMain]
    · rw [hm] at a; cases a
  | resume hm ho =>
    left
    dsimp only
    rw [upd_self, upd_self]
    have hl : s.loc t = .doze := by
      rcases h.mode_worker h0 with e | ⟨e, _⟩
      · rw [hm] at e; cases e
      · exact e
    rw [hl]
    simp [next]
  | fail _ he _ => exact absurd (hc _ _ rfl) he
  | acq hm _ hl =>
    left
    dsimp only
    rw [upd_self]
    rcases h1 with ⟨_, a, _⟩ | a
    · generalize s.loc t = l at *
      cases l <;> simp only [acqNext, reduceCtorEq, Option.some.injEq] at hl <;> subst hl <;> simp_all [isMain]
    · rw [hm] at a; cases a
  | rel hm _ hl =>
    left
    dsimp only
    rw [upd_self]
    generalize s.loc t = l at *
    cases l <;> simp only [relNext, reduceCtorEq, Option.some.injEq] at hl <;> subst hl <;> simp_all [isMain, fine]
  | one _ hl _ => rw [hrep hl] at hd; cases hd
  | all _ hl => exact absurd (allNext_ok hl).2.2.2 hr
  | acc hm _ hl _ =>
    left
    dsimp only at hd' ⊢
    rw [upd_self] at hd' ⊢
    generalize s.loc t = l at *
    cases l <;> simp only [accNext, reduceCtorEq, Option.some.injEq] at hl <;> subst hl
    case look => rw [hf.quiesce]; simp [hm]
    case test => rw [hd]; simp [hm]
    case take => refine ⟨hm, ?_⟩; split <;> simp
    case save => refine ⟨hm, ?_⟩; dsimp only; split <;> simp
    case failed => cases hfl
    all_goals exact absurd rfl hr
  | put hm hl =>
    left
    dsimp only [put]
    rw [upd_self]
    generalize s.loc t = l at *
    cases l <;> simp only [putNext, reduceCtorEq, Option.some.injEq] at hl
    case draw => split at hl <;> cases hl <;> simp [hm]
    all_goals first | exact absurd rfl hr | cases hfl

theorem line_upd {loc : Nat → At} {t : Nat} {l : At} {j : Nat} (hl : lineOf (loc t) = some j → lineOf l = some j)
    (h : ∃ u, lineOf (loc u) = some j) : ∃ u, lineOf (upd loc t l u) = some j := by
  obtain ⟨u, hu⟩ := h
  refine ⟨u, ?_⟩
  by_cases he : u = t
  · subst he; rw [upd_self]; exact hl hu
  · rw [upd_ne _ _ he]; exact hu

theorem Going.worker {c : Cfg} {s s' : St} {t : Nat} {ch : Choice} {i : Nat} (h : Shape c s) (hs' : Shape c s') (hf : Fine s)
    (hb : Busy c i s.loc (s.data 0)) (hb' : Busy c i s'.loc (s'.data 0)) (hg : Going c s)
    (h0 : drawing (s.loc 0) = true) (ht : t ≠ 0) (hj : t ≤ c.jobs) (hm : Move c s t ch s') (hc : Succeeds ch) : Going c s' := by
  obtain ⟨l', d', hw, h1, h2⟩ := h.worker ht hm
  have hl0 : s'.loc 0 = s.loc 0 := by rw [h1, upd_ne _ _ (Ne.symm ht)]
  have hrepd : s.loc t = .report → (s.data 0).done = true := fun e => (hb.rep t e).2
  -- the lines
  have A : (∀ j < (s'.data 0).curr, isLine ((s'.data 0).array j) = true ∨ ∃ t, lineOf (s'.loc t) = some j) ∧
      ((s'.data 0).done = true → (s'.data 0).curr = c.lines) ∧ ((s'.data 0).done = false → (s.data 0).done = false) := by
    rw [h1, h2]
    have key : ∀ l'', (∀ j, lineOf (s.loc t) = some j → lineOf l'' = some j) → ∀ j < (s.data 0).curr,
        isLine ((s.data 0).array j) = true ∨ ∃ u, lineOf (upd s.loc t l'' u) = some j := fun l'' hl j hj =>
      (hg.taken j hj).imp id (line_upd (hl j))
    generalize hl : s.loc t = l at hw key
    cases hw with
    | same => exact ⟨key _ (fun _ e => e), hg.done, id⟩
    | drop hn _ _ => exact ⟨key _ (fun _ e => by rw [hn] at e; cases e), hg.done, id⟩
    | lose he _ => exact absurd (hc _ _ rfl) he
    | go _ => exact ⟨key _ (fun _ e => by cases e), hg.done, id⟩
    | take hk =>
      refine ⟨fun j hj => ?_, fun hd => ?_, id⟩
      · by_cases e : j = (s.data 0).curr
        · exact .inr ⟨t, by rw [upd_self, e]; rfl⟩
        · exact key _ (fun _ e => by cases e) j (by dsimp only at hj; omega)
      · have := hg.done hd
        omega
    | none hk => exact ⟨key _ (fun _ e => by cases e), fun _ => Nat.le_antisymm hb.curr (Nat.le_of_not_lt hk), fun e => by cases e⟩
    | unlock => exact ⟨key _ (fun _ e => e), hg.done, id⟩
    | draw _ => exact ⟨key _ (fun _ e => e), hg.done, id⟩
    | drawn _ => exact ⟨key _ (fun _ e => e), hg.done, id⟩
    | lock => exact ⟨key _ (fun _ e => e), hg.done, id⟩
    | @save _ k ps =>
      refine ⟨fun j hj => ?_, fun hd => ?_, fun hd => ?_⟩
      · dsimp only
        by_cases e : j = k
        · rw [if_pos e]; exact .inl rfl
        · rw [if_neg e]
          rcases hg.taken j hj with e' | ⟨u, hu⟩
          · exact .inl e'
          · refine .inr ⟨u, ?_⟩
            by_cases he : u = t
            · subst he; rw [hl] at hu; cases hu; exact absurd rfl e
            · rw [upd_ne _ _ he]; exact hu
      · dsimp only at hd ⊢
        by_cases e : (s.data 0).written + 1 = c.lines
        · have := hb'.all_taken (by rw [h2]; exact e)
          rw [h2] at this
          exact this
        · rw [if_neg e] at hd; exact hg.done hd
      · dsimp only at hd
        by_cases e : (s.data 0).written + 1 = c.lines
        · rw [if_pos e] at hd; cases hd
        · rw [if_neg e] at hd; exact hd
  refine ⟨A.1, A.2.1, fun hd => ?_, fun hwr => ?_⟩
  · rw [hl0]
    rcases hg.engaged (A.2.2 hd) with e | ⟨u, hu⟩
    · exact .inl e
    · refine .inr ⟨u, ?_⟩
      by_cases e : u = t
      · subst e; exact hu.self h hf hm hc (A.2.2 hd) hd hrepd
      · exact hu.other hm e
  · rw [hl0]
    by_cases hold : (s.data 0).written = c.lines
    · rcases hg.told hold with ⟨u, hu⟩ | hk | hk
      · by_cases e : u = t
        · subst e
          -- the signal
          have hmu : s.mode u = .run := h.run_of (by rw [hu]; rfl)
          have hm0 : s.mode 0 ≠ .run := fun e => by
            refine ht (h.one_owner hj (Nat.zero_le _) hmu e (by rw [hu]; rfl) ?_)
            generalize s.loc 0 = l at *
            cases l <;> simp_all [drawing, holds]
          rcases h.mode_main with e | ⟨_, e | e⟩
          · exact absurd e hm0
          · cases hm with
            | one _ _ hwk =>
              right; left
              have ha0 : asleepOn s mainCond 0 = true := by simp [asleepOn, e]
              obtain ⟨v, _, hv, hv2⟩ := hwk 0 (Nat.zero_le _) ha0
              have hv0 : v = 0 := by
                apply Classical.byContradiction
                intro hv0
                simp only [asleepOn] at hv
                rcases h.mode_worker hv0 with e | ⟨_, e | e⟩ <;> rw [e] at hv <;> simp [workerCond, mainCond] at hv
              subst hv0
              simp [wake, e, hv2]
            | spur hm => rw [hm] at hmu; cases hmu
            | resume hm _ => rw [hm] at hmu; cases hmu
            | fail _ he _ => exact absurd (hc _ _ rfl) he
            | acq _ _ hl => rw [hu] at hl; cases hl
            | rel _ _ hl => rw [hu] at hl; cases hl
            | wait _ _ hl => rw [hu] at hl; cases hl
            | all _ hl => rw [hu] at hl; cases hl
            | acc _ _ hl _ => rw [hu] at hl; cases hl
            | put _ hl => rw [hu] at hl; cases hl
          · right; left
            rcases h.mode0 ht hm with k | _
            · rw [k, e]
            · cases hm with
              | one _ _ hwk => simp [wake, e]
              | spur hm => rw [hm] at hmu; cases hmu
              | resume hm _ => rw [hm] at hmu; cases hmu
              | fail _ he _ => exact absurd (hc _ _ rfl) he
              | acq _ _ hl => rw [hu] at hl; cases hl
              | rel _ _ hl => rw [hu] at hl; cases hl
              | wait _ _ hl => rw [hu] at hl; cases hl
              | all _ hl => rw [hu] at hl; cases hl
              | acc _ _ hl _ => rw [hu] at hl; cases hl
              | put _ hl => rw [hu] at hl; cases hl
        · exact .inl ⟨u, by rw [h1, upd_ne _ _ e]; exact hu⟩
      · rcases h.mode0 ht hm with k | k
        · exact .inr (.inl (by rw [k]; exact hk))
        · right; left
          cases hm with
          | one _ _ hwk => simp [wake, hk]
          | fail _ he _ => exact absurd (hc _ _ rfl) he
          | spur hm => exact (upd_ne _ _ (Ne.symm ht)).trans hk
          | wait hm _ _ => exact (upd_ne _ _ (Ne.symm ht)).trans hk
          | resume hm _ => exact (upd_ne _ _ (Ne.symm ht)).trans hk
          | all _ hl => rw [k] at hl; cases hl
          | _ => exact hk
      · exact .inr (.inr hk)
    · left
      refine ⟨t, ?_⟩
      rw [h1, upd_self]
      rw [h2] at hwr
      generalize hl : s.loc t = l at hw
      cases hw <;> first | exact absurd hwr hold | skip
      exact if_pos hwr

end Rcpr.Mandel
