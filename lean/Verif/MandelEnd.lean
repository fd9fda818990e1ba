import Verif.MandelLive

/-! When nothing can happen any more, all the frames are written. -/
namespace Rcpr.Mandel

open Rcpr Rcpr.Monitor

structure Live (c : Cfg) (s : St) : Prop extends Inv c s, Fine s where
  here : ∃ t, t ≠ 0 ∧ t ≤ c.jobs ∧ s.loc t ≠ .acq
  going : drawing (s.loc 0) = true → Going c s

theorem drawing_top {c : Cfg} {i : Nat} {f : List (List Slot)} : drawing (top c i f) = false := by unfold top; split <;> rfl

theorem top_acq {c : Cfg} {i : Nat} {f : List (List Slot)} : top c i f ≠ .acq := by unfold top; split <;> simp

theorem Move.not_acq {c : Cfg} {s s' : St} {t : Nat} {ch : Choice} (hm : Move c s t ch s') {u : Nat} (hu : s'.loc u = .acq) :
    s.loc u = .acq := by
  rcases Classical.em (u ≠ t) with e | e
  · cases hm <;> first | exact hu | (dsimp only [Mandel.put] at hu; rwa [upd_ne _ _ e] at hu)
  have e : u = t := Classical.byContradiction e
  subst e
  cases hm with
  | spur _ => exact hu
  | wait _ _ _ => exact hu
  | resume _ _ =>
    dsimp only at hu
    rw [upd_self] at hu
    generalize s.loc u = l at *
    cases l <;> simp [next] at hu ⊢
  | fail _ _ hl =>
    dsimp only at hu
    rw [upd_self] at hu
    subst hu
    generalize s.loc u = l at *
    cases l <;> cases hl
  | acq _ _ hl =>
    dsimp only at hu
    rw [upd_self] at hu
    subst hu
    generalize s.loc u = l at *
    cases l <;> simp only [acqNext, reduceCtorEq, Option.some.injEq] at hl
    exact absurd hl top_acq
  | rel _ _ hl =>
    dsimp only at hu
    rw [upd_self] at hu
    subst hu
    generalize s.loc u = l at *
    cases l <;> cases hl
  | one _ _ _ => dsimp only at hu; rw [upd_self] at hu; cases hu
  | all _ hl =>
    dsimp only at hu
    rw [upd_self] at hu
    subst hu
    generalize s.loc u = l at *
    cases l <;> cases hl
  | acc _ _ hl _ =>
    dsimp only at hu
    rw [upd_self] at hu
    generalize s.loc u = l at *
    cases l <;> simp only [accNext, reduceCtorEq, Option.some.injEq] at hl <;> subst hl
    case write => exact absurd hu top_acq
    case look => dsimp only at hu; split at hu <;> cases hu
    case test => dsimp only at hu; split at hu <;> cases hu
    case save => dsimp only at hu; split at hu <;> cases hu
    case take => split at hu <;> cases hu
    all_goals cases hu
  | put _ hl =>
    dsimp only [Mandel.put] at hu
    rw [upd_self] at hu
    generalize s.loc u = l at *
    cases l <;> simp only [putNext, reduceCtorEq, Option.some.injEq] at hl
    case join =>
      split at hl
      · cases hl; cases hu
      · split at hl <;> cases hl; cases hu
    case draw => split at hl <;> cases hl <;> cases hu
    all_goals subst hl; cases hu

theorem Live.main {c : Cfg} {s s' : St} {ch : Choice} (hn : 0 < c.lines) (h : Live c s) (hm : Move c s 0 ch s') (hp : ch ≠ .spurious)
    (hc : Succeeds ch) (hd : drawing (s'.loc 0) = true) : Going c s' := by
  have hfl := h.loc 0
  have hr : isMain (s.loc 0) = true := (h.role 0).2 rfl
  have hm2 := hm
  have old := h.going
  have ln : ∀ l j, isMain (s.loc 0) = true → (∃ u, lineOf (s.loc u) = some j) → ∃ u, lineOf (upd s.loc 0 l u) = some j := by
    intro l j hr hu
    refine line_upd (fun e => ?_) hu
    generalize s.loc 0 = l at *
    cases l <;> simp_all [lineOf, isMain]
  have rp : ∀ l, (∃ u, s.loc u = .report) → ∃ u, upd s.loc 0 l u = .report := by
    rintro l ⟨u, hu⟩
    refine ⟨u, ?_⟩
    by_cases e : u = 0
    · subst e; rw [hu] at hr; cases hr
    · rw [upd_ne _ _ e]; exact hu
  have eng : (∃ t, Engaged s t) → ∃ t, Engaged s' t := fun ⟨u, hu⟩ => ⟨u, hu.other hm2 hu.1⟩
  cases hm with
  | spur _ => exact absurd rfl hp
  | fail _ he _ => exact absurd (hc _ _ rfl) he
  | acq _ _ hl =>
    dsimp only at hd
    rw [upd_self] at hd
    generalize s.loc 0 = l at *
    cases l <;> simp only [acqNext, reduceCtorEq, Option.some.injEq] at hl <;> subst hl
    · rw [drawing_top] at hd; cases hd
    · cases hfl
    all_goals cases hr
  | rel _ _ hl =>
    generalize s.loc 0 = l at *
    cases l <;> cases hl <;> first | (cases hfl; done) | (cases hr; done)
  | one _ hl _ => rw [hl] at hr; cases hr
  | put _ hl =>
    dsimp only [Mandel.put] at hd
    rw [upd_self] at hd
    generalize s.loc 0 = l at *
    cases l <;> simp only [putNext, reduceCtorEq, Option.some.injEq] at hl
    case setup => subst hl; cases hd
    all_goals first | (cases hfl; done) | (cases hr; done)
  | resume hm ho =>
    rcases h.mode_main with e | ⟨⟨i, f, hl⟩, _⟩
    · rw [hm] at e; cases e
    have old := old (by rw [hl]; rfl)
    refine ⟨fun j hj => (old.taken j hj).imp id (ln _ j hr), old.done, fun k => .inr (eng ?_), fun _ => .inr (.inr ⟨i, f, ?_⟩)⟩
    · rcases old.engaged k with ⟨_, _, e⟩ | e
      · rw [hl] at e; cases e
      · exact e
    · dsimp only
      rw [upd_self, hl]
      rfl
  | wait hm ho hl =>
    have hl2 : ∃ i f, s.loc 0 = .sleep i f := by
      generalize s.loc 0 = l at *
      cases l <;> simp_all [condOf, isMain]
    obtain ⟨i, f, hl2⟩ := hl2
    have old := old (by rw [hl2]; rfl)
    refine ⟨old.taken, old.done, fun k => .inr (eng ?_), fun k => ?_⟩
    · rcases old.engaged k with ⟨_, _, e⟩ | e
      · rw [hl2] at e; cases e
      · exact e
    · rcases old.told k with e | e | ⟨_, _, e⟩
      · exact .inl e
      · rw [hm] at e; cases e
      · rw [hl2] at e; cases e
  | all hm hl =>
    have hl2 : ∃ i f, s.loc 0 = .tell i f := by
      generalize s.loc 0 = l at *
      cases l <;> simp_all [allNext, isMain, fine]
    obtain ⟨i, f, hl2⟩ := hl2
    have old := old (by rw [hl2]; rfl)
    have ho : s.owner 0 = some 0 := (h.own 0).2 ⟨Nat.zero_le _, hm, by rw [hl2]; rfl⟩
    refine ⟨fun j hj => (old.taken j hj).imp id (ln _ j hr), old.done, fun k => .inr ?_, fun k => ?_⟩
    · obtain ⟨u, u0, uj, ul⟩ := h.here
      refine ⟨u, u0, ?_⟩
      dsimp only
      rw [upd_ne _ _ u0]
      rcases h.mode_worker u0 with e | ⟨_, e | e⟩
      · refine .inl ⟨wake_run.2 e, ul, fun e2 => ?_⟩
        have := (h.own u).2 ⟨uj, e, by rw [e2]; rfl⟩
        rw [ho] at this
        cases this
        exact u0 rfl
      · right
        simp [wake, e]
      · right
        simp [wake, e]
    · rcases old.told k with e | e | ⟨_, _, e⟩
      · exact .inl (rp _ e)
      · rw [hm] at e; cases e
      · rw [hl2] at e; cases e
  | acc hm ho hl _ =>
    dsimp only at hd
    rw [upd_self] at hd
    generalize hl0 : s.loc 0 = l at *
    cases l <;> simp only [accNext, reduceCtorEq, Option.some.injEq] at hl <;> subst hl
    case write => dsimp only at hd; rw [drawing_top] at hd; cases hd
    case begin =>
      refine ⟨?_, ?_, fun _ => .inl ⟨_, _, by dsimp only; rw [upd_self]⟩, ?_⟩ <;> dsimp only <;> rw [upd_self]
      · intro j hj
        exact absurd hj (Nat.not_lt_zero _)
      · intro e; cases e
      · intro e
        dsimp only at e
        omega
    all_goals first | (cases hfl; done) | (cases hr; done)

theorem Stage.busy {c : Cfg} {s : St} (h : Stage c s) (hd : drawing (s.loc 0) = true) : ∃ i, Busy c i s.loc (s.data 0) := by
  unfold Stage at h
  cases hl : s.loc 0 <;> rw [hl] at h hd <;> first | (cases hd; done) | exact ⟨_, h.1⟩

theorem Live.step {c : Cfg} {s s' : St} {t : Nat} {ch : Choice} (hn : 0 < c.lines) (h : Live c s) (hs : step c s t ch = .ok s')
    (hp : ch = .spurious → t ≠ 0) (hc : Succeeds ch) : Live c s' := by
  obtain ⟨ht, hm⟩ := step_move hs
  have hi := h.toInv.step hs hp
  refine ⟨hi, h.toFine.move hm hc, ?_, fun hd => ?_⟩
  · obtain ⟨u, h1, h2, h3⟩ := h.here
    exact ⟨u, h1, h2, fun e => h3 (hm.not_acq e)⟩
  · by_cases h0 : t = 0
    · subst h0
      exact h.main hn hm (fun e => hp e rfl) hc hd
    · obtain ⟨l', d', hw, h1, h2⟩ := h.worker h0 hm
      have hl0 : s'.loc 0 = s.loc 0 := by rw [h1, upd_ne _ _ (Ne.symm h0)]
      rw [hl0] at hd
      obtain ⟨i, hb⟩ := h.stage.busy hd
      have hb' : Busy c i s'.loc (s'.data 0) := by rw [h1, h2]; exact (hb.work hw).1
      exact (h.going hd).worker h.toShape hi.toShape h.toFine hb hb' hd h0 ht hm hc

theorem exec_live {c : Cfg} (hn : 0 < c.lines) : ∀ (r : Run) {s s' : St}, Live c s → Prompt r → Succeed r → exec c s r = .ok s' → Live c s'
  | [], s, s', h, _, _, e => by cases e; exact h
  | (t, ch) :: r, s, s', h, hp, hc, e => by
    unfold exec at e
    cases hs : Mandel.step c s t ch with
    | blocked => rw [hs] at e; cases e
    | fault => rw [hs] at e; cases e
    | ok s1 =>
      rw [hs] at e
      exact exec_live hn r (h.step hn hs (hp (t, ch) List.mem_cons_self) (hc (t, ch) List.mem_cons_self))
        (fun p hm => hp p (List.mem_cons_of_mem _ hm)) (fun p hm => hc p (List.mem_cons_of_mem _ hm)) e

theorem exec_fine {c : Cfg} : ∀ (r : Run) {s s' : St}, Fine s → Succeed r → exec c s r = .ok s' → Fine s'
  | [], s, s', h, _, e => by cases e; exact h
  | (t, ch) :: r, s, s', h, hc, e => by
    unfold exec at e
    cases hs : Mandel.step c s t ch with
    | blocked => rw [hs] at e; cases e
    | fault => rw [hs] at e; cases e
    | ok s1 =>
      rw [hs] at e
      exact exec_fine r (h.move (step_move hs).2 (hc (t, ch) List.mem_cons_self)) (fun p hm => hc p (List.mem_cons_of_mem _ hm)) e

theorem begins_fine : Fine begins := by
  refine ⟨fun t => ?_, rfl⟩
  by_cases h : t = 0
  · subst h; rfl
  · simp [begins, start, h, fine]

theorem ite_blocked {p : Prop} [Decidable p] {x y : Out St} (h : (if p then x else y) = .blocked) :
    p ∧ x = .blocked ∨ ¬ p ∧ y = .blocked := by
  split at h
  next hp => exact .inl ⟨hp, h⟩
  next hp => exact .inr ⟨hp, h⟩

/-- A thread that runs can make a step when it has the lock or the lock is free. -/
theorem enabled {c : Cfg} {s : St} {t : Nat} (hf : fine (s.loc t) = true) (ht : t ≤ c.jobs) (hm : s.mode t = .run)
    (ho : holds (s.loc t) = true ∨ s.owner 0 = none) (hfin : ∀ f, s.loc t ≠ .finish f) :
    step c s t (.call SUCCESS fun _ => true) ≠ .blocked := by
  intro hb
  unfold step at hb
  have hn : ¬ c.jobs + 1 ≤ t := by omega
  rw [if_neg (by omega)] at hb
  rw [hm] at hb
  have hne : ¬ SUCCESS ≠ SUCCESS := fun e => e rfl
  cases hl : s.loc t <;> rw [hl] at hb hf ho <;> first | (cases hf; done) | skip
  case setup => cases hb
  case draw =>
    dsimp only at hb
    rcases ite_blocked hb with ⟨_, e⟩ | ⟨_, e⟩ <;> cases e
  case finish f => exact hfin f hl
  case write =>
    dsimp only at hb
    rcases ite_blocked hb with ⟨_, e⟩ | ⟨_, e⟩
    · cases e
    · simp only [Monitor.step, prog, if_neg hn, hm, hl, act] at e
      rcases ite_blocked e with ⟨_, e⟩ | ⟨_, e⟩ <;> cases e
  case acquire | acq | lock =>
    have ho : s.owner 0 = none := ho.resolve_left fun e => by cases e
    simp only [Monitor.step, prog, if_neg hn, hm, hl, act, ho, if_neg hne] at hb
    cases hb
  case unlock =>
    simp only [Monitor.step, prog, if_neg hn, hm, hl, act, if_neg hne] at hb
    rcases ite_blocked hb with ⟨_, e⟩ | ⟨_, e⟩ <;> cases e
  case sleep | doze =>
    simp only [Monitor.step, prog, if_neg hn, hm, hl, act, if_neg hne] at hb
    rcases ite_blocked hb with ⟨_, e⟩ | ⟨_, e⟩
    · cases e
    · rcases ite_blocked e with ⟨_, e⟩ | ⟨_, e⟩ <;> cases e
  case tell =>
    simp only [Monitor.step, prog, if_neg hn, hm, hl, act, if_neg hne] at hb
    cases hb
  case report =>
    simp only [Monitor.step, prog, if_neg hn, hm, hl, act, if_neg hne] at hb
    rcases ite_blocked hb with ⟨e, _⟩ | ⟨_, e⟩
    · simp at e
    · cases e
  case begin | look | test | take | save =>
    simp only [Monitor.step, prog, if_neg hn, hm, hl, act] at hb
    rcases ite_blocked hb with ⟨_, e⟩ | ⟨_, e⟩ <;> cases e

theorem Live.woken {c : Cfg} {s : St} {t cnd : Nat} (h : Live c s) (ht : t ≤ c.jobs) (hm : s.mode t = .woken cnd 0)
    (ho : s.owner 0 = none) : Mandel.step c s t .resume ≠ .blocked := by
  intro hb
  unfold Mandel.step at hb
  have hn : ¬ c.jobs + 1 ≤ t := by omega
  rw [if_neg (by omega)] at hb
  rw [hm] at hb
  dsimp only at hb
  simp only [Monitor.step, prog, if_neg hn, hm, ho] at hb
  cases hb

theorem Live.go {c : Cfg} {s : St} {t : Nat} {ch : Choice} (h : Live c s) (hst : Stuck c s) (hch : ch ≠ .spurious)
    (he : Mandel.step c s t ch ≠ .blocked) : False := by
  cases hs : Mandel.step c s t ch with
  | blocked => exact he hs
  | fault => exact h.toInv.no_fault hs
  | ok s1 => exact hch (hst _ _ _ hs)

theorem Live.stuck {c : Cfg} {s : St} (h : Live c s) (hst : Stuck c s) : ∃ f, s.loc 0 = .finish f := by
  cases ho : s.owner 0 with
  | some t =>
    obtain ⟨h1, h2, h3⟩ := (h.own t).1 ho
    by_cases hfin : ∃ f, s.loc t = .finish f
    · obtain ⟨f, hf⟩ := hfin
      have : t = 0 := (h.role t).1 (by rw [hf]; rfl)
      exact ⟨f, this ▸ hf⟩
    · exact (h.go hst (fun e => by cases e) (enabled (h.loc t) h1 h2 (.inl h3) fun f e => hfin ⟨f, e⟩)).elim
  | none =>
    exfalso
    have run : ∀ t ≤ c.jobs, s.mode t ≠ .run := fun t ht hm => by
      refine h.go hst (fun e => by cases e) (enabled (h.loc t) ht hm (.inr ho) fun f e => ?_)
      have := (h.own t).2 ⟨ht, hm, by rw [e]; rfl⟩
      rw [ho] at this
      cases this
    have wk : ∀ t ≤ c.jobs, ∀ cnd, s.mode t ≠ .woken cnd 0 := fun t ht cnd hm => h.go hst (fun e => by cases e) (h.woken ht hm ho)
    have run' : ∀ t, s.loc t ≠ .acq → condOf (s.loc t) = none → False := fun t h1 h2 => run t (h.inside h1) (h.run_of h2)
    rcases h.mode_main with e | ⟨⟨i, f, hl⟩, _⟩
    · exact run 0 (Nat.zero_le _) e
    · have hg := h.going (by rw [hl]; rfl)
      obtain ⟨i', hb⟩ := h.stage.busy (by rw [hl]; rfl)
      cases hd : (s.data 0).done with
      | false =>
        rcases hg.engaged hd with ⟨_, _, e⟩ | ⟨t, _, ⟨e, e2, _⟩ | e⟩
        · rw [hl] at e; cases e
        · exact run t (h.inside e2) e
        · refine wk t ?_ _ e
          apply Classical.byContradiction
          intro hj
          rcases h.md t with k | ⟨_, k, _⟩
          · rw [e] at k; cases k
          · rw [h.out t (by omega)] at k; cases k
      | true =>
        by_cases hw : (s.data 0).written = c.lines
        · rcases hg.told hw with ⟨t, e⟩ | e | ⟨_, _, e⟩
          · exact run' t (by rw [e]; simp) (by rw [e]; rfl)
          · exact wk 0 (Nat.zero_le _) _ e
          · rw [hl] at e; cases e
        · have hall : ∃ j < c.lines, isLine ((s.data 0).array j) = false := by
            apply Classical.byContradiction
            intro hno
            refine hw (hb.cnt.trans ?_)
            have : ∀ j < c.lines, isLine ((s.data 0).array j) = true := fun j hj => by
              cases hk : isLine ((s.data 0).array j) with
              | true => rfl
              | false => exact absurd ⟨j, hj, hk⟩ hno
            unfold count
            rw [List.countP_eq_length.2 fun j hj => this j (List.mem_range.1 hj), List.length_range]
          obtain ⟨j, hj, hk⟩ := hall
          rcases hg.taken j (by rw [hg.done hd]; exact hj) with e | ⟨t, e⟩
          · rw [hk] at e; cases e
          · refine run' t (fun e2 => by rw [e2] at e; cases e) ?_
            generalize s.loc t = l at *
            cases l <;> simp_all [lineOf, condOf]

end Rcpr.Mandel
