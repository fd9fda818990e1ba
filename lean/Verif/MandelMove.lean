import Verif.MandelSpec

/-! The steps of the mandelbrot example one by one. -/
namespace Rcpr.Mandel

open Rcpr Rcpr.Monitor

/-- where a thread goes when its call fails -/
def failNext : At → Option At
  | .acquire => some (.quit false [])
  | .tell _ f => some (.quit true f)
  | .sleep _ f => some (.quit true f)
  | .relock h f => some (.exit h f)
  | .tellQuit f => some (.exit true f)
  | .unlockQuit f => some (.exit true f)
  | .acq => some (.broken false)
  | .doze => some .failed
  | .unlock _ => some (.broken true)
  | .lock _ _ => some (.broken false)
  | .report => some .failed
  | .leave => some (.over true)
  | _ => none

/-- after a successful acquire -/
def acqNext (c : Cfg) : At → Option At
  | .acquire => some (top c 0 [])
  | .relock _ f => some (.tellQuit f)
  | .acq => some .doze
  | .lock j ps => some (.save j ps)
  | _ => none

/-- after a successful release -/
def relNext : At → Option At
  | .unlockQuit f => some (.join 1 f)
  | .unlock j => some (.draw j [])
  | .leave => some (.over false)
  | _ => none

/-- the condition a thread waits for -/
def condOf : At → Option Nat
  | .sleep _ _ => some mainCond
  | .doze => some workerCond
  | _ => none

/-- after a broadcast -/
def allNext : At → Option At
  | .tell i f => some (.sleep i f)
  | .tellQuit f => some (.unlockQuit f)
  | _ => none

/-- after a use of the data under the lock -/
def accNext (c : Cfg) (d : Info) : At → Option (At × Info)
  | .begin i f => some (.tell i f, { d with done := false, curr := 0, written := 0 })
  | .write i f => some (top c (i + 1) (f ++ [file c d]),
      { d with array := fun j => if j < c.lines then .null else d.array j, zoom := some (i + 1) })
  | .look => some (if d.quiesce then .leave else .test, d)
  | .test => some (if d.done then .doze else .take, d)
  | .take => some (if d.curr < c.lines then (.unlock d.curr, { d with curr := d.curr + 1 }) else (.test, { d with done := true }))
  | .save j ps => some (if d.written + 1 = c.lines then .report else .test,
      { d with
        array := fun k => if k = j then .line ps else d.array k
        written := d.written + 1
        done := if d.written + 1 = c.lines then true else d.done })
  | .failed => some (.leave, { d with quiesce := true })
  | _ => none

/-- without the library -/
def putNext (c : Cfg) (s : St) : At → Option (At × Info)
  | .setup => some (.acquire, { s.data 0 with zoom := some 0 })
  | .quit h f => some (.relock h f, { s.data 0 with quiesce := true })
  | .join k f =>
    if c.jobs < k then some (.exit false f, s.data 0)
    else match s.loc k with
      | .over _ => some (.join (k + 1) f, s.data 0)
      | _ => none
  | .draw j ps =>
    if ps.length < c.cols then some (.draw j (ps ++ [⟨(s.data 0).zoom, j, ps.length⟩]), s.data 0)
    else some (.lock j ps, s.data 0)
  | .broken h => some (.over h, { s.data 0 with quiesce := true })
  | _ => none

inductive Move (c : Cfg) (s : St) (t : Nat) : Choice → St → Prop
  | spur {cnd m} (h : s.mode t = .waiting cnd m) : Move c s t .spurious { s with mode := upd s.mode t (.woken cnd m) }
  | resume {cnd m} (h : s.mode t = .woken cnd m) (ho : s.owner m = none) :
    Move c s t .resume { s with
      mode := upd s.mode t .run, owner := upd s.owner m (some t), loc := upd s.loc t (next c (s.loc t) (.waited SUCCESS)) }
  | fail {e w l} (h : s.mode t = .run) (he : e ≠ SUCCESS) (hl : failNext (s.loc t) = some l) :
    Move c s t (.call e w) { s with loc := upd s.loc t l }
  | acq {w l} (h : s.mode t = .run) (ho : s.owner 0 = none) (hl : acqNext c (s.loc t) = some l) :
    Move c s t (.call SUCCESS w) { s with owner := upd s.owner 0 (some t), loc := upd s.loc t l }
  | rel {w l} (h : s.mode t = .run) (ho : s.owner 0 = some t) (hl : relNext (s.loc t) = some l) :
    Move c s t (.call SUCCESS w) { s with owner := upd s.owner 0 none, loc := upd s.loc t l }
  | wait {w cnd} (h : s.mode t = .run) (ho : s.owner 0 = some t) (hl : condOf (s.loc t) = some cnd) :
    Move c s t (.call SUCCESS w) { s with owner := upd s.owner 0 none, mode := upd s.mode t (.waiting cnd 0) }
  | one {w} (h : s.mode t = .run) (hl : s.loc t = .report)
    (hw : ∀ u ≤ c.jobs, asleepOn s mainCond u = true → ∃ v ≤ c.jobs, asleepOn s mainCond v = true ∧ w v = true) :
    Move c s t (.call SUCCESS w) { wake s mainCond w with loc := upd s.loc t .test }
  | all {w l} (h : s.mode t = .run) (hl : allNext (s.loc t) = some l) :
    Move c s t (.call SUCCESS w) { wake s workerCond (fun _ => true) with loc := upd s.loc t l }
  | acc {e w p} (h : s.mode t = .run) (ho : s.owner 0 = some t) (hl : accNext c (s.data 0) (s.loc t) = some p)
    (hf : ∀ i f, s.loc t = .write i f → ∀ j < c.lines, (s.data 0).array j ≠ .wild) :
    Move c s t (.call e w) { s with loc := upd s.loc t p.1, data := upd s.data 0 p.2 }
  | put {e w p} (h : s.mode t = .run) (hl : putNext c s (s.loc t) = some p) : Move c s t (.call e w) (put s t p.1 p.2)

theorem Move.one' {c : Cfg} {s s' : St} {t : Nat} {w : Nat → Bool} (h : s.mode t = .run) (hl : s.loc t = .report)
    (hs : s' = { wake s mainCond w with loc := upd s.loc t .test })
    (hw : ∀ u ≤ c.jobs, asleepOn s mainCond u = true → ∃ v ≤ c.jobs, asleepOn s mainCond v = true ∧ w v = true) :
    Move c s t (.call SUCCESS w) s' := hs ▸ .one h hl hw

theorem ite_ok {p : Prop} [Decidable p] {x : Out St} {s' : St} (h : (if p then .fault else x) = .ok s') : x = .ok s' := by
  split at h
  · cases h
  · exact h

theorem lock_err : ERROR_THREAD_MUTEX_LOCK ≠ SUCCESS := by decide

theorem unlock_err : ERROR_THREAD_MUTEX_UNLOCK ≠ SUCCESS := by decide

theorem wait_err : ERROR_THREAD_COND_WAIT ≠ SUCCESS := by decide

theorem step_move {c : Cfg} {s s' : St} {t : Nat} {ch : Choice} (h : step c s t ch = .ok s') :
    t ≤ c.jobs ∧ Move c s t ch s' := by
  unfold step at h
  split at h
  · cases h
  next ht =>
  have hn : ¬ c.jobs + 1 ≤ t := by omega
  refine ⟨by omega, ?_⟩
  split at h
  next hm hl => cases h; exact .put (p := (_, _)) hm (by rw [hl]; rfl)
  next hm hl => cases h; exact .put (p := (_, _)) hm (by rw [hl]; rfl)
  next hm hl =>
    split at h
    next hk => cases h; exact .put (p := (_, _)) hm (by rw [hl]; simp only [putNext]; rw [if_pos hk])
    next hk =>
      split at h
      next b hb => cases h; exact .put (p := (_, _)) hm (by rw [hl]; simp only [putNext]; rw [if_neg hk, hb])
      · cases h
  next hm hl =>
    split at h
    next hk => cases h; exact .put (p := (_, _)) hm (by rw [hl]; simp only [putNext]; rw [if_pos hk])
    next hk => cases h; exact .put (p := (_, _)) hm (by rw [hl]; simp only [putNext]; rw [if_neg hk])
  next hm hl => cases h; exact .put (p := (_, _)) hm (by rw [hl]; rfl)
  next hm hl =>
    split at h
    · cases h
    next hw =>
      simp only [Monitor.step, prog, if_neg hn, hm, hl, act] at h
      split at h
      · cases h
      next ho =>
        cases h
        have ho' : s.owner 0 = some t := Classical.byContradiction ho
        refine .acc (p := (_, _)) hm ho' (by rw [hl]; rfl) ?_
        intro i f _ j hj hw'
        apply hw
        simp only [file, List.any_map, List.any_eq_true, List.mem_range, Function.comp]
        exact ⟨j, hj, by rw [hw']; rfl⟩
  next n1 n2 n3 n4 n5 n6 =>
    unfold Monitor.step at h
    rw [if_neg (by exact hn)] at h
    split at h
    next hm => cases h; exact .spur hm
    next hm =>
      split at h
      next ho => cases h; exact .resume hm ho
      · cases h
    next e w hm =>
      cases hl : s.loc t <;> simp only [prog, hl, act] at h
      case acquire | relock | acq | lock =>
        by_cases he : e = SUCCESS
        · subst he
          simp only [lockAcquire, ne_eq, not_true, if_false] at h
          split at h
          next ho => cases h; exact .acq hm ho (by rw [hl]; simp [acqNext, next])
          · cases h
        · simp only [lockAcquire, ne_eq, he, not_false_eq_true, if_true] at h
          cases h
          exact .fail hm he (by rw [hl]; simp [failNext, next, lock_err])
      case unlockQuit | unlock | leave =>
        split at h
        · cases h
        next ho =>
        have ho' : s.owner 0 = some t := Classical.byContradiction ho
        by_cases he : e = SUCCESS
        · subst he
          simp only [lockRelease, ne_eq, not_true, if_false] at h
          cases h
          exact .rel hm ho' (by rw [hl]; simp [relNext, next])
        · simp only [lockRelease, ne_eq, he, not_false_eq_true, if_true] at h
          cases h
          exact .fail hm he (by rw [hl]; simp [failNext, next, unlock_err])
      case sleep | doze =>
        split at h
        · cases h
        next ho =>
        have ho' : s.owner 0 = some t := Classical.byContradiction ho
        by_cases he : e = SUCCESS
        · subst he
          rw [if_neg (by simp)] at h
          have h := ite_ok h
          cases h
          exact .wait hm ho' (by rw [hl]; rfl)
        · simp only [condWait, ne_eq, he, not_false_eq_true, if_true] at h
          cases h
          exact .fail hm he (by rw [hl]; simp [failNext, next, wait_err])
      case tell | tellQuit =>
        by_cases he : e = SUCCESS
        · subst he
          simp only [signalAll, ne_eq, not_true, if_false] at h
          cases h
          exact .all hm (by show allNext (s.loc t) = some (next c (s.loc t) (.signalled SUCCESS)); rw [hl]; simp [allNext, next])
        · simp only [signalAll, ne_eq, he, not_false_eq_true, if_true] at h
          cases h
          exact .fail hm he (by rw [hl]; simp [failNext, next, he])
      case report =>
        by_cases he : e = SUCCESS
        · subst he
          simp only [signalOne, ne_eq, not_true, if_false] at h
          split at h
          · cases h
          next hw =>
            cases h
            refine Move.one' hm hl (by simp [answer, wake, hl, next]) ?_
            intro u hu ha
            apply Classical.byContradiction
            intro hne
            apply hw
            simp only [Bool.and_eq_true, List.any_eq_true, List.mem_range, Bool.not_eq_true', List.any_eq_false]
            refine ⟨⟨u, by omega, ha⟩, ?_⟩
            intro v hv hav
            exact hne ⟨v, by omega, hav.1, hav.2⟩
        · simp only [signalOne, ne_eq, he, not_false_eq_true, if_true] at h
          cases h
          exact .fail hm he (by rw [hl]; simp [failNext, next, he])
      case begin | look | test | failed =>
        split at h
        · cases h
        next ho =>
        have ho' : s.owner 0 = some t := Classical.byContradiction ho
        cases h
        exact .acc (p := (_, _)) hm ho' (by rw [hl]; rfl) (by intro i f h; rw [hl] at h; cases h)
      case take =>
        split at h
        · cases h
        next ho =>
        have ho' : s.owner 0 = some t := Classical.byContradiction ho
        obtain rfl := Out.ok.inj h
        have hp : accNext c (s.data 0) (s.loc t) = some (next c (s.loc t) (.data (s.data 0)),
            if (s.data 0).curr < c.lines then { s.data 0 with curr := (s.data 0).curr + 1 } else { s.data 0 with done := true }) := by
          rw [hl]; by_cases hk : (s.data 0).curr < c.lines <;> simp [accNext, next, hk]
        refine .acc hm ho' hp (by intro i f h; rw [hl] at h; cases h)
      case save =>
        split at h
        · cases h
        next ho =>
        have ho' : s.owner 0 = some t := Classical.byContradiction ho
        cases h
        exact .acc (p := (_, _)) hm ho' (by rw [hl]; rfl) (by intro i f h; rw [hl] at h; cases h)
      case write => exact (n6 _ _ _ _ hm rfl hl).elim
      all_goals cases h
    · cases h

end Rcpr.Mandel
