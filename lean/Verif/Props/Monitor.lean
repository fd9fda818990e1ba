import Verif.MonitorLemmas

/-!
C74: mutexes and conditions keep their promises to threads that keep to the rules, in every interleaving.
C75: no wake-up is lost.
C76: a failed acquire and the caller's variable.
-/
namespace Rcpr.Monitor

open Rcpr

variable {L D : Type}

/-- **C74.** If each thread, looked at alone, follows a proof outline in which it learns of its locks only from
the answers of the library, then in every state that any interleaving, any failures and any spurious wake-ups
can lead to: nothing undefined is about to happen; no two threads have the lock of one mutex; the data of a mutex
that nobody has locked satisfy the invariant; and every running thread finds what its outline says. -/
theorem monitor_sound (p : Prog L D) (o : Outline p) (loc : Nat → L) (data : Nat → D) (hb : o.Begins loc data)
    (s : State L D) (hr : Reach p (start loc data) s) :
    (∀ t ch, step p s t ch ≠ .fault) ∧
    (∀ t u m, t < p.n → u < p.n → s.mode t = .run → s.mode u = .run → o.held t (s.loc t) m → o.held u (s.loc u) m →
      t = u) ∧
    (∀ m, (∀ t < p.n, o.held t (s.loc t) m → ∃ c, s.mode t = .waiting c m ∨ s.mode t = .woken c m) →
      o.inv m (s.data m)) ∧
    (∀ t < p.n, s.mode t = .run → o.asserts t (s.loc t) s.data) := by
  have h := reach_inv (init_inv o hb) hr
  refine ⟨no_fault h, ?_, ?_, ?_⟩
  · intro t u m ht hu hrt hru hht hhu
    have h1 := (owner_of_run h ht hrt m).2 hht
    have h2 := (owner_of_run h hu hru m).2 hhu
    rw [h1] at h2
    exact Option.some.inj h2
  · intro m hm
    refine h.free m ?_
    cases ho : s.owner m with
    | none => rfl
    | some t =>
      obtain ⟨ht, hh, hs⟩ := (h.own m t).1 ho
      obtain ⟨c, hc | hc⟩ := hm t ht hh
      · exact absurd (by rw [hc]; rfl) (hs c)
      · exact absurd (by rw [hc]; rfl) (hs c)
  · intro t ht hrt
    exact h.runs t ht (by rw [hrt]; rfl)

/-- **C74, a thread in between has its locks.** While a thread has a lock and is not waiting with it, no other
thread's acquire of that mutex succeeds, and no other thread returns from a wait with it. -/
theorem excluded (p : Prog L D) (o : Outline p) (loc : Nat → L) (data : Nat → D) (hb : o.Begins loc data)
    (s : State L D) (hr : Reach p (start loc data) s) (t u m : Nat) (ht : t < p.n)
    (hrt : s.mode t = .run) (hh : o.held t (s.loc t) m) :
    (∀ ch s' v, step p s u ch = .ok s' → s.mode u = .run → p.act u (s.loc u) = .acquire m v →
      ∃ st, st ≠ SUCCESS ∧ ∃ v', s'.loc u = p.next u (s.loc u) (.acquired st v')) ∧
    (∀ c, s.mode u = .woken c m → step p s u .resume = .blocked) := by
  have h := reach_inv (init_inv o hb) hr
  have ho := (owner_of_run h ht hrt m).2 hh
  constructor
  · intro ch s' v hs hru ha
    obtain ⟨hu, hs'⟩ := steps_of_step hs
    cases hs' with
    | spurious hm => rw [hru] at hm; cases hm
    | resume hm _ => rw [hru] at hm; cases hm
    | acquireFail _ ha' hst => exact ⟨_, hst, _, upd_same _ _ _⟩
    | acquire _ ha' ho' =>
      rw [ha] at ha'
      injection ha' with h1 h2
      rw [← h1, ho] at ho'
      cases ho'
    | releaseFail _ ha' => rw [ha] at ha'; cases ha'
    | release _ ha' => rw [ha] at ha'; cases ha'
    | waitFail _ ha' => rw [ha] at ha'; cases ha'
    | wait _ ha' => rw [ha] at ha'; cases ha'
    | signalFail _ ha' =>
      rw [ha] at ha'
      rcases ha' with ha' | ha' <;> cases ha'
    | signalOne _ ha' => rw [ha] at ha'; cases ha'
    | signalAll _ ha' => rw [ha] at ha'; cases ha'
    | access _ ha' => rw [ha] at ha'; cases ha'
  · intro c hc
    unfold step
    split
    · rfl
    · rw [hc]
      simp only
      rw [if_neg (by rw [ho]; intro hh; cases hh)]

/-- **C75.** If the threads moreover keep to the signalling discipline, then whenever the mutex of a condition is
free and a thread still sleeps on the condition, at least as many threads have been woken from it, and are about
to return, as the data warrant. -/
theorem no_lost_wakeup (p : Prog L D) (o : Outline p) (k : Discipline o) (loc : Nat → L) (data : Nat → D)
    (hb : o.Begins loc data) (s : State L D) (hr : Reach p (start loc data) s) (c : Nat)
    (hfree : s.owner (o.mutexOf c) = none) (t : Nat) (ht : t < p.n) (m : Nat) (hm : s.mode t = .waiting c m) :
    k.due c (s.data (o.mutexOf c)) ≤
      ((List.range p.n).filter fun u => s.mode u = .woken c (o.mutexOf c)).length := by
  have h := reach_inv (init_inv o hb) hr
  have hp := reach_paid (init_inv o hb) (init_paid k loc data) hr c ⟨t, ht, by simp [asleepOn, hm]⟩
  rw [owed_none hfree] at hp
  have he : wokenCount p s c = ((List.range p.n).filter fun u => s.mode u = .woken c (o.mutexOf c)).length := by
    rw [wokenCount, List.countP_eq_length_filter]
    refine congrArg List.length (List.filter_congr ?_)
    intro u hu
    have hu' := List.mem_range.1 hu
    cases hmu : s.mode u with
    | run => simp [wokenFrom, hmu]
    | waiting c' m' => simp [wokenFrom, hmu]
    | woken c' m' =>
      obtain ⟨ha, _⟩ := h.sleeps u hu' c' m' (by rw [hmu]; rfl)
      have hmc := (o.wait_pre u _ m' c' ha).2.1
      by_cases hcc : c' = c
      · subst hcc
        simp [wokenFrom, hmu, hmc]
      · simp [wokenFrom, hmu, hcc]
  rw [he] at hp
  exact hp

/-- **C75, somebody goes on.** If the mutex is free, a wake-up is due and a thread sleeps, then some thread can
return from its wait at once. -/
theorem wakeup_available (p : Prog L D) (o : Outline p) (k : Discipline o) (loc : Nat → L) (data : Nat → D)
    (hb : o.Begins loc data) (s : State L D) (hr : Reach p (start loc data) s) (c : Nat)
    (hfree : s.owner (o.mutexOf c) = none) (hdue : 0 < k.due c (s.data (o.mutexOf c)))
    (t : Nat) (ht : t < p.n) (m : Nat) (hm : s.mode t = .waiting c m) :
    ∃ u s', step p s u .resume = .ok s' ∧ s.mode u = .woken c (o.mutexOf c) ∧
      s'.loc u = p.next u (s.loc u) (.waited SUCCESS) ∧ s'.owner (o.mutexOf c) = some u := by
  have h1 := no_lost_wakeup p o k loc data hb s hr c hfree t ht m hm
  have h2 : 0 < ((List.range p.n).filter fun u => s.mode u = .woken c (o.mutexOf c)).length := Nat.lt_of_lt_of_le hdue h1
  obtain ⟨u, hu⟩ := List.exists_mem_of_length_pos h2
  rw [List.mem_filter, List.mem_range, decide_eq_true_eq] at hu
  refine ⟨u, answer p { s with mode := upd s.mode u .run, owner := upd s.owner (o.mutexOf c) (some u) } u
      (.waited SUCCESS), ?_, hu.2, ?_, ?_⟩
  · unfold step
    rw [if_neg (Nat.not_le_of_lt hu.1), hu.2]
    simp only
    rw [if_pos hfree]
    rfl
  · exact upd_same _ _ _
  · exact upd_same _ _ _

/-! ### C76 -/

/-- **C76 fails**: the documentation of `thread_mutex_lock_acquire` says that the lock is set to NULL on failure. -/
theorem acquire_null_violated :
    ¬ ∀ e m v, (lockAcquire e m v).1 ≠ SUCCESS → (lockAcquire e m v).2 = none := by
  intro h
  have := h 22 0 (some 0) (by decide)
  exact absurd this (by decide)

/-- **C76, part.** What holds is that the variable is left as it was. -/
theorem acquire_unchanged_partial (e : Status) (m : Nat) (v : Option Nat) (h : (lockAcquire e m v).1 ≠ SUCCESS) :
    (lockAcquire e m v).2 = v := by
  unfold lockAcquire at h ⊢
  by_cases he : e ≠ SUCCESS
  · rw [if_pos he]
  · rw [if_neg he] at h
    exact absurd rfl h

/-- A thread that relies on the documentation: it uses one variable for all its locks and, when an acquire
fails, releases what the variable holds unless that is NULL. -/
inductive Reuse
  | first (v : Option Nat)
  | unlock (v : Option Nat)
  | second (v : Option Nat)
  | cleanup (v : Option Nat)
  | done

def reuse : Prog Reuse Nat where
  n := 1
  act _ l := match l with
    | .first v => .acquire 0 v
    | .unlock (some l) => .release l
    | .second v => .acquire 0 v
    | .cleanup (some l) => .release l
    | _ => .stop
  next _ l a := match l, a with
    | .first _, .acquired st v => if st = SUCCESS then .unlock v else .cleanup v
    | .unlock v, .released st => if st = SUCCESS then .second v else .unlock v
    | .second _, .acquired st v => if st = SUCCESS then .unlock v else .cleanup v
    | _, _ => .done

/-- **C76 fails** with consequences: after a lock and an unlock, a second acquire that fails leaves the old
pointer in the variable, and the clean-up unlocks a mutex that the thread does not own. -/
theorem stale_lock_violated :
    ∃ s, Reach reuse (start (fun _ => .first none) (fun _ => 0)) s ∧
      step reuse s 0 (.call SUCCESS fun _ => false) = .fault :=
  ⟨_, .step 0 (.call 11 fun _ => false)
      (.step 0 (.call SUCCESS fun _ => false)
        (.step 0 (.call SUCCESS fun _ => false) .refl rfl) rfl) rfl, rfl⟩

end Rcpr.Monitor
