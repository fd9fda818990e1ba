import Verif.MandelBound

/-! Executions of the mandelbrot example that do not end well. -/
namespace Rcpr.Mandel

open Rcpr Rcpr.Monitor

/-- a call that succeeds -/
def go : Choice := .call SUCCESS fun _ => true

theorem go_succeeds : Succeeds go := fun e w h => by cases h; rfl

theorem exec_append {c : Cfg} : ∀ (r : Run) {s s' : St} (r' : Run), exec c s r = .ok s' → exec c s (r ++ r') = exec c s' r'
  | [], s, s', r', h => by cases h; rfl
  | (t, ch) :: r, s, s', r', h => by
    rw [List.cons_append]
    conv => lhs; unfold exec
    unfold exec at h
    cases hs : step c s t ch with
    | ok s1 => rw [hs] at h; exact exec_append r r' h
    | blocked => rw [hs] at h; cases h
    | fault => rw [hs] at h; cases h

theorem exec_one {c : Cfg} {s s' : St} {t : Nat} {ch : Choice} (h : step c s t ch = .ok s') : exec c s [(t, ch)] = .ok s' := by
  simp only [exec, h]

theorem Inv.go {c : Cfg} {s : St} {t : Nat} (h : Inv c s) (hf : fine (s.loc t) = true) (ht : t ≤ c.jobs) (hm : s.mode t = .run)
    (ho : holds (s.loc t) = true ∨ s.owner 0 = none) (hfin : ∀ f, s.loc t ≠ .finish f) :
    ∃ s', Mandel.step c s t go = .ok s' ∧ Move c s t go s' ∧ Inv c s' := by
  have hb := enabled (c := c) hf ht hm ho hfin
  cases hs : Mandel.step c s t Mandel.go with
  | blocked => exact absurd hs hb
  | fault => exact absurd hs h.no_fault
  | ok s1 => exact ⟨s1, rfl, (step_move hs).2, h.step hs fun e => by cases e⟩

/-- the main thread is at `l`, the workers up to `n` wait to be woken, the others have not begun -/
structure At0 (c : Cfg) (l : At) (n : Nat) (s : St) : Prop extends Inv c s where
  loc0 : s.loc 0 = l
  asleep : ∀ t, t ≠ 0 → t ≤ n → s.mode t = .waiting workerCond 0
  acq : ∀ t, t ≠ 0 → n < t → s.loc t = .acq
  wild : ∀ j, (s.data 0).array j = .wild

theorem begins_at (c : Cfg) : At0 c .setup 0 begins where
  toInv := begins_inv c
  loc0 := rfl
  asleep t h1 h2 := by omega
  acq t h _ := if_neg h
  wild _ := rfl

theorem At0.free {c : Cfg} {l : At} {s : St} {n : Nat} (h : At0 c l n s) (hl : s.mode 0 = .run → holds l = false) : s.owner 0 = none := by
  cases ho : s.owner 0 with
  | none => rfl
  | some t =>
    obtain ⟨h1, h2, h3⟩ := (h.own t).1 ho
    by_cases e : t = 0
    · subst e; rw [h.loc0, hl h2] at h3; cases h3
    · by_cases e' : t ≤ n
      · rw [h.asleep t e e'] at h2; cases h2
      · rw [h.acq t e (by omega)] at h3; cases h3

/-- main makes a step of its own -/
theorem At0.main {c : Cfg} {l l' : At} {s : St} (h : At0 c l 0 s) (hf : fine l = true) (hm : s.mode 0 = .run)
    (ho : holds l = true ∨ l = .setup ∨ l = .acquire) (hfin : ∀ f, l ≠ .finish f)
    (hgo : ∀ s', Move c s 0 Mandel.go s' → s'.loc 0 = l' ∧ ∀ j, (s'.data 0).array j = .wild) :
    ∃ s', Mandel.step c s 0 Mandel.go = .ok s' ∧ At0 c l' 0 s' ∧ Move c s 0 Mandel.go s' := by
  obtain ⟨s', h1, h2, h3⟩ := h.toInv.go (t := 0) (by rw [h.loc0]; exact hf) (Nat.zero_le _) hm
    (by rw [h.loc0]; exact ho.imp id fun e => h.free fun _ => by rcases e with e | e <;> rw [e] <;> rfl)
    (by rw [h.loc0]; exact hfin)
  refine ⟨s', h1, ⟨h3, (hgo s' h2).1, fun t a b => by omega, fun t a b => ?_, (hgo s' h2).2⟩, h2⟩
  rw [h2.loc a]
  exact h.acq t a b

theorem main_asleep {c : Cfg} (hf : 0 < c.frames) : ∃ s3 s5, exec c begins [(0, go), (0, go), (0, go)] = .ok s3 ∧
    At0 c (.tell 0 []) 0 s3 ∧ s3.mode 0 = .run ∧
    exec c s3 [(0, go), (0, go)] = .ok s5 ∧ At0 c (.sleep 0 []) 0 s5 ∧ s5.mode 0 = .waiting mainCond 0 := by
  obtain ⟨s1, e1, h1, m1⟩ := (begins_at c).main (l' := .acquire) rfl rfl (.inr (.inl rfl)) (fun _ e => by cases e) fun s' hm => by
    unfold go at hm
    cases hm with
    | put _ hl => cases hl; exact ⟨rfl, fun _ => rfl⟩
    | fail _ he _ => exact absurd rfl he
    | acq _ _ hl => cases hl
    | rel _ _ hl => cases hl
    | wait _ _ hl => cases hl
    | one _ hl _ => cases hl
    | all _ hl => cases hl
    | acc _ _ hl _ => cases hl
  obtain ⟨s2, e2, h2, m2⟩ := h1.main (l' := .begin 0 []) rfl (h1.run_of (by rw [h1.loc0]; rfl)) (.inr (.inr rfl)) (fun _ e => by cases e) fun s' hm => by
    have hl0 := h1.loc0
    unfold go at hm
    cases hm with
    | acq _ _ hl =>
      rw [hl0] at hl
      cases hl
      refine ⟨?_, h1.wild⟩
      dsimp only
      rw [upd_self, top, if_pos hf]
    | fail _ he _ => exact absurd rfl he
    | put _ hl => rw [hl0] at hl; cases hl
    | rel _ _ hl => rw [hl0] at hl; cases hl
    | wait _ _ hl => rw [hl0] at hl; cases hl
    | one _ hl _ => rw [hl0] at hl; cases hl
    | all _ hl => rw [hl0] at hl; cases hl
    | acc _ _ hl _ => rw [hl0] at hl; cases hl
  obtain ⟨s3, e3, h3, m3⟩ := h2.main (l' := .tell 0 []) rfl (h2.run_of (by rw [h2.loc0]; rfl)) (.inl rfl) (fun _ e => by cases e) fun s' hm => by
    have hl0 := h2.loc0
    unfold go at hm
    cases hm with
    | acc _ _ hl _ =>
      rw [hl0] at hl
      cases hl
      dsimp only
      rw [upd_self, upd_self]
      exact ⟨rfl, h2.wild⟩
    | fail _ he _ => exact absurd rfl he
    | put _ hl => rw [hl0] at hl; cases hl
    | rel _ _ hl => rw [hl0] at hl; cases hl
    | wait _ _ hl => rw [hl0] at hl; cases hl
    | one _ hl _ => rw [hl0] at hl; cases hl
    | all _ hl => rw [hl0] at hl; cases hl
    | acq _ _ hl => rw [hl0] at hl; cases hl
  obtain ⟨s4, e4, h4, m4⟩ := h3.main (l' := .sleep 0 []) rfl (h3.run_of (by rw [h3.loc0]; rfl)) (.inl rfl) (fun _ e => by cases e) fun s' hm => by
    have hl0 := h3.loc0
    unfold go at hm
    cases hm with
    | all _ hl =>
      rw [hl0] at hl
      cases hl
      dsimp only
      rw [upd_self]
      exact ⟨rfl, h3.wild⟩
    | fail _ he _ => exact absurd rfl he
    | put _ hl => rw [hl0] at hl; cases hl
    | rel _ _ hl => rw [hl0] at hl; cases hl
    | wait _ _ hl => rw [hl0] at hl; cases hl
    | one _ hl _ => rw [hl0] at hl; cases hl
    | acc _ _ hl _ => rw [hl0] at hl; cases hl
    | acq _ _ hl => rw [hl0] at hl; cases hl
  have hm4 : s4.mode 0 = .run := by
    have hl0 := h3.loc0
    have hm3 := h3.run_of (t := 0) (by rw [h3.loc0]; rfl)
    unfold go at m4
    cases m4 with
    | all _ hl =>
      dsimp only
      exact wake_run.2 hm3
    | wait _ _ hl => rw [hl0] at hl; cases hl
    | one _ hl _ => rw [hl0] at hl; cases hl
    | _ => exact hm3
  have key : ∀ s', Move c s4 0 go s' → s'.mode 0 = .waiting mainCond 0 ∧ s'.loc 0 = .sleep 0 [] ∧ ∀ j, (s'.data 0).array j = .wild := fun s' hm => by
    have hl0 := h4.loc0
    unfold go at hm
    cases hm with
    | wait _ _ hl =>
      rw [hl0] at hl
      cases hl
      exact ⟨by dsimp only; rw [upd_self], hl0, h4.wild⟩
    | fail _ he _ => exact absurd rfl he
    | put _ hl => rw [hl0] at hl; cases hl
    | rel _ _ hl => rw [hl0] at hl; cases hl
    | all _ hl => rw [hl0] at hl; cases hl
    | one _ hl _ => rw [hl0] at hl; cases hl
    | acc _ _ hl _ => rw [hl0] at hl; cases hl
    | acq _ _ hl => rw [hl0] at hl; cases hl
  obtain ⟨s5, e5, h5, m5⟩ := h4.main (l' := .sleep 0 []) rfl hm4 (.inl rfl) (fun _ e => by cases e) fun s' hm => (key s' hm).2
  exact ⟨s3, s5, by simp only [exec, e1, e2, e3], h3, h3.run_of (by rw [h3.loc0]; rfl), by simp only [exec, e4, e5], h5, (key s5 m5).1⟩

/-- the workers begin and wait -/
def workersRun : Nat → Run
  | 0 => []
  | n + 1 => workersRun n ++ [(n + 1, go), (n + 1, go)]

theorem worker_asleep {c : Cfg} {s : St} {n : Nat} (hn : n < c.jobs) (h : At0 c (.sleep 0 []) n s) (hm : s.mode 0 = .waiting mainCond 0) :
    ∃ s', exec c s [(n + 1, go), (n + 1, go)] = .ok s' ∧ At0 c (.sleep 0 []) (n + 1) s' ∧ s'.mode 0 = .waiting mainCond 0 := by
  have hl := h.acq (n + 1) (by omega) (by omega)
  have hfree := h.free fun e => by rw [hm] at e; cases e
  have hr : s.mode (n + 1) = .run := h.run_of (by rw [hl]; rfl)
  obtain ⟨s1, e1, m1, i1⟩ := h.toInv.go (t := n + 1) (by rw [hl]; rfl) (by omega) hr (.inr hfree) (by rw [hl]; intro _ e; cases e)
  have k1 : s1.loc (n + 1) = .doze ∧ s1.mode = s.mode ∧ s1.data = s.data := by
    unfold go at m1
    cases m1 with
    | acq _ _ k =>
      rw [hl] at k
      cases k
      exact ⟨upd_self _ _ _, rfl, rfl⟩
    | fail _ he _ => exact absurd rfl he
    | put _ k => rw [hl] at k; cases k
    | rel _ _ k => rw [hl] at k; cases k
    | all _ k => rw [hl] at k; cases k
    | one _ k _ => rw [hl] at k; cases k
    | acc _ _ k _ => rw [hl] at k; cases k
    | wait _ _ k => rw [hl] at k; cases k
  obtain ⟨s2, e2, m2, i2⟩ := i1.go (t := n + 1) (by rw [k1.1]; rfl) (by omega) (by rw [k1.2.1]; exact hr) (.inl (by rw [k1.1]; rfl))
    (by rw [k1.1]; intro _ e; cases e)
  have k2 : s2.mode = upd s1.mode (n + 1) (.waiting workerCond 0) ∧ s2.data = s1.data := by
    unfold go at m2
    cases m2 with
    | wait _ _ k =>
      rw [k1.1] at k
      cases k
      exact ⟨rfl, rfl⟩
    | fail _ he _ => exact absurd rfl he
    | put _ k => rw [k1.1] at k; cases k
    | rel _ _ k => rw [k1.1] at k; cases k
    | all _ k => rw [k1.1] at k; cases k
    | one _ k _ => rw [k1.1] at k; cases k
    | acc _ _ k _ => rw [k1.1] at k; cases k
    | acq _ _ k => rw [k1.1] at k; cases k
  have other : ∀ t, t ≠ n + 1 → s2.loc t = s.loc t ∧ s2.mode t = s.mode t := fun t ht =>
    ⟨by rw [m2.loc ht, m1.loc ht], by rw [k2.1, upd_ne _ _ ht, k1.2.1]⟩
  refine ⟨s2, by simp only [exec, e1, e2], ⟨i2, (other 0 (by omega)).1.trans h.loc0, fun t a b => ?_, fun t a b => ?_, ?_⟩,
    (other 0 (by omega)).2.trans hm⟩
  · by_cases e : t = n + 1
    · subst e; rw [k2.1, upd_self]
    · rw [(other t e).2]; exact h.asleep t a (by omega)
  · rw [(other t (by omega)).1]; exact h.acq t a (by omega)
  · rw [k2.2, k1.2.2]; exact h.wild

theorem workers_asleep {c : Cfg} {s : St} (h : At0 c (.sleep 0 []) 0 s) (hm : s.mode 0 = .waiting mainCond 0) : ∀ n ≤ c.jobs,
    ∃ s', exec c s (workersRun n) = .ok s' ∧ At0 c (.sleep 0 []) n s' ∧ s'.mode 0 = .waiting mainCond 0
  | 0, _ => ⟨s, rfl, h, hm⟩
  | n + 1, hn => by
    obtain ⟨s1, e1, h1, m1⟩ := workers_asleep h hm n (by omega)
    obtain ⟨s2, e2, h2, m2⟩ := worker_asleep (by omega) h1 m1
    refine ⟨s2, ?_, h2, m2⟩
    unfold workersRun
    rw [exec_append _ _ e1, e2]

theorem asleep_stuck {c : Cfg} {s : St} (h : At0 c (.sleep 0 []) c.jobs s) (h0 : s.mode 0 = .waiting mainCond 0) : Stuck c s := by
  intro t ch s' hs
  obtain ⟨ht, hm⟩ := step_move hs
  have hmode : ∃ k, s.mode t = .waiting k 0 := by
    by_cases e : t = 0
    · exact ⟨mainCond, e ▸ h0⟩
    · exact ⟨workerCond, h.asleep t e ht⟩
  obtain ⟨k, hk⟩ := hmode
  cases hm with
  | spur _ => rfl
  | resume h _ => rw [hk] at h; cases h
  | fail h _ _ => rw [hk] at h; cases h
  | acq h _ _ => rw [hk] at h; cases h
  | rel h _ _ => rw [hk] at h; cases h
  | wait h _ _ => rw [hk] at h; cases h
  | one h _ _ => rw [hk] at h; cases h
  | all h _ => rw [hk] at h; cases h
  | acc h _ _ _ => rw [hk] at h; cases h
  | put h _ => rw [hk] at h; cases h

theorem workersRun_go : ∀ n, ∀ p ∈ workersRun n, p.2 = go
  | 0, p, h => by cases h
  | n + 1, p, h => by
    unfold workersRun at h
    rcases List.mem_append.1 h with h | h
    · exact workersRun_go n p h
    · simp only [List.mem_cons, List.not_mem_nil, or_false] at h
      rcases h with rfl | rfl <;> rfl

/-- main wakes up without a signal and goes on to write the frame -/
theorem spurious_fault {c : Cfg} {s : St} (hl : 0 < c.lines) (h : At0 c (.sleep 0 []) 0 s) (hm : s.mode 0 = .waiting mainCond 0) :
    exec c s [(0, .spurious), (0, .resume), (0, go)] = .fault := by
  have hn : ¬ c.jobs + 1 ≤ 0 := by omega
  have hfree := h.free fun e => by rw [hm] at e; cases e
  have s1 : step c s 0 .spurious = .ok { s with mode := upd s.mode 0 (.woken mainCond 0) } := by
    unfold step
    rw [if_neg (Nat.not_lt_zero _), hm]
    dsimp only
    simp only [Monitor.step, prog, if_neg hn, hm]
  have s2 : step c { s with mode := upd s.mode 0 (.woken mainCond 0) } 0 .resume = .ok { s with
      mode := upd (upd s.mode 0 (.woken mainCond 0)) 0 .run, owner := upd s.owner 0 (some 0), loc := upd s.loc 0 (.write 0 []) } := by
    unfold step
    rw [if_neg (Nat.not_lt_zero _)]
    dsimp only
    rw [upd_self]
    dsimp only
    simp only [Monitor.step, prog, if_neg hn, upd_self, hfree, answer, h.loc0]
    simp [next, condWait]
  simp only [exec, s1, s2]
  have s3 : ∀ s' : St, s'.mode 0 = .run → s'.loc 0 = .write 0 [] → s'.data = s.data → step c s' 0 go = .fault := by
    intro s' h2 h3 h4
    unfold step
    rw [if_neg (Nat.not_lt_zero _), h2, h3]
    unfold go
    dsimp only
    rw [if_pos]
    rw [h4, List.any_eq_true]
    exact ⟨.wild, List.mem_map.2 ⟨0, List.mem_range.2 hl, h.wild 0⟩, by simp⟩
  have k := s3 { s with
      mode := upd (upd s.mode 0 (.woken mainCond 0)) 0 .run, owner := upd s.owner 0 (some 0), loc := upd s.loc 0 (.write 0 []) }
    (by dsimp only; rw [upd_self]) (by dsimp only; rw [upd_self]) rfl
  rw [k]

/-- the first broadcast fails -/
theorem tell_fails {c : Cfg} {s : St} {e : Status} {w : Nat → Bool} {n : Nat} (he : e ≠ SUCCESS) (h : At0 c (.tell 0 []) n s)
    (hm : s.mode 0 = .run) : ∃ s', step c s 0 (.call e w) = .ok s' ∧ s'.loc 0 = .quit true [] := by
  have hn : ¬ c.jobs + 1 ≤ 0 := by omega
  unfold step
  rw [if_neg (Nat.not_lt_zero _), hm, h.loc0]
  dsimp only
  simp only [Monitor.step, prog, if_neg hn, hm, h.loc0, act, signalAll, if_pos he, answer, next]
  exact ⟨_, rfl, by dsimp only; rw [upd_self]⟩

/-- main waits for the lock that it has -/
structure Locked (c : Cfg) (f : List (List Slot)) (s : St) : Prop extends Shape c s where
  here : s.loc 0 = .quit true f ∨ s.loc 0 = .relock true f

theorem Locked.mode {c : Cfg} {f : List (List Slot)} {s : St} (h : Locked c f s) : s.mode 0 = .run := by
  refine h.run_of ?_
  rcases h.here with e | e <;> rw [e] <;> rfl

theorem Locked.owner {c : Cfg} {f : List (List Slot)} {s : St} (h : Locked c f s) : s.owner 0 = some 0 := by
  refine (h.own 0).2 ⟨Nat.zero_le _, h.mode, ?_⟩
  rcases h.here with e | e <;> rw [e] <;> rfl

theorem Locked.move {c : Cfg} {f : List (List Slot)} {s s' : St} {t : Nat} {ch : Choice} (h : Locked c f s) (ht : t ≤ c.jobs) (hm : Move c s t ch s')
    (hc : Succeeds ch) : Locked c f s' := by
  refine ⟨h.toShape.move ht hm, ?_⟩
  by_cases e : t = 0
  · subst e
    have hmd := h.mode
    have ho := h.owner
    have hl := h.here
    cases hm with
    | spur k => rw [hmd] at k; cases k
    | resume k _ => rw [hmd] at k; cases k
    | fail _ he _ => exact absurd (hc _ _ rfl) he
    | acq _ k _ => rw [ho] at k; cases k
    | rel _ _ k => rcases hl with e | e <;> rw [e] at k <;> cases k
    | wait _ _ k => rcases hl with e | e <;> rw [e] at k <;> cases k
    | one _ k _ => rcases hl with e | e <;> rw [e] at k <;> cases k
    | all _ k => rcases hl with e | e <;> rw [e] at k <;> cases k
    | acc _ _ k _ => rcases hl with e | e <;> rw [e] at k <;> cases k
    | put _ k =>
      rcases hl with e | e <;> rw [e] at k <;> cases k
      exact .inr (by dsimp only [Mandel.put]; rw [upd_self])
  · rw [hm.loc (Ne.symm e)]; exact h.here

theorem Locked.exec {c : Cfg} {f : List (List Slot)} : ∀ (r : Run) {s s' : St}, Locked c f s → Succeed r → exec c s r = .ok s' → Locked c f s'
  | [], s, s', h, _, e => by cases e; exact h
  | (t, ch) :: r, s, s', h, hc, e => by
    unfold Mandel.exec at e
    cases hs : step c s t ch with
    | blocked => rw [hs] at e; cases e
    | fault => rw [hs] at e; cases e
    | ok s1 =>
      rw [hs] at e
      obtain ⟨ht, hm⟩ := step_move hs
      exact Locked.exec r (h.move ht hm (hc (t, ch) List.mem_cons_self)) (fun p hm => hc p (List.mem_cons_of_mem _ hm)) e

theorem exec_shape {c : Cfg} : ∀ (r : Run) {s s' : St}, Shape c s → exec c s r = .ok s' → Shape c s'
  | [], s, s', h, e => by cases e; exact h
  | (t, ch) :: r, s, s', h, e => by
    unfold Mandel.exec at e
    cases hs : step c s t ch with
    | blocked => rw [hs] at e; cases e
    | fault => rw [hs] at e; cases e
    | ok s1 =>
      rw [hs] at e
      obtain ⟨ht, hm⟩ := step_move hs
      exact exec_shape r (h.move ht hm) e

end Rcpr.Mandel
