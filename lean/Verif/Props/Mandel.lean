import Verif.MandelHang

/-! Properties C89 and C90: the mandelbrot example. -/
namespace Rcpr.Props.Mandel

open Rcpr Rcpr.Monitor Rcpr.Mandel

/-! C89: what is written. -/

/-- As long as the main thread wakes up only when it is signalled, and whatever fails: nothing undefined happens; the files
that are written are the first frames, each complete, every pixel with the parameters of its frame; and if the main
thread ends normally it has written all frames. Missing: a main thread that wakes up without a signal
(`spurious_violated`). -/
theorem frames_complete_partial (c : Cfg) (r : Run) (hp : Prompt r) :
    exec c begins r ≠ .fault ∧
    ∀ s, exec c begins r = .ok s → ∃ k ≤ c.frames, files s = (List.range k).map (frame c) ∧
      ∀ f, s.loc 0 = .finish f → k = c.frames := by
  obtain ⟨h1, h2⟩ := exec_inv r (begins_inv c) hp
  exact ⟨h1, fun s hs => (h2 s hs).files⟩

/-- No two threads use the shared structure in conflict, `quiesce` excepted when something fails. -/
theorem no_race_partial (c : Cfg) (r : Run) (hp : Prompt r) (s : St) (hs : exec c begins r = .ok s) (x : Field)
    (hx : x = .quiesce → Succeed r) : ¬ Race c s x := by
  have hi := (exec_inv r (begins_inv c) hp).2 s hs
  by_cases h : x = .quiesce
  · subst h
    have hf := exec_fine r begins_fine (hx rfl) hs
    rintro ⟨t, u, _, _, _, _, _, a, b, ha, hb, hab⟩
    have key : ∀ v w, uses (s.loc v) .quiesce = some w → w = false := fun v w hw => by
      have := hf.loc v
      generalize s.loc v = l at *
      cases l <;> simp_all [uses, fine]
    rw [key t a ha, key u b hb] at hab
    cases hab
  · exact hi.no_race h

/-- One wake-up of the main thread without a signal and it uses lines that nobody has drawn: pointers that were
never initialised. -/
theorem spurious_violated (c : Cfg) (hf : 0 < c.frames) (hl : 0 < c.lines) :
    ∃ r, Succeed r ∧ spuriousCount r = 1 ∧ exec c begins r = .fault := by
  obtain ⟨s3, s5, e3, _, _, e5, h5, m5⟩ := main_asleep hf
  refine ⟨[(0, go), (0, go), (0, go)] ++ ([(0, go), (0, go)] ++ [(0, .spurious), (0, .resume), (0, go)]), ?_, rfl, ?_⟩
  · intro p hp e w h
    simp only [List.cons_append, List.nil_append, List.mem_cons, List.not_mem_nil, or_false] at hp
    rcases hp with rfl | rfl | rfl | rfl | rfl | rfl | rfl | rfl <;> cases h <;> rfl
  · rw [exec_append _ _ e3, exec_append _ _ e5]
    exact spurious_fault hl h5 m5

/-! C90: the frames are written, and the program ends. -/

/-- When no call fails, main wakes up only when signalled, and a worker has come to its first wait (or has at least taken the
lock) before main takes the lock: if nothing can happen any more, then main has ended, with all frames written. Missing: without a
worker that is early enough the program may hang (`lost_wakeup_violated`), and after a failure it does (`cleanup_hangs_violated`). -/
theorem frames_finish_partial (c : Cfg) (hl : 0 < c.lines) (r1 r2 : Run) (s1 s : St) (hp : Prompt (r1 ++ r2)) (hs : Succeed (r1 ++ r2))
    (h1 : exec c begins r1 = .ok s1) (hr : Ready c s1) (h2 : exec c s1 r2 = .ok s) (hst : Stuck c s) :
    s.loc 0 = .finish ((List.range c.frames).map (frame c)) := by
  have p1 : Prompt r1 := fun p hm => hp p (List.mem_append_left _ hm)
  have p2 : Prompt r2 := fun p hm => hp p (List.mem_append_right _ hm)
  have k1 : Succeed r1 := fun p hm => hs p (List.mem_append_left _ hm)
  have k2 : Succeed r2 := fun p hm => hs p (List.mem_append_right _ hm)
  have i1 := (exec_inv r1 (begins_inv c) p1).2 s1 h1
  have f1 := exec_fine r1 begins_fine k1 h1
  have l1 : Live c s1 := ⟨i1, f1, hr.2, fun hd => by rcases hr.1 with e | e <;> rw [e] at hd <;> cases hd⟩
  have l2 := exec_live hl r2 l1 p2 k2 h2
  obtain ⟨f, hf⟩ := l2.stuck hst
  obtain ⟨k, _, hk, hfin⟩ := l2.toInv.files
  have := hfin f hf
  subst this
  have : files s = f := by unfold files; rw [hf]
  rw [hf, ← this, hk]
  rfl

/-- When no call fails, an execution has at most this many steps: together with `frames_finish_partial`, main does end
unless threads wake up without a signal for ever. -/
theorem steps_bounded (c : Cfg) (r : Run) (s : St) (hs : Succeed r) (h : exec c begins r = .ok s) :
    r.length ≤ most c + 6 * spuriousCount r := by
  have key := exec_left r (begins_orderly c) hs h
  rw [left_begins] at key
  have hc : ∀ r : Run, (r.map fun p => cost p.2).sum = 6 * spuriousCount r := fun r => by
    unfold spuriousCount
    induction r with
    | nil => rfl
    | cons p r ih =>
      obtain ⟨t, ch⟩ := p
      rw [List.map_cons, List.sum_cons, ih, List.countP_cons]
      cases ch <;> simp [cost] <;> omega
  rw [hc] at key
  have : most c = c.frames * perFrame c + c.lines * perLine c + 2 * c.jobs + 2 := rfl
  omega

/-- If main is quicker than the workers they all wait for ever: its broadcast reaches nobody, and the workers wait without
looking. Whatever the configuration, with no failure and no spurious wake-up. -/
theorem lost_wakeup_violated (c : Cfg) (hf : 0 < c.frames) :
    ∃ r s, Succeed r ∧ spuriousCount r = 0 ∧ exec c begins r = .ok s ∧ Stuck c s ∧ files s = [] ∧ ∀ f, s.loc 0 ≠ .finish f := by
  obtain ⟨s3, s5, e3, _, _, e5, h5, m5⟩ := main_asleep hf
  obtain ⟨s, e, h, m⟩ := workers_asleep h5 m5 c.jobs (Nat.le_refl _)
  have hgo : ∀ p ∈ [(0, go), (0, go), (0, go)] ++ ([(0, go), (0, go)] ++ workersRun c.jobs), p.2 = go := by
    intro p hp
    rcases List.mem_append.1 hp with hp | hp
    · simp only [List.mem_cons, List.not_mem_nil, or_false] at hp
      rcases hp with rfl | rfl | rfl <;> rfl
    · rcases List.mem_append.1 hp with hp | hp
      · simp only [List.mem_cons, List.not_mem_nil, or_false] at hp
        rcases hp with rfl | rfl <;> rfl
      · exact workersRun_go _ p hp
  refine ⟨[(0, go), (0, go), (0, go)] ++ ([(0, go), (0, go)] ++ workersRun c.jobs), s, ?_, ?_, ?_, asleep_stuck h m, ?_, ?_⟩
  · intro p hp e w h
    rw [hgo p hp] at h
    cases h
    rfl
  · unfold spuriousCount
    rw [List.countP_eq_zero]
    intro p hp
    rw [hgo p hp]
    simp [go]
  · rw [exec_append _ _ e3, exec_append _ _ e5, e]
  · unfold files; rw [h.loc0]
  · rw [h.loc0]; intro f e; cases e

/-- After a failed broadcast, or a failed wait, main goes to its clean-up with the lock held and takes the lock once more: it
waits for itself, whatever the others do. -/
theorem cleanup_hangs (c : Cfg) (r r' : Run) (s s' : St) (f : List (List Slot)) (h : exec c begins r = .ok s)
    (hl : s.loc 0 = .quit true f) (hs : Succeed r') (h' : exec c s r' = .ok s') :
    s'.loc 0 = .quit true f ∨ s'.loc 0 = .relock true f := by
  exact (Locked.exec r' ⟨exec_shape r (begins_inv c).toShape h, .inl hl⟩ hs h').here

/-- And this happens: whatever the error of the first broadcast. -/
theorem cleanup_hangs_violated (c : Cfg) (hf : 0 < c.frames) (e : Status) (w : Nat → Bool) (he : e ≠ SUCCESS) :
    ∃ r s, Succeed r ∧ spuriousCount r = 0 ∧ exec c begins (r ++ [(0, .call e w)]) = .ok s ∧
      ∀ r' s', Succeed r' → exec c s r' = .ok s' → s'.loc 0 = .quit true [] ∨ s'.loc 0 = .relock true [] := by
  obtain ⟨s3, s5, e3, h3, m3, _⟩ := main_asleep hf
  obtain ⟨s, e4, hl⟩ := tell_fails (w := w) he h3 m3
  have ex : exec c begins ([(0, go), (0, go), (0, go)] ++ [(0, .call e w)]) = .ok s := by
    rw [exec_append _ _ e3]; exact exec_one e4
  refine ⟨[(0, go), (0, go), (0, go)], s, ?_, rfl, ex, fun r' s' hs h' => cleanup_hangs c _ r' s s' [] ex hl hs h'⟩
  intro p hp e w h
  simp only [List.mem_cons, List.not_mem_nil, or_false] at hp
  rcases hp with rfl | rfl | rfl <;> cases h <;> rfl

/-! A run with one worker, two lines of one pixel, two frames: the worker is early, wakes up once without a signal, and everything is
written. -/

def small : Cfg := ⟨1, 2, 1, 2⟩

def times (n t : Nat) : Run := List.replicate n (t, go)

/-- the worker draws a line: test, take, unlock, draw, draw (no more pixels), lock, save -/
def smallRun : Run :=
  [(1, go), (1, go), (1, .spurious), (1, .resume)] ++ times 3 1 ++ -- look, test, wait
  times 5 0 ++ [(1, .resume)] ++ times 1 1 ++ times 7 1 ++ times 7 1 ++ times 3 1 ++ -- ..., report, test, wait
  [(0, .resume)] ++ times 4 0 ++ -- write, begin, tell, wait
  [(1, .resume)] ++ times 1 1 ++ times 7 1 ++ times 7 1 ++ times 3 1 ++
  [(0, .resume)] ++ times 1 0

def ended (x : Out St) : Bool :=
  match x with
  | .ok s => s.loc 0 == .finish ((List.range 2).map (frame small)) && s.mode 1 == .waiting workerCond 0
  | _ => false

theorem small_ends : ended (exec small begins smallRun) = true := by decide +kernel

theorem small_ok : ∃ s, exec small begins smallRun = .ok s ∧ s.loc 0 = .finish ((List.range 2).map (frame small)) ∧
    s.mode 1 = .waiting workerCond 0 := by
  have h := small_ends
  cases e : exec small begins smallRun with
  | ok s =>
    rw [e] at h
    simp only [ended, Bool.and_eq_true, beq_iff_eq] at h
    exact ⟨s, rfl, h⟩
  | blocked => rw [e] at h; cases h
  | fault => rw [e] at h; cases h

theorem small_prompt : Prompt smallRun := by
  have : ∀ p ∈ smallRun, (match p.2 with | .spurious => p.1 != 0 | _ => true) = true := by decide +kernel
  intro p hp e
  have := this p hp
  rw [e] at this
  simpa using this

theorem small_succeed : Succeed smallRun := by
  have : ∀ p ∈ smallRun, (match p.2 with | .call e _ => e == SUCCESS | _ => true) = true := by decide +kernel
  intro p hp e w h
  have := this p hp
  rw [h] at this
  simpa using this

theorem small_stuck {s : St} (h0 : ∃ f, s.loc 0 = .finish f) (hm0 : s.mode 0 = .run) (h1 : s.mode 1 = .waiting workerCond 0) : Stuck small s := by
  intro t ch s' hs
  obtain ⟨ht, hm⟩ := step_move hs
  obtain ⟨f, h0⟩ := h0
  have : t = 0 ∨ t = 1 := by simp [small] at ht; omega
  rcases this with rfl | rfl
  · cases hm with
    | spur _ => rfl
    | resume h _ => rw [hm0] at h; cases h
    | fail _ _ k => rw [h0] at k; cases k
    | acq _ _ k => rw [h0] at k; cases k
    | rel _ _ k => rw [h0] at k; cases k
    | wait _ _ k => rw [h0] at k; cases k
    | one _ k _ => rw [h0] at k; cases k
    | all _ k => rw [h0] at k; cases k
    | acc _ _ k _ => rw [h0] at k; cases k
    | put _ k => rw [h0] at k; cases k
  · cases hm with
    | spur _ => rfl
    | resume h _ => rw [h1] at h; cases h
    | fail h _ _ => rw [h1] at h; cases h
    | acq h _ _ => rw [h1] at h; cases h
    | rel h _ _ => rw [h1] at h; cases h
    | wait h _ _ => rw [h1] at h; cases h
    | one h _ _ => rw [h1] at h; cases h
    | all h _ => rw [h1] at h; cases h
    | acc h _ _ _ => rw [h1] at h; cases h
    | put h _ => rw [h1] at h; cases h

/-- the worker's first wait fails; main starts the first frame -/
def failRun (e : Status) (w : Nat → Bool) : Run := [(1, go), (1, .call e w)] ++ times 2 1 ++ times 5 0

/-- One failed wait of a worker: it sets `quiesce` and returns, and tells nobody. Main waits for the frame for ever; no frame is written and the
program does not end. -/
theorem worker_failure_hangs_violated (w : Nat → Bool) :
    ∃ s, exec small begins (failRun ERROR_THREAD_COND_WAIT w) = .ok s ∧ spuriousCount (failRun ERROR_THREAD_COND_WAIT w) = 0 ∧ Stuck small s ∧
      files s = [] ∧ s.loc 0 = .sleep 0 [] ∧ s.mode 0 = .waiting mainCond 0 := by
  have key : ∃ s, exec small begins (failRun ERROR_THREAD_COND_WAIT w) = .ok s ∧ s.loc 0 = .sleep 0 [] ∧ s.mode 0 = .waiting mainCond 0 ∧
      s.loc 1 = .over false ∧ s.mode 1 = .run := ⟨_, rfl, by decide, by decide, by decide, by decide⟩
  obtain ⟨s, h, h0, m0, h1, m1⟩ := key
  refine ⟨s, h, rfl, ?_, by unfold files; rw [h0], h0, m0⟩
  intro t ch s' hs
  obtain ⟨ht, hm⟩ := step_move hs
  have : t = 0 ∨ t = 1 := by simp [small] at ht; omega
  rcases this with rfl | rfl
  · cases hm with
    | spur _ => rfl
    | resume h _ => rw [m0] at h; cases h
    | fail h _ _ => rw [m0] at h; cases h
    | acq h _ _ => rw [m0] at h; cases h
    | rel h _ _ => rw [m0] at h; cases h
    | wait h _ _ => rw [m0] at h; cases h
    | one h _ _ => rw [m0] at h; cases h
    | all h _ => rw [m0] at h; cases h
    | acc h _ _ _ => rw [m0] at h; cases h
    | put h _ => rw [m0] at h; cases h
  · cases hm with
    | spur _ => rfl
    | resume h _ => rw [m1] at h; cases h
    | fail _ _ k => rw [h1] at k; cases k
    | acq _ _ k => rw [h1] at k; cases k
    | rel _ _ k => rw [h1] at k; cases k
    | wait _ _ k => rw [h1] at k; cases k
    | one _ k _ => rw [h1] at k; cases k
    | all _ k => rw [h1] at k; cases k
    | acc _ _ k _ => rw [h1] at k; cases k
    | put _ k => rw [h1] at k; cases k

example : ∃ s, exec small begins smallRun = .ok s ∧ files s = [frame small 0, frame small 1] := by
  obtain ⟨s, h, h0, _⟩ := small_ok
  exact ⟨s, h, by unfold files; rw [h0]; rfl⟩

/-- the hypotheses of `frames_finish_partial` are met by this run -/
example : ∃ r1 r2 s1 s, Prompt (r1 ++ r2) ∧ Succeed (r1 ++ r2) ∧ exec small begins r1 = .ok s1 ∧ Ready small s1 ∧
    exec small s1 r2 = .ok s ∧ Stuck small s := by
  obtain ⟨s, h, h0, h1⟩ := small_ok
  have e1 : step small begins 1 go = .ok (match step small begins 1 go with | .ok s => s | _ => begins) := rfl
  refine ⟨[(1, go)], smallRun.tail, _, s, small_prompt, small_succeed, exec_one e1, ⟨.inl rfl, 1, by decide, by decide, by decide⟩, ?_, ?_⟩
  · rw [← exec_append _ _ (exec_one e1)]; exact h
  · refine small_stuck ⟨_, h0⟩ ?_ h1
    exact ((exec_inv smallRun (begins_inv small) small_prompt).2 s h).run_of (by rw [h0]; rfl)

end Rcpr.Props.Mandel
