import Verif.ThreadLemmas

/-!
C73: releasing a thread waits for it and answers what its function returned, and no thread touches a thread
structure that has been reclaimed, in every interleaving of any number of threads.
-/
namespace Rcpr.Thread

open Rcpr

set_option linter.unusedSimpArgs false

/-- **C73, no use after the reclaim.** If every thread is released at most once and the threads do not release
each other in a circle, no interleaving makes a thread, or the wrapper around its function, or a release touch
a structure that is not allocated. -/
theorem never_undefined_partial (rank : Nat → Nat) (es : List Event) (ho : Orderly rank es) : ¬ Undefined init es := by
  rintro ⟨es', e, w, rfl, hr, hen, hx⟩
  have hod := ho.once
  rw [released_append, List.nodup_append] at hod
  obtain ⟨rel, hinv, hrel⟩ := runs_inv hr [] (init_inv rank)
    ⟨hod.1, fun b j hm => ho.above b j (List.mem_append_left _ hm)⟩ (by simp)
  obtain ⟨w', hx', _⟩ := step_inv hinv hen (by
    intro b j he
    subst he
    refine ⟨?_, ho.above b j (List.mem_append_right _ (List.mem_cons_self ..))⟩
    intro hj
    rcases (hrel j).1 hj with h1 | h1
    · cases h1
    · exact hod.2.2 j h1 j (by simp [released]) rfl)
  rw [hx] at hx'
  cases hx'

/-- **C73, the release waits and answers the exit code.** When a release has returned, the function of the
thread has returned and the thread has ended; the value is the one the function returned, and the structure has
been reclaimed, unless the allocator refused to reclaim it, when the value is what the allocator answered. A
thread function returns once, so the value is the only one there is. -/
theorem exit_code_partial (rank : Nat → Nat) (es : List Event) (w : World) (ho : Orderly rank es)
    (hr : Runs init es w) (j : Nat) (st answer : Status) (hm : (j, st, answer) ∈ w.returned) :
    w.phase j = .ended ∧
    ∃ code, (∀ c, (j, c) ∈ w.finished ↔ c = code) ∧
      (answer = SUCCESS → st = code ∧ w.str j = none) ∧ (answer ≠ SUCCESS → st = answer) := by
  obtain ⟨rel, hinv, _⟩ := runs_inv hr [] (init_inv rank) ho (by simp)
  obtain ⟨code, h1, h2⟩ := hinv.ret j st answer hm
  refine ⟨ret_phase hinv hm, code, ?_, h2⟩
  intro c
  constructor
  · intro hc
    have hu : ∀ l : List (Nat × Status), (l.map (·.1)).Nodup → (j, c) ∈ l → (j, code) ∈ l → c = code := by
      intro l
      induction l with
      | nil => intro _ h; cases h
      | cons x l ih =>
        intro hn ha hb
        simp only [List.map_cons, List.nodup_cons, List.mem_map, not_exists, not_and] at hn
        rcases List.mem_cons.1 ha with ha | ha
        · rcases List.mem_cons.1 hb with hb | hb
          · rw [← hb] at ha
            exact congrArg Prod.snd ha
          · exact absurd (by rw [← ha]) (hn.1 _ hb)
        · rcases List.mem_cons.1 hb with hb | hb
          · exact absurd (by rw [← hb]) (hn.1 _ ha)
          · exact ih hn.2 ha hb
    exact hu _ hinv.finOnce hc h1
  · rintro rfl
    exact h1

/-- **C73, the structure is kept until then.** A thread that nobody has begun to release has its structure,
whatever the other threads do, and once its function has returned the structure holds the value it returned. -/
theorem kept_partial (rank : Nat → Nat) (es : List Event) (w : World) (ho : Orderly rank es) (hr : Runs init es w)
    (j : Nat) (h0 : j ≠ 0) (hj : j < w.count) (hnot : j ∉ released es) :
    ∃ s, w.str j = some s ∧ (w.phase j = .ended → (j, s.exitCode) ∈ w.finished) := by
  obtain ⟨rel, hinv, hrel⟩ := runs_inv hr [] (init_inv rank) ho (by simp)
  obtain ⟨_, s, h1, h2⟩ := hinv.early j h0 hj (Or.inl (by rw [hrel]; simpa using hnot))
  exact ⟨s, h1, fun hp => h2 (Or.inr hp)⟩

/-- **C73, the release returns.** A release that is waiting for a thread that has ended can go on to its end
without any other thread, and then answers the value of that thread. -/
theorem completes_partial (rank : Nat → Nat) (es : List Event) (w : World) (ho : Orderly rank es)
    (hr : Runs init es w) (b j : Nat) (hc : ⟨b, j, .join⟩ ∈ w.calls) (hp : w.phase j = .ended) :
    ∃ w' code, Runs init (es ++ [.joinReturns b j 0, .clears b j, .reclaims b j SUCCESS]) w' ∧
      (j, code) ∈ w.finished ∧ (j, code, SUCCESS) ∈ w'.returned ∧ w'.str j = none := by
  obtain ⟨rel, hinv, _⟩ := runs_inv hr [] (init_inv rank) ho (by simp)
  obtain ⟨hrel, h0, _⟩ := hinv.calls _ hc
  obtain ⟨hnj, s, hs, hse⟩ := hinv.early j h0 (hinv.relLt j hrel) (Or.inr ⟨b, hc⟩)
  have e1 : Enabled w (.joinReturns b j 0) := ⟨hc, by rw [if_pos rfl]; exact ⟨hp, hnj⟩⟩
  obtain ⟨w1, hx1, hi1⟩ := step_join hinv e1
  have hw1 : w1 = { w with calls := ⟨b, j, .clear s.exitCode⟩ :: w.calls.erase ⟨b, j, .join⟩,
                           joined := j :: w.joined } := by
    simpa [exec, hs, afterJoin] using hx1.symm
  have hc1 : ⟨b, j, .clear s.exitCode⟩ ∈ w1.calls := by rw [hw1]; exact List.mem_cons_self ..
  obtain ⟨w2, hx2, hi2⟩ := step_clear hi1 ⟨_, hc1⟩
  have hw2 : w2 = { w1 with str := upd w1.str j (some ⟨false, 0⟩),
                            calls := ⟨b, j, .reclaim s.exitCode⟩ :: w1.calls.erase ⟨b, j, .clear s.exitCode⟩ } := by
    have hs1 : w1.str j = some s := by rw [hw1]; exact hs
    have hf := find_call hi1.uniq hc1
    simp only at hf
    simpa [exec, hs1, hf] using hx2.symm
  have hc2 : ⟨b, j, .reclaim s.exitCode⟩ ∈ w2.calls := by rw [hw2]; exact List.mem_cons_self ..
  obtain ⟨w3, hx3, hi3⟩ := step_reclaim (answer := SUCCESS) hi2 ⟨_, hc2⟩
  have hw3 : w3.returned = (j, s.exitCode, SUCCESS) :: w2.returned ∧ w3.str j = none := by
    have hs2 : w2.str j = some ⟨false, 0⟩ := by rw [hw2]; exact upd_same _ _ _
    have hf := find_call hi2.uniq hc2
    simp only at hf
    have : w3 = { w2 with str := upd w2.str j none, calls := w2.calls.erase ⟨b, j, .reclaim s.exitCode⟩,
                          returned := (j, s.exitCode, SUCCESS) :: w2.returned } := by
      simpa [exec, hs2, hf, afterReclaim] using hx3.symm
    rw [this]
    exact ⟨rfl, upd_same _ _ _⟩
  have happ : ∀ {w0 w es}, Runs w0 es w →
      ∀ {es' w'}, Runs w es' w' → Runs w0 (es ++ es') w' := by
    intro w0 w es h
    induction h with
    | nil => intro es' w' h'; exact h'
    | cons he hx _ ih => intro es' w' h'; exact .cons he hx (ih h')
  refine ⟨w3, s.exitCode, happ hr (.cons e1 hx1 (.cons ⟨_, hc1⟩ hx2 (.cons ⟨_, hc2⟩ hx3 .nil))), hse (Or.inr hp), ?_,
    hw3.2⟩
  rw [hw3.1]
  exact List.mem_cons_self ..

/-! ### What fails without the order -/

/-- **C73 fails** for a thread that releases itself (the documentation promises that the release blocks until
the thread stops): `pthread_join` answers EDEADLK, the running thread's own structure is cleared and reclaimed,
the release answers an error, and when the function returns `thread_start` stores through the freed pointer. -/
theorem self_release_violated :
    Undefined init [.create 0, .start 1, .release 1 1, .joinReturns 1 1 35, .clears 1 1, .reclaims 1 1 SUCCESS,
      .finish 1 7] := by
  refine ⟨[.create 0, .start 1, .release 1 1, .joinReturns 1 1 35, .clears 1 1, .reclaims 1 1 SUCCESS], .finish 1 7,
    _, rfl,
    .cons (by simp [Enabled, Active, init]) rfl <|
    .cons (by simp [Enabled, Active, init, upd]) rfl <|
    .cons (by simp [Enabled, Active, init, upd]) rfl <|
    .cons (by simp [Enabled, Active, init, upd]) rfl <|
    .cons (by simp [Enabled, init, afterJoin]) rfl <|
    .cons (by simp [Enabled, init, afterJoin]) rfl <| .nil, ?_, rfl⟩
  simp [Enabled, Active, init, upd]

/-- **C73 fails** for two threads that release each other: the second join is refused, and the structure of the
first, which is still running, is reclaimed; its function's value is then stored into freed memory. -/
theorem circle_violated :
    Undefined init [.create 0, .create 0, .start 1, .start 2, .release 1 2, .release 2 1, .joinReturns 2 1 35,
      .clears 2 1, .reclaims 2 1 SUCCESS, .finish 2 0, .leave 2, .joinReturns 1 2 0, .clears 1 2,
      .reclaims 1 2 SUCCESS, .finish 1 0] := by
  refine ⟨[.create 0, .create 0, .start 1, .start 2, .release 1 2, .release 2 1, .joinReturns 2 1 35,
      .clears 2 1, .reclaims 2 1 SUCCESS, .finish 2 0, .leave 2, .joinReturns 1 2 0, .clears 1 2,
      .reclaims 1 2 SUCCESS], .finish 1 0, _, rfl,
    .cons (by simp [Enabled, Active, init]) rfl <|
    .cons (by simp [Enabled, Active, init, upd]) rfl <|
    .cons (by simp [Enabled, Active, init, upd]) rfl <|
    .cons (by simp [Enabled, Active, init, upd]) rfl <|
    .cons (by simp [Enabled, Active, init, upd]) rfl <|
    .cons (by simp [Enabled, Active, init, upd]) rfl <|
    .cons ⟨by simp [init], by rw [if_neg (by decide)]; exact Or.inr (Or.inl (.one (by simp)))⟩ rfl <|
    .cons (by simp [Enabled, init, afterJoin]) rfl <|
    .cons (by simp [Enabled, init, afterJoin]) rfl <|
    .cons (by simp [Enabled, Active, init, upd]) rfl <|
    .cons (by simp [Enabled, Active, init, upd]) rfl <|
    .cons (by simp [Enabled, Active, init, upd]) rfl <|
    .cons (by simp [Enabled, init, afterJoin]) rfl <|
    .cons (by simp [Enabled, init, afterJoin]) rfl <| .nil, ?_, rfl⟩
  simp [Enabled, Active, init, upd]

/-! ### A concrete case -/

/-- Two threads; the second is created by the first and released by it; the releases overlap. -/
def demo : List Event :=
  [.create 0, .start 1, .release 0 1, .create 1, .release 1 2, .start 2, .finish 2 9, .leave 2, .joinReturns 1 2 0,
   .clears 1 2, .reclaims 1 2 SUCCESS, .finish 1 7, .leave 1, .joinReturns 0 1 0, .clears 0 1, .reclaims 0 1 SUCCESS]

theorem demo_orderly : Orderly id demo := by
  constructor
  · decide
  · intro b j h
    simp [demo] at h
    simp only [id]
    omega

example : ∃ w, Runs init demo w ∧ w.returned = [(1, 7, SUCCESS), (2, 9, SUCCESS)] ∧ w.str 1 = none ∧ w.str 2 = none := by
  refine ⟨_,
    .cons (by simp [Enabled, Active, init]) rfl <|
    .cons (by simp [Enabled, Active, init, upd]) rfl <|
    .cons (by simp [Enabled, Active, init, upd]) rfl <|
    .cons (by simp [Enabled, Active, init, upd]) rfl <|
    .cons (by simp [Enabled, Active, init, upd]) rfl <|
    .cons (by simp [Enabled, Active, init, upd]) rfl <|
    .cons (by simp [Enabled, Active, init, upd]) rfl <|
    .cons (by simp [Enabled, Active, init, upd]) rfl <|
    .cons (by simp [Enabled, Active, init, upd]) rfl <|
    .cons (by simp [Enabled, init, afterJoin]) rfl <|
    .cons (by simp [Enabled, init, afterJoin]) rfl <|
    .cons (by simp [Enabled, Active, init, upd]) rfl <|
    .cons (by simp [Enabled, Active, init, upd]) rfl <|
    .cons (by simp [Enabled, Active, init, upd]) rfl <|
    .cons (by simp [Enabled, init, afterJoin]) rfl <|
    .cons (by simp [Enabled, init, afterJoin]) rfl <| .nil, ?_, ?_, ?_⟩
  · rfl
  · rfl
  · rfl

example : ¬ Undefined init demo := never_undefined_partial id demo demo_orderly

end Rcpr.Thread
