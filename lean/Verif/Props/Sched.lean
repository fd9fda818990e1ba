import Verif.Sched

/-!
Properties of creating and releasing a fiber scheduler: C35 and C55.
-/
namespace Rcpr.Sched

open Rcpr

/-- Objects that are still allocated. -/
def leaked (s : St) : List Obj :=
  [.ctx, .fibers, .discs, .queue, .qlist, .cbs, .ctxs, .sched, .main, .qnode, .disc, .dvec, .dcodes, .dnode].filter s.live

theorem leaked_all {s : St} {x : Obj} : x ∈ leaked s ↔ s.live x = true := by
  cases x <;> simp [leaked]

/-- The n-th request is the first that fails; `late` answers those after it. -/
def failAt (n : Nat) (late : Nat → Bool) (k : Nat) : Bool := if k < n then true else if k = n then false else late k

/-- What can be seen of a creation: status, whether the handle was set, what is left allocated. -/
def seen (r : Option (Status × Bool × St)) : Option (Status × Bool × List Obj) :=
  r.map fun (st, h, s) => (st, h, leaked s)

private theorem create_seen (late : Nat → Bool) :
    (∀ n, n < 3 → seen (create (failAt n late) start) = some (ERROR_GENERAL_OUT_OF_MEMORY, false, [])) ∧
    (∀ n, 3 ≤ n → n < 9 → seen (create (failAt n late) start) = some (SUCCESS, false, [])) ∧
    seen (create (failAt 9 late) start) = none ∧
    (∀ n, 10 ≤ n → n < 14 → seen (create (failAt n late) start) = some (ERROR_GENERAL_OUT_OF_MEMORY, false, [.ctx])) ∧
    (∀ n, 14 ≤ n → n < 16 → seen (create (failAt n late) start) = none) ∧
    (∀ n, 16 ≤ n → (create (failAt n late) start).map (fun r => (r.1, r.2.1)) = some (SUCCESS, true)) := by
  refine ⟨?_, ?_, ?_, ?_, ?_, ?_⟩
  · intro n h
    match n, h with
    | 0, _ => rfl
    | 1, _ => rfl
    | 2, _ => rfl
  · intro n h1 h2
    match n, h1, h2 with
    | 3, _, _ => rfl
    | 4, _, _ => rfl
    | 5, _, _ => rfl
    | 6, _, _ => rfl
    | 7, _, _ => rfl
    | 8, _, _ => rfl
  · rfl
  · intro n h1 h2
    match n, h1, h2 with
    | 10, _, _ =>
      have e : create (failAt 10 late) start = create (failAt 10 fun _ => late 11) start := rfl
      rw [e]; generalize late 11 = b; cases b <;> rfl
    | 11, _, _ =>
      have e : create (failAt 11 late) start = create (failAt 11 fun _ => late 12) start := rfl
      rw [e]; generalize late 12 = b; cases b <;> rfl
    | 12, _, _ =>
      have e : create (failAt 12 late) start = create (failAt 12 fun _ => late 13) start := rfl
      rw [e]; generalize late 13 = b; cases b <;> rfl
    | 13, _, _ =>
      have e : create (failAt 13 late) start = create (failAt 13 fun _ => late 14) start := rfl
      rw [e]; generalize late 14 = b; cases b <;> rfl
  · intro n h1 h2
    match n, h1, h2 with
    | 14, _, _ =>
      have e : create (failAt 14 late) start = create (failAt 14 fun _ => late 15) start := rfl
      rw [e]; generalize late 15 = b; cases b <;> rfl
    | 15, _, _ =>
      have e : create (failAt 15 late) start = create (failAt 15 fun _ => late 16) start := rfl
      rw [e]; generalize late 16 = b; cases b <;> rfl
    | n + 16, _, h => omega
  · intro n h
    obtain ⟨m, rfl⟩ := Nat.exists_eq_add_of_le' h
    rfl

/-- C35 (what holds): if one of the first three allocations fails, or one of those for the management
discipline up to its tree node, creation reports the failure and sets no handle. -/
theorem sched_create_reports_partial (late : Nat → Bool) {n : Nat} (h : n < 3 ∨ 10 ≤ n ∧ n < 14) :
    ∃ l, seen (create (failAt n late) start) = some (ERROR_GENERAL_OUT_OF_MEMORY, false, l) := by
  rcases h with h | ⟨h1, h2⟩
  · exact ⟨_, (create_seen late).1 n h⟩
  · exact ⟨_, (create_seen late).2.2.2.1 n h1 h2⟩

private theorem early {ok : Nat → Bool} (h : ∀ k, k < 16 → ok k = true) : ok = fun k => if k < 16 then true else ok k := by
  funext k
  split
  · exact h k ‹_›
  · rfl

/-- C35 (what holds): if the sixteen allocations succeed, so does creation. -/
theorem sched_create_succeeds {ok : Nat → Bool} (h : ∀ k, k < 16 → ok k = true) :
    (create ok start).map (fun r => (r.1, r.2.1)) = some (SUCCESS, true) := by
  rw [early h]; rfl

/-- C35 (violated): if one of the next six allocations fails (run queue, callback and context vectors,
scheduler, main fiber), creation cleans up, reports success and sets no handle. -/
theorem sched_create_reports_violated (late : Nat → Bool) {n : Nat} (h1 : 3 ≤ n) (h2 : n < 9) :
    seen (create (failAt n late) start) = some (SUCCESS, false, []) :=
  (create_seen late).2.1 n h1 h2

/-- C35 (violated): if the run queue node for the main fiber cannot be allocated, the null pointer
`ctx->sched` is used; if a vector cannot be enlarged for the management discipline, the discipline is
released and then released again through the tree. -/
theorem sched_create_undefined_violated (late : Nat → Bool) {n : Nat} (h : n = 9 ∨ n = 14 ∨ n = 15) :
    create (failAt n late) start = none := by
  have hs : seen (create (failAt n late) start) = none := by
    rcases h with rfl | rfl | rfl
    · exact (create_seen late).2.2.1
    · exact (create_seen late).2.2.2.2.1 14 (by decide) (by decide)
    · exact (create_seen late).2.2.2.2.1 15 (by decide) (by decide)
  exact Option.map_eq_none_iff.1 hs

/-- Creation followed by release: the status of the release, and what is left allocated. -/
def createRelease (ok : Nat → Bool) : Option (Bool × List Obj) :=
  (create ok start).bind fun r => (release ok r.2.2).map fun r => (r.1, leaked r.2)

/-- C55 (what holds): releasing a new scheduler is well defined, reclaims no object twice, and leaves
at most the context allocated. -/
theorem sched_release_partial {ok : Nat → Bool} (h : ∀ k, k < 16 → ok k = true) :
    ∃ r l, createRelease ok = some (r, l) ∧ ∀ x ∈ l, x = .ctx := by
  have e : createRelease ok = createRelease (fun k => if k < 16 then true else ok 16) := by
    rw [early h]; rfl
  rw [e]
  generalize ok 16 = b
  cases b
  · exact ⟨false, [.ctx], rfl, by decide⟩
  · exact ⟨true, [.ctx], rfl, by decide⟩

/-- C55 (violated): the context of the scheduler is never reclaimed: not by its release, and not by a
creation that fails after the scheduler proper was made. -/
theorem sched_release_violated {ok : Nat → Bool} (h : ∀ k, k < 16 → ok k = true) :
    createRelease ok = some (ok 16, [.ctx]) := by
  have e : createRelease ok = createRelease (fun k => if k < 16 then true else ok 16) := by
    rw [early h]; rfl
  rw [e]
  generalize ok 16 = b
  cases b <;> rfl

theorem sched_create_leaks_violated (late : Nat → Bool) {n : Nat} (h1 : 10 ≤ n) (h2 : n < 14) :
    seen (create (failAt n late) start) = some (ERROR_GENERAL_OUT_OF_MEMORY, false, [.ctx]) :=
  (create_seen late).2.2.2.1 n h1 h2

end Rcpr.Sched
