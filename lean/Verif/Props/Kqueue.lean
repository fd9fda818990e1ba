import Verif.Props.Poll

/-!
C52 on the kqueue platform: all executions of fibers that wait on sockets and of the idle fiber. The full claim fails if
two fibers wait for the same on one descriptor (`kqueue_lost_waiter_violated`) and if the flush of a full array of changes
fails (`kqueue_flush_failure_violated`).
-/
namespace Rcpr.Kqueue

open Rcpr

/-- An execution so far: the context, the wake-ups that were put on the run queue, the fibers that wait, and all waits that
were ever begun. -/
structure Sys where
  ctx : Ctx
  wakes : List Poll.Wake
  waiting : List Reg
  begun : List Reg

/-- What a wait is answered with: the fiber, and the event of its side. -/
def key (r : Reg) : Nat × Int := (r.fib, if r.read then 0 else 1)

/-- The executions. A fiber that does not wait may begin to wait; the kernel may report what is registered, and the run
queue takes all wake-ups. With `excl` a fiber does not begin to wait where another one waits for the same; the flush of a
full array succeeds. -/
inductive Reach (excl : Bool) : Sys → Prop
  | start : Reach excl ⟨⟨[], []⟩, [], [], []⟩
  | wait (s : Sys) (r : Reg) (c : Ctx) : Reach excl s → (∀ x ∈ s.waiting, x.fib ≠ r.fib) →
      (excl = true → ∀ x ∈ s.waiting, ¬ (x.fd = r.fd ∧ x.read = r.read)) →
      wait 0 s.ctx r = some (c, SUCCESS) → Reach excl ⟨c, s.wakes, s.waiting ++ [r], s.begun ++ [r]⟩
  | pass (s : Sys) (os : List Out) (add : List Poll.Wake → Status) (c : Ctx) (new : List Poll.Wake) : Reach excl s →
      KernelMayReport s.ctx os → (∀ q, add q = SUCCESS) → idlePass add s.ctx s.wakes os = (c, s.wakes ++ new, SUCCESS) →
      Reach excl ⟨c, s.wakes ++ new, s.waiting.filter (fun r => !(new.map (·.fib)).contains r.fib), s.begun⟩

/-- The registrations that are in force at the next call of `kevent`. -/
def Ctx.force (c : Ctx) : List Reg := c.inputs.foldl evAdd c.kernel

theorem mem_evAdd (k : List Reg) (r x : Reg) :
    x ∈ evAdd k r ↔ (x ∈ k ∧ ¬ (x.fd = r.fd ∧ x.read = r.read)) ∨ x = r := by
  simp [evAdd, List.mem_append, List.mem_filter]
  grind

theorem inj_of_nodup {l : List Reg} (h : (l.map (·.fib)).Nodup) : ∀ a ∈ l, ∀ b ∈ l, a.fib = b.fib → a = b := by
  induction l with
  | nil => intro a ha; nomatch ha
  | cons c l ih =>
    obtain ⟨h1, h2⟩ := List.nodup_cons.1 h
    intro a ha b hb e
    rcases List.mem_cons.1 ha with rfl | ha' <;> rcases List.mem_cons.1 hb with rfl | hb'
    · rfl
    · exact absurd (List.mem_map.2 ⟨b, hb', e.symm⟩) h1
    · exact absurd (List.mem_map.2 ⟨a, ha', e⟩) h1
    · exact ih h2 a ha' b hb' e

/-- What holds in every execution with `excl`. -/
structure Inv (s : Sys) : Prop where
  room : s.ctx.inputs.length < MAX_INPUTS
  force : ∀ x, x ∈ s.ctx.force ↔ x ∈ s.waiting
  fibs : (s.waiting.map (·.fib)).Nodup
  keys : (s.begun.map key).Perm (s.waiting.map key ++ s.wakes.map fun w => (w.fib, w.event))

theorem reach_inv {s : Sys} (h : Reach true s) : Inv s := by
  induction h with
  | start => exact ⟨by decide, by simp [Ctx.force], by simp, by simp⟩
  | wait s r c _ hf hx hw ih =>
    obtain ⟨c', st, e, e1, e2⟩ := kqueue_wait 0 s.ctx ih.room r
    rw [hw] at e
    cases e
    have e3 : c.force = evAdd s.ctx.force r := by
      rw [Ctx.force, e2 rfl, List.foldl_append]; rfl
    refine ⟨e1, fun x => ?_, ?_, ?_⟩
    · simp only [e3, mem_evAdd, ih.force, List.mem_append, List.mem_singleton]
      exact ⟨fun h => h.imp (·.1) id, fun h => h.imp (fun h => ⟨h, hx rfl x h⟩) id⟩
    · simp only [List.map_append, List.map_cons, List.map_nil, List.nodup_append, ih.fibs, true_and]
      refine ⟨by simp, ?_⟩
      intro a ha b hb
      simp only [List.mem_map, List.mem_singleton] at ha hb
      obtain ⟨x, hx1, rfl⟩ := ha
      subst hb
      exact hf x hx1
    · simp only [List.map_append, List.map_cons, List.map_nil]
      refine (ih.keys.append_right _).trans ?_
      simp only [List.append_assoc]
      exact List.Perm.append_left _ List.perm_append_comm
  | pass s os add c new _ hk hadd hp ih =>
    obtain ⟨hk1, hk2⟩ := hk
    have hl := loop_spec add hadd os s.wakes
    simp only [idlePass, hl, Prod.mk.injEq, and_true] at hp
    obtain ⟨rfl, hn⟩ := hp
    have hn := (List.append_cancel_left hn).symm
    have hfib : new.map (·.fib) = (os.map Out.reg).map (·.fib) := by
      rw [hn]; simp [Function.comp_def]
    have hkey : (new.map fun w => (w.fib, w.event)) = (os.map Out.reg).map key := by
      rw [hn]; simp [Function.comp_def, key]
    have hin : ∀ r ∈ os.map Out.reg, r ∈ s.waiting := by
      intro r hr
      obtain ⟨o, ho, rfl⟩ := List.mem_map.1 hr
      exact (ih.force _).1 (hk2 o ho)
    have hpw := List.pairwise_map.1 ih.fibs
    have inj := inj_of_nodup ih.fibs
    have hsel : ∀ x ∈ s.waiting, (x.fib ∈ new.map (·.fib) ↔ x ∈ os.map Out.reg) := by
      intro x hx
      rw [hfib]
      constructor
      · intro h
        obtain ⟨r, hr, e⟩ := List.mem_map.1 h
        rw [← inj r (hin r hr) x hx e]; exact hr
      · exact fun h => List.mem_map.2 ⟨x, h, rfl⟩
    refine ⟨by show 0 < MAX_INPUTS; decide, fun x => ?_, ?_, ?_⟩
    · show x ∈ (s.ctx.force.filter fun x => !(os.map Out.reg).contains x) ↔ _
      simp only [List.mem_filter, ih.force, Bool.not_eq_true', List.contains_eq_mem, decide_eq_false_iff_not]
      exact and_congr_right fun h => not_congr (hsel x h).symm
    · exact ih.fibs.sublist (List.filter_sublist.map _)
    · have hd : s.waiting.Nodup := hpw.imp fun h e => h (congrArg _ e)
      have hperm : (s.waiting.filter fun r => (new.map (·.fib)).contains r.fib).Perm (os.map Out.reg) := by
        rw [List.perm_ext_iff_of_nodup (hd.sublist List.filter_sublist) hk1]
        intro x
        simp only [List.mem_filter, List.contains_eq_mem, decide_eq_true_iff]
        exact ⟨fun h => (hsel x h.1).1 h.2, fun h => ⟨hin x h, (hsel x (hin x h)).2 h⟩⟩
      have hsplit := List.filter_append_perm (fun r : Reg => (new.map (·.fib)).contains r.fib) s.waiting
      refine ih.keys.trans ?_
      rw [List.map_append, hkey]
      have h1 : (s.waiting.map key).Perm ((os.map Out.reg).map key ++
          (s.waiting.filter fun r => !(new.map (·.fib)).contains r.fib).map key) := by
        refine (hsplit.symm.map key).trans ?_
        rw [List.map_append]
        exact (hperm.map key).append_right _
      refine (h1.append_right _).trans ?_
      generalize (os.map Out.reg).map key = A
      generalize (s.waiting.filter fun r => !(new.map (·.fib)).contains r.fib).map key = B
      generalize (s.wakes.map fun w => (w.fib, w.event)) = C
      rw [List.append_assoc]
      refine List.perm_append_comm.trans ?_
      rw [List.append_assoc]

/-- C52 on kqueue (part). In every execution in which no fiber waits where another one waits for the same, and in which no
flush fails: the kernel may report the socket of every fiber that waits, and of no other one; and the waits that were begun
are those of the fibers that wait and those that were answered by one wake-up with the event of their side. Waiting once more
is never out of bounds of the array of changes. -/
theorem kqueue_waiters_partial {s : Sys} (h : Reach true s) :
    (∀ r e f, KernelMayReport s.ctx [⟨r, e, f⟩] ↔ r ∈ s.waiting) ∧
    (s.begun.map key).Perm (s.waiting.map key ++ s.wakes.map fun w => (w.fib, w.event)) ∧
    ∀ nev r, (wait nev s.ctx r).isSome := by
  have i := reach_inv h
  refine ⟨fun r e f => ?_, i.keys, fun nev r => ?_⟩
  · rw [← i.force]
    simp [KernelMayReport, Ctx.force]
  · obtain ⟨c, st, e, _⟩ := kqueue_wait nev s.ctx i.room r
    rw [e]; rfl

/-- Two fibers that wait to read from one descriptor. -/
def r₁ : Reg := ⟨3, true, 10⟩
def r₂ : Reg := ⟨3, true, 11⟩
def r₃ : Reg := ⟨3, false, 12⟩

/-- The code violates the claim: if a second fiber waits for the same on a descriptor, the first is forgotten. -/
theorem kqueue_lost_waiter_violated : ∃ s, Reach false s ∧ r₁ ∈ s.waiting ∧ ∀ e f, ¬ KernelMayReport s.ctx [⟨r₁, e, f⟩] := by
  have h1 := Reach.wait (excl := false) _ r₁ ⟨[r₁], []⟩ .start (by simp) (by simp) rfl
  have h2 := Reach.wait (excl := false) _ r₂ ⟨[r₁, r₂], []⟩ h1 (by decide) (by simp) rfl
  refine ⟨_, h2, by decide, fun e f h => ?_⟩
  have : r₁ ∈ [r₁, r₂].foldl evAdd [] := h.2 ⟨r₁, e, f⟩ (by simp)
  revert this
  decide

/-! ### Cases -/

/-- A reader and a writer of one descriptor; the reader is woken. -/
example : ∃ s, Reach true s ∧ s.waiting = [r₃] ∧ s.begun = [r₁, r₃] ∧ s.wakes = [⟨10, 0, 2#64⟩] := by
  have h1 := Reach.wait (excl := true) _ r₁ ⟨[r₁], []⟩ .start (by simp) (by simp) rfl
  have h2 := Reach.wait (excl := true) _ r₃ ⟨[r₁, r₃], []⟩ h1 (by decide) (by decide) rfl
  have h3 := Reach.pass (excl := true) _ [⟨r₁, false, true⟩] (fun _ => SUCCESS) ⟨[], [r₃]⟩ [⟨10, 0, 2#64⟩] h2
    ⟨by decide, by decide⟩ (fun _ => rfl) rfl
  exact ⟨_, h3, by decide, by decide, rfl⟩

end Rcpr.Kqueue
