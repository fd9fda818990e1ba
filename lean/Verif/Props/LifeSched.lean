import Verif.LifeInv

/-!
Properties of a disciplined scheduler as an owner: C65, C66, C67.
-/
namespace Rcpr.Life

open Rcpr

/-- C65, the full claim: the program's calls are all defined, and when it has released the fibers it still has
and the scheduler, both releases have succeeded and nothing is left. -/
def Balanced (e : Env) (os : List Do) : Prop :=
  ∃ w, Prog.start.run e os = some w ∧ ∃ s, w.finish e w.st = some (SUCCESS, s) ∧ ∀ i, s.live i = none

instance (s : Sch) (a : Status) (d : Out Disc) (s' : Sch) : Decidable (CleanCall s a d s') :=
  decidable_of_iff ((a ≠ SUCCESS → s'.fibers = s.fibers) ∧ (d = .null → s'.discs = s.discs) ∧
    (s.idle ≠ none → s'.idle = s.idle)) ⟨fun ⟨h1, h2, h3⟩ => ⟨h1, h2, h3⟩, fun h => ⟨h.fibers, h.discs, h.idle⟩⟩

/-- The call makes an added fiber the idle fiber. -/
def Do.takesAdded : Do → Bool
  | .setIdleAdded _ => true
  | _ => false

/-- The call sets or clears the idle fiber itself. -/
def Do.touchesIdle : Do → Bool
  | .setIdle _ | .setIdleAdded _ | .idleExit => true
  | _ => false

/-- A history in which no added fiber is made the idle fiber, and in which no call that failed has changed a
tree and no idle fiber is replaced. -/
def Clean (e : Env) : Prog → List Do → Prop
  | _, [] => True
  | w, o :: os =>
    o.takesAdded = false ∧
    match w.step e o with
    | none => True
    | some (a, d, w') => CleanCall w.sch a d w'.sch ∧ Clean e w' os

instance decClean (e : Env) : (w : Prog) → (os : List Do) → Decidable (Clean e w os)
  | _, [] => isTrue trivial
  | w, o :: os =>
    match h : w.step e o with
    | none => decidable_of_iff (o.takesAdded = false) (by simp [Clean, h])
    | some (a, d, w') =>
      have := decClean e w' os
      decidable_of_iff (o.takesAdded = false ∧ CleanCall w.sch a d w'.sch ∧ Clean e w' os) (by simp [Clean, h])

private theorem takes {o : Do} (h : o.takesAdded = false) (n : Nat) : o ≠ .setIdleAdded n := by
  rintro rfl; cases h

private theorem clean_run {e : Env} (g : e.Good) {os : List Do} {w : Prog} (h : w.Inv) (hc : Clean e w os) :
    ∃ w', w.run e os = some w' ∧ w'.Inv ∧ ∀ en ∈ w.sch.discs, en ∈ w'.sch.discs := by
  induction os generalizing w with
  | nil => exact ⟨w, rfl, h, fun _ h => h⟩
  | cons o os ih =>
    obtain ⟨a, d, w', c, h1, h2, h3⟩ := Prog.step_tri g h (takes hc.1)
    have hc2 := hc.2
    simp only [h1] at hc2
    obtain ⟨w'', h4, h5, h6⟩ := ih (Prog.step_inv h2 h3 hc2.1) hc2.2
    exact ⟨w'', by simp only [Prog.run, h1, h4], h5, fun en hen => h6 en (h3.mono en hen)⟩

/-- C65. Missing: histories that are not `Clean`, for which the claim is false (below). -/
theorem scheduler_balanced_partial {e : Env} (g : e.Good) {os : List Do} (h : Clean e Prog.start os) : Balanced e os := by
  obtain ⟨w, h1, h2, _⟩ := clean_run g Prog.start_inv h
  exact ⟨w, h1, Prog.finish_inv g h2⟩

private theorem willing_clean {e : Env} (g : e.Good) (hw : e.Willing) {os : List Do} {w : Prog} (h : w.Inv)
    (hi : w.sch.idle ≠ none → ∃ en ∈ w.sch.discs, en.id = IO_ID)
    (ho : ∀ o ∈ os, o.touchesIdle = false) : Clean e w os := by
  induction os generalizing w with
  | nil => trivial
  | cons o os ih =>
    have k := ho o (by simp)
    have k1 : ∀ n, o ≠ .setIdle n := by rintro n rfl; cases k
    have k2 : ∀ n, o ≠ .setIdleAdded n := by rintro n rfl; cases k
    have k3 : o ≠ .idleExit := by rintro rfl; cases k
    obtain ⟨a, d, w', c, h1, h2, h3⟩ := Prog.step_tri g h k2
    refine ⟨(by cases o <;> first | rfl | cases k), ?_⟩
    simp only [h1]
    have hidle := h3.idle k1 k3
    have hcl : CleanCall w.sch a d w'.sch := by
      refine ⟨(h3.willing hw).1, (h3.willing hw).2, fun hn => ?_⟩
      rcases hidle with hidle | ⟨hidle, _⟩
      · exact hidle
      · obtain ⟨en, hen, hid⟩ := hi hn
        exact absurd hid (hidle en hen)
    refine ⟨hcl, ih (Prog.step_inv h2 h3 hcl) (fun hn => ?_) fun o ho' => ho o (by simp [ho'])⟩
    rcases hidle with hidle | ⟨_, hidle⟩
    · rw [hidle] at hn
      obtain ⟨en, hen, hid⟩ := hi hn
      exact ⟨en, h3.mono en hen, hid⟩
    · exact hidle

/-- C65, when nothing is refused and the program leaves the idle fiber to the library: no further condition. -/
theorem scheduler_balanced_willing_partial {e : Env} (g : e.Good) (hw : e.Willing) {os : List Do}
    (ho : ∀ o ∈ os, o.touchesIdle = false) : Balanced e os :=
  scheduler_balanced_partial g (willing_clean g hw Prog.start_inv (by simp [Prog.start]) ho)

/-- All is granted but what is asked for at `n`. -/
def refusing (n : Nat) : Env := ⟨fun i => if i = n then ERROR_GENERAL_OUT_OF_MEMORY else SUCCESS, fun _ => SUCCESS⟩

def granting : Env := ⟨fun _ => SUCCESS, fun _ => SUCCESS⟩

theorem granting_good : granting.Good := fun _ => rfl
theorem granting_willing : granting.Willing := fun _ => rfl
theorem refusing_good (n : Nat) : (refusing n).Good := fun _ => rfl

/-- A program of the kind meant. -/
def sample : List Do :=
  [.disc MGMT_ID, .messages MESSAGE_ID, .create, .add true 0, .messages CONDITION_ID, .io, .create, .create, .add true 1,
   .remove 0, .messages MESSAGE_ID, .disc MGMT_ID, .release 0]

example : Balanced granting sample :=
  scheduler_balanced_willing_partial granting_good granting_willing (by decide)

/-- Refusals that leave the trees alone are harmless. -/
example : Balanced (refusing 1) sample ∧ Balanced (refusing 11) sample ∧ Balanced (refusing 15) sample :=
  ⟨scheduler_balanced_partial (refusing_good _) (by decide +kernel),
   scheduler_balanced_partial (refusing_good _) (by decide +kernel),
   scheduler_balanced_partial (refusing_good _) (by decide +kernel)⟩

/-- The status at the end, and what is left. -/
def ending (e : Env) (os : List Do) : Option (Status × List (Option Kind)) :=
  (Prog.start.run e os).bind fun w => (w.finish e w.st).map fun r => (r.1, (List.range r.2.next).map r.2.live)

private theorem balanced_ending {e : Env} {os : List Do} (h : Balanced e os) :
    ∃ l, ending e os = some (SUCCESS, l) ∧ ∀ x ∈ l, x = none := by
  obtain ⟨w, h1, s, h2, h3⟩ := h
  exact ⟨(List.range s.next).map s.live, by simp [ending, h1, h2], by simp [h3]⟩

private theorem unbalanced {e : Env} {os : List Do}
    (h : ((ending e os).all fun r => r.1 ≠ SUCCESS || r.2.any (·.isSome)) = true) : ¬ Balanced e os := by
  intro hb
  obtain ⟨l, h1, h2⟩ := balanced_ending hb
  simp only [h1, Option.all_some, ne_eq, not_true_eq_false, decide_false, Bool.false_or, List.any_eq_true] at h
  obtain ⟨x, h3, h4⟩ := h
  rw [h2 x h3] at h4
  cases h4

/-- C65 fails for a program that follows the documentation of the idle fiber: an added fiber that is made the
idle fiber is released twice. -/
theorem idle_added_violated :
    granting.Good ∧ granting.Willing ∧ ending granting [.create, .add false 0, .setIdleAdded 0] = none ∧
    ¬ Balanced granting [.create, .add false 0, .setIdleAdded 0] :=
  have h : ending granting [.create, .add false 0, .setIdleAdded 0] = none := by decide +kernel
  ⟨granting_good, granting_willing, h, unbalanced (by rw [h]; rfl)⟩

/-- C65 fails when the idle fiber for sockets ends: fiber and stack are left. -/
theorem idle_exit_violated :
    granting.Good ∧ granting.Willing ∧ Balanced granting [.io] ∧ ¬ Balanced granting [.io, .idleExit] ∧
    (ending granting [.io, .idleExit]).map (fun r => (r.1, r.2.filter (· ≠ none))) =
      some (SUCCESS, [some .mem, some .mem, some .map]) :=
  ⟨granting_good, granting_willing, scheduler_balanced_willing_partial granting_good granting_willing (by decide),
    unbalanced (by decide +kernel), by decide +kernel⟩

/-- C65 fails when a program has set an idle fiber and sockets replace it: the first is left. -/
theorem idle_replaced_violated :
    granting.Good ∧ granting.Willing ∧ Balanced granting [.create, .setIdle 0] ∧ Balanced granting [.io, .create, .setIdle 0] ∧
    ¬ Balanced granting [.create, .setIdle 0, .io] :=
  ⟨granting_good, granting_willing, scheduler_balanced_partial granting_good (by decide +kernel),
    scheduler_balanced_partial granting_good (by decide +kernel), unbalanced (by decide +kernel)⟩

/-- C65 fails when a discipline cannot be added for want of memory: it is released although the scheduler has
it, and released again with the scheduler. -/
theorem discipline_add_failure_violated :
    (refusing 4).Good ∧ (Prog.start.step (refusing 4) (.disc MGMT_ID)).map (·.1) = some ERROR_GENERAL_OUT_OF_MEMORY ∧
    ending (refusing 4) [.disc MGMT_ID] = none ∧ ¬ Balanced (refusing 4) [.disc MGMT_ID] :=
  have h : ending (refusing 4) [.disc MGMT_ID] = none := by decide +kernel
  ⟨refusing_good 4, by decide +kernel, h, unbalanced (by rw [h]; rfl)⟩

/-- C65 fails when a fiber cannot be added for want of memory for the run queue: it is reported as not added,
but the scheduler has it, and both release it. -/
theorem fiber_add_failure_violated :
    (refusing 5).Good ∧ ending (refusing 5) [.create, .add false 0] = none ∧
    (((Prog.start.run (refusing 5) [.create]).bind fun w => w.step (refusing 5) (.add false 0)).map fun r =>
      (r.1, r.2.2.sch.fibers.length, r.2.2.mine.length)) = some (ERROR_GENERAL_OUT_OF_MEMORY, 1, 1) ∧
    ¬ Balanced (refusing 5) [.create, .add false 0] :=
  have h : ending (refusing 5) [.create, .add false 0] = none := by decide +kernel
  ⟨refusing_good 5, h, by decide +kernel, unbalanced (by rw [h]; rfl)⟩


/-! ### Disciplines -/

/-- The blocks of a discipline are there. -/
def Disc.Alive (s : St) (d : Disc) : Prop :=
  s.live d.p = some .mem ∧ s.live d.vec = some .mem ∧ s.live d.codes = some .mem

private theorem alive {w : Prog} (h : w.Inv) {en : Entry} (hen : en ∈ w.sch.discs) : en.disc.Alive w.st := by
  have key : ∀ p, 1 ≤ en.disc.own p .mem → w.st.live p = some .mem := by
    intro p hp
    have h1 := h.holds.eq p .mem
    have h2 := total_mem (own := Entry.own) hen p .mem
    simp only [Sch.own] at h1
    simp only [Entry.own] at h2
    by_cases hl : w.st.live p = some .mem
    · exact hl
    · rw [if_neg hl] at h1; omega
  refine ⟨key _ ?_, key _ ?_, key _ ?_⟩ <;> simp only [Disc.own, one_self] <;> omega

private theorem nodup_id {l : List Entry} (h : (l.map (·.id)).Nodup) {a b : Entry} (ha : a ∈ l) (hb : b ∈ l) (hi : a.id = b.id) :
    a = b := by
  induction l with
  | nil => cases ha
  | cons x l ih =>
    simp only [List.map_cons, List.nodup_cons, List.mem_map, not_exists, not_and] at h
    rcases List.mem_cons.1 ha with rfl | ha' <;> rcases List.mem_cons.1 hb with rfl | hb'
    · rfl
    · exact absurd hi.symm (h.1 b hb')
    · exact absurd hi (h.1 a ha')
    · exact ih h.2 ha' hb'

/-- C66: a discipline that was answered is there, and remains there and is answered again as long as the
scheduler exists. Missing: histories that are not `Clean`, for which the claim is false (below). -/
theorem discipline_stable_partial {e : Env} (g : e.Good) {os : List Do} (hc : Clean e Prog.start os) {w w1 : Prog}
    (hr : Prog.start.run e os = some w) {id : Nat} {d : Out Disc} (hs : w.step e (.messages id) = some (SUCCESS, d, w1)) :
    ∃ dd, d = .set dd ∧ dd.Alive w1.st ∧
      ∀ os' w2, Clean e w1 os' → w1.run e os' = some w2 → dd.Alive w2.st ∧
        ∃ w3, w2.step e (.messages id) = some (SUCCESS, .set dd, w3) ∧ w3.sch = w2.sch := by
  obtain ⟨w', h1, h2, _⟩ := clean_run g Prog.start_inv hc
  rw [hr] at h1; cases h1
  obtain ⟨a, d', w', c, h3, h4, h5⟩ := Prog.step_tri g h2 (o := .messages id) (by simp)
  rw [hs] at h3; cases h3
  obtain ⟨⟨k1, k2, k3, k4⟩, k5, k6, k7⟩ := h5.msg id rfl
  obtain ⟨dd, rfl, en, hen, hid, hd⟩ := k3 rfl
  have hinv : w1.Inv := Prog.step_inv h4 h5 ⟨fun h => absurd rfl h, fun h => (by cases h), fun _ => k5⟩
  refine ⟨dd, rfl, hd ▸ alive hinv hen, fun os' w2 hc' hr' => ?_⟩
  obtain ⟨w2', h6, h7, h8⟩ := clean_run g hinv hc'
  rw [hr'] at h6; cases h6
  refine ⟨hd ▸ alive h7 (h8 en hen), ?_⟩
  obtain ⟨a, d', w3, c, i1, i2, i3⟩ := Prog.step_tri g h7 (o := .messages id) (by simp)
  obtain ⟨⟨j1, j2, j3, j4⟩, j5, j6, j7⟩ := i3.msg id rfl
  obtain ⟨rfl, hsch⟩ := j6 en (h8 en hen) hid
  obtain ⟨dd', rfl, en', hen', hid', hd'⟩ := j3 rfl
  simp only [hsch] at hen'
  have : en' = en := nodup_id h7.ids hen' (h8 en hen) (by rw [hid', hid])
  subst this
  exact ⟨w3, by rw [i1, ← hd, ← hd'], hsch⟩

example : ((Prog.start.step (refusing 20) (.messages MESSAGE_ID)).map fun r =>
      (r.1, r.2.1, decide (Clean (refusing 20) r.2.2 [.create, .add true 0, .io]),
        ((r.2.2.run (refusing 20) [.create, .add true 0, .io]).bind fun w => w.step (refusing 20) (.messages MESSAGE_ID)).map fun r =>
          (r.1, r.2.1))) =
    some (SUCCESS, .set ⟨4, 5, 6⟩, true, some (SUCCESS, .set ⟨4, 5, 6⟩)) := by decide +kernel

/-- C66, when nothing is refused: the call succeeds. -/
theorem discipline_granted {e : Env} (g : e.Good) (hw : e.Willing) {os : List Do} (hc : Clean e Prog.start os) {w : Prog}
    (hr : Prog.start.run e os = some w) (id : Nat) :
    ∃ dd w1, w.step e (.messages id) = some (SUCCESS, .set dd, w1) ∧ dd.Alive w1.st := by
  obtain ⟨w', h1, h2, _⟩ := clean_run g Prog.start_inv hc
  rw [hr] at h1; cases h1
  obtain ⟨a, d', w', c, h3, h4, h5⟩ := Prog.step_tri g h2 (o := .messages id) (by simp)
  obtain ⟨_, _, _, k7⟩ := h5.msg id rfl
  cases k7 hw
  obtain ⟨dd, rfl, h6, _⟩ := discipline_stable_partial g hc hr h3
  exact ⟨dd, w', h3, h6⟩

/-- C66 fails after a refusal: the next call reads the discipline that was released. -/
theorem discipline_stable_violated :
    (refusing 6).Good ∧ (Prog.start.step (refusing 6) (.messages MESSAGE_ID)).map (fun r => (r.1, r.2.1)) =
      some (ERROR_GENERAL_OUT_OF_MEMORY, .null) ∧
    Prog.start.run (refusing 6) [.messages MESSAGE_ID, .messages MESSAGE_ID] = none ∧
    Prog.start.run (refusing 6) [.messages MESSAGE_ID, .messages CONDITION_ID] = none :=
  ⟨refusing_good 6, by decide +kernel, by decide +kernel, by decide +kernel⟩

/-! ### Idle fiber -/

/-- All calls that set up sockets have succeeded. -/
def IoOk (e : Env) : Prog → List Do → Prop
  | _, [] => True
  | w, o :: os =>
    match w.step e o with
    | none => True
    | some (a, _, w') => (o = .io → a = SUCCESS) ∧ IoOk e w' os

instance decIoOk (e : Env) : (w : Prog) → (os : List Do) → Decidable (IoOk e w os)
  | _, [] => isTrue trivial
  | w, o :: os =>
    match h : w.step e o with
    | none => isTrue (by simp [IoOk, h])
    | some (a, d, w') =>
      have := decIoOk e w' os
      decidable_of_iff ((o = .io → a = SUCCESS) ∧ IoOk e w' os) (by simp [IoOk, h])

private theorem idle_run {e : Env} (g : e.Good) {os : List Do} {w w' : Prog} (h : w.Inv) (hc : Clean e w os) (hi : IoOk e w os)
    (ho : ∀ o ∈ os, o ≠ .idleExit ∧ o ≠ .disc IO_ID ∧ o ≠ .messages IO_ID) (hr : w.run e os = some w')
    (hid : (∃ en ∈ w.sch.discs, en.id = IO_ID) → w.sch.idle ≠ none) :
    (∃ en ∈ w'.sch.discs, en.id = IO_ID) → w'.sch.idle ≠ none := by
  induction os generalizing w with
  | nil => cases hr; exact hid
  | cons o os ih =>
    obtain ⟨a, d, w1, c, h1, h2, h3⟩ := Prog.step_tri g h (takes hc.1)
    have hc2 := hc.2
    simp only [h1] at hc2
    simp only [IoOk, h1] at hi
    simp only [Prog.run, h1] at hr
    refine ih (Prog.step_inv h2 h3 hc2.1) hc2.2 hi.2 (fun o ho' => ho o (by simp [ho'])) hr ?_
    rintro ⟨en, hen, hen'⟩
    obtain ⟨k1, k2, k3⟩ := ho o (by simp)
    by_cases hex : ∃ en ∈ w.sch.discs, en.id = IO_ID
    · exact h3.keep k1 (hid hex)
    · rcases h3.new en hen with h4 | rfl | rfl | rfl
      · exact absurd ⟨en, h4, hen'⟩ hex
      · exact h3.io rfl (hi.1 rfl) fun en h5 h6 => hex ⟨en, h5, h6⟩
      · exact absurd (by rw [hen']) k2
      · exact absurd (by rw [hen']) k3

/-- C67: once sockets have been set up, there is an idle fiber. Missing: a history in which one such call has
failed, in which the idle fiber has ended, or in which something else was added under the identifier of the
sockets. For the first the claim is false (below). -/
theorem idle_present_partial {e : Env} (g : e.Good) {os : List Do} (hc : Clean e Prog.start os) (hi : IoOk e Prog.start os)
    (ho : ∀ o ∈ os, o ≠ .idleExit ∧ o ≠ .disc IO_ID ∧ o ≠ .messages IO_ID) {w w' : Prog} (hr : Prog.start.run e os = some w)
    {d : Out Disc} (hs : w.step e .io = some (SUCCESS, d, w')) : w'.sch.idle ≠ none := by
  obtain ⟨w1, h1, h2, _⟩ := clean_run g Prog.start_inv hc
  rw [hr] at h1; cases h1
  have hid := idle_run g Prog.start_inv hc hi ho hr (by simp [Prog.start])
  obtain ⟨a, d', w2, c, h3, h4, h5⟩ := Prog.step_tri g h2 (o := .io) (by simp)
  rw [hs] at h3; cases h3
  by_cases hex : ∃ en ∈ w.sch.discs, en.id = IO_ID
  · exact h5.keep (by simp) (hid hex)
  · exact h5.io rfl rfl fun en h6 h7 => hex ⟨en, h6, h7⟩

example {w w' : Prog} {d : Out Disc} (h1 : Prog.start.run (refusing 25) sample = some w)
    (h2 : w.step (refusing 25) .io = some (SUCCESS, d, w')) : w'.sch.idle ≠ none :=
  idle_present_partial (refusing_good 25) (by decide +kernel) (by decide +kernel) (by decide) h1 h2

example : ((Prog.start.step (refusing 12) .io).bind fun r => (r.2.2.step (refusing 12) .io).map fun r' =>
      (r.1, r'.1, r'.2.2.sch.idle)) = some (SUCCESS, SUCCESS, some ⟨8, some ⟨9, 10⟩⟩) := by decide +kernel

/-- C67 fails after a refusal: the discipline was added but the idle fiber could not be created; the next call
succeeds, without idle fiber. -/
theorem idle_present_violated :
    (refusing 8).Good ∧
    ((Prog.start.step (refusing 8) .io).bind fun r => (r.2.2.step (refusing 8) .io).map fun r' =>
      (r.1, r'.1, r'.2.2.sch.idle)) = some (ERROR_GENERAL_OUT_OF_MEMORY, SUCCESS, none) ∧
    Clean (refusing 8) Prog.start [.io, .io] :=
  ⟨refusing_good 8, by decide +kernel, by decide +kernel⟩

end Rcpr.Life
