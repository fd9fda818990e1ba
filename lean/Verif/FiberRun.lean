import Verif.FiberAny

/-!
Helpers for `Verif.Props.Fiber`: histories built from lists of calls, and the invariants that relate the
state to the trace.
-/

namespace Rcpr.Fiber
open Rcpr

/-! ### Histories for examples -/

/-- everything succeeds -/
def okO : Oracle := ⟨fun _ => SUCCESS, fun _ => SUCCESS⟩

def legalB (w : Sys) (c : Call) : Bool :=
  !c.isRequest &&
  (match c with
    | .add f => f != 0 && !(w.cur :: w.runq).contains f && (w.call f == none)
    | _ => true) &&
  (w.cur != w.idle || c == .run) && (w.idle != 0 || w.runq != [])

theorem legalB_ok {w : Sys} {c : Call} (h : legalB w c = true) : Legal w c okO := by
  simp only [legalB, Bool.and_eq_true, Bool.or_eq_true, bne_iff_ne, ne_eq, beq_iff_eq, Bool.not_eq_true'] at h
  obtain ⟨⟨⟨h1, h2⟩, h3⟩, h4⟩ := h
  refine ⟨fun _ => rfl, h1, ?_, ?_, h4⟩
  · intro f hf; subst hf
    simpa [and_assoc] using h2
  · intro hc
    rcases h3 with h | h
    · exact absurd hc h
    · exact h

def ok (cs : List Call) : List (Call × Oracle) := cs.map fun c => (c, okO)

def legalsB : Sys → List Call → Bool
  | _, [] => true
  | w, c :: cs => legalB w c && legalsB (step w c okO).1 cs

theorem legals_of_B : ∀ {cs : List Call} {w : Sys}, legalsB w cs = true → Legals w (ok cs) := by
  intro cs
  induction cs with
  | nil => intro w _; trivial
  | cons c cs ih =>
    intro w h
    simp only [legalsB, Bool.and_eq_true] at h
    exact ⟨legalB_ok h.1, ih h.2⟩

theorem hist_exec {main idle : Nat} : ∀ {cs : List (Call × Oracle)} {w : Sys} {tr : List Item}, Hist main idle w tr →
    Legals w cs → Hist main idle (exec w cs).1 (tr ++ (exec w cs).2) := by
  intro cs
  induction cs with
  | nil => intro w tr h _; simpa [exec] using h
  | cons c cs ih =>
    intro w tr h hl
    obtain ⟨c, o⟩ := c
    have := ih (.step c o h hl.1) hl.2
    simpa [exec] using this

theorem any_exec {main idle : Nat} : ∀ {cs : List (Call × Oracle)} {w : Sys} {tr : List Item}, Any main idle w tr →
    Any main idle (exec w cs).1 (tr ++ (exec w cs).2) := by
  intro cs
  induction cs with
  | nil => intro w tr h; simpa [exec] using h
  | cons c cs ih =>
    intro w tr h
    obtain ⟨c, o⟩ := c
    have := ih (.step c o h)
    simpa [exec] using this

theorem Hist.any {main idle : Nat} {w : Sys} {tr : List Item} (h : Hist main idle w tr) : Any main idle w tr := by
  induction h with
  | init h1 h2 => exact .init h1 h2
  | step c o _ _ ih => exact .step c o ih

/-- a history from the start -/
theorem hist_from {main idle : Nat} {cs : List Call} (h0 : main ≠ 0) (hi : main ≠ idle)
    (h : legalsB (init main idle) cs = true) :
    Hist main idle (exec (init main idle) (ok cs)).1 (exec (init main idle) (ok cs)).2 := by
  simpa using hist_exec (.init h0 hi) (legals_of_B h)

theorem any_from {main idle : Nat} (cs : List (Call × Oracle)) (h0 : main ≠ 0) (hi : main ≠ idle) :
    Any main idle (exec (init main idle) cs).1 (exec (init main idle) cs).2 := by
  simpa using any_exec (.init h0 hi)

theorem step_pop {w w1 : Sys} {c : Call} {o : Oracle} {f : Nat} {q : List Nat} (h : handler w c o = (w1, SUCCESS))
    (hr : w1.runq = f :: q) : (step w c o).1.cur = f ∧ (step w c o).1.runq = q ∧ (step w c o).1.idle = w1.idle ∧
      (step w c o).2.resumes f = true := by
  simp only [step, h, hr, ne_eq, not_true_eq_false, if_false]
  unfold switch
  split <;> exact ⟨rfl, rfl, rfl, by simp [Item.resumes]⟩

theorem yields_append {w w1 : Sys} {c : Call} (hc : c.yields = true) (h : HStep w c w1) :
    ∃ m, w1.runq = w.runq ++ m := by
  cases h with
  | run => exact ⟨[w.cur], rfl⟩
  | idle => exact ⟨[], by simp⟩
  | notifyOneFail => exact ⟨[w.cur], rfl⟩
  | notifyOneNone => exact ⟨[w.cur], rfl⟩
  | notifyOne x f l hl => exact ⟨[f] ++ [w.cur], by simp [bk, bks, setCond, setEv]⟩
  | notifyAllFail => exact ⟨[w.cur], rfl⟩
  | notifyAll x l hl =>
    refine ⟨l ++ [w.cur], ?_⟩
    simp only [bk, (bks_fields l _).2.2.2.2.2.2.1]
    simp [setCond]
  | _ => simp [Call.yields] at hc

/-- the state in which fiber 1 is about to send to fiber 2, and 3 is in the run queue -/
structure Ping (w : Sys) : Prop where
  cur : w.cur = 1
  runq : w.runq = [3]
  call1 : w.call 1 = none
  call2 : w.call 2 = some (.receive 2)
  box1 : w.boxes 1 = some ⟨0, []⟩
  box2 : w.boxes 2 = some ⟨2, []⟩

def pingpong : List Call := [.send 2 5, .send 1 6, .receive 2, .receive 1]

theorem ping_round {w : Sys} (p : Ping w) : Ping (exec w (ok pingpong)).1 := by
  obtain ⟨h1, h2, h3, h4, h5, h6⟩ := p
  constructor <;>
    simp [exec, ok, pingpong, step, handler, sendH, receiveH, front, okO, setBox, setEv, switch, setCall,
      h1, h2, h3, h4, h5, h6]

theorem exec_append : ∀ (cs ds : List (Call × Oracle)) (w : Sys), (exec w (cs ++ ds)).1 = (exec (exec w cs).1 ds).1 := by
  intro cs
  induction cs with
  | nil => intro ds w; rfl
  | cons c cs ih => intro ds w; obtain ⟨c, o⟩ := c; exact ih ds _

theorem pending_append (f : Nat) (tr : List Item) (i : Item) : pending f (tr ++ [i]) = pend f (pending f tr) i := by
  simp [pending]

theorem handler_call (w : Sys) (c : Call) (o : Oracle) : (handler w c o).1.call = w.call := by
  rcases handler_boxes w c o with h | h
  · exact h.call
  · exact h.2.2.1

theorem step_pend (w : Sys) (c : Call) (o : Oracle) (f : Nat) :
    (step w c o).1.call f = pend f (w.call f) (step w c o).2 ∧
    ∀ g c' e, (step w c o).2.next = .ret g c' e → (if g = w.cur then some c else w.call g) = some c' := by
  have hh := handler_call w c o
  have sw : ∀ q g e, (switch { setCall (handler w c o).1 w.cur c with runq := q } g e).1.call f =
      pend f (w.call f) ⟨w.cur, c, (switch { setCall (handler w c o).1 w.cur c with runq := q } g e).2⟩ ∧
      ∀ g' c' e', (switch { setCall (handler w c o).1 w.cur c with runq := q } g e).2 = .ret g' c' e' →
        (if g' = w.cur then some c else w.call g') = some c' := by
    intro q g e
    obtain ⟨a1, a2⟩ := switch_after (w1 := (handler w c o).1) (c := c) (f := g) (q := q) (e := e) hh
    rw [a1.call, a2]
    have hp : (if f = g then none else inside w c f) = pend f (w.call f) ⟨w.cur, c, nextOf (inside w c g) g e⟩ := by
      have : pend f (w.call f) ⟨w.cur, c, nextOf (inside w c g) g e⟩
          = if g = f then none else if w.cur = f then some c else w.call f := by
        cases inside w c g <;> rfl
      rw [this]
      unfold inside
      by_cases h1 : f = g
      · simp [h1]
      · rw [if_neg h1, if_neg (Ne.symm h1)]
        by_cases h2 : f = w.cur
        · simp [h2]
        · rw [if_neg h2, if_neg (Ne.symm h2)]
    refine ⟨hp, ?_⟩
    intro g' c' e' h
    show inside w c g' = _
    cases hi : inside w c g with
    | none => rw [hi] at h; cases h
    | some c'' => rw [hi] at h; cases h; exact hi
  unfold step
  simp only
  split
  · exact ⟨by simp [pend, hh], fun _ _ _ h => by cases h⟩
  · split
    · next g q hq => exact sw q g _
    · split
      · exact sw (handler w c o).1.runq _ _
      · exact ⟨by simp [pend, hh], fun _ _ _ h => by cases h⟩

theorem Any.call {main idle : Nat} {w : Sys} {tr : List Item} (h : Any main idle w tr) :
    ∀ f, w.call f = pending f tr := by
  induction h with
  | init => intro f; rfl
  | @step w tr c o _ ih => intro f; rw [pending_append, (step_pend w c o f).1, ih f]

structure BoxHist (w : Sys) (tr : List Item) (a : Nat) : Prop where
  pre : recvd a tr <+: sent a tr
  eq : ∀ b, w.boxes a = some b → sent a tr = recvd a tr ++ b.msgs
  new : w.mindex < a → sent a tr = [] ∧ recvd a tr = []

theorem Hist.box {main idle : Nat} {w : Sys} {tr : List Item} (h : Hist main idle w tr) (a : Nat) : BoxHist w tr a := by
  induction h with
  | init => exact ⟨by simp [sent, recvd], fun b hb => (by cases hb), fun _ => ⟨rfl, rfl⟩⟩
  | @step w tr c o hh lg ih =>
    rcases step_ok hh.inv lg with ⟨f, hc, h⟩ | h
    · rw [h]
      subst hc
      have e1 : sent a (tr ++ [⟨w.cur, .add f, .fail (o.a 0)⟩]) = sent a tr := by
        rw [sent_append]; simp [sent1]
      have e2 : recvd a (tr ++ [⟨w.cur, .add f, .fail (o.a 0)⟩]) = recvd a tr := by
        rw [recvd_append]; simp [Item.recvd]
      exact ⟨by rw [e1, e2]; exact ih.pre, by rw [e1, e2]; exact ih.eq, by rw [e1, e2]; exact ih.new⟩
    · have b := box_step hh.inv lg h a
      have cr := create_step hh.inv lg h
      have key : ∀ b2, (Fiber.step w c o).1.boxes a = some b2 →
          sent a tr ++ sent1 a (Fiber.step w c o).2 = recvd a tr ++ ((Fiber.step w c o).2.recvd a).toList ++ b2.msgs := by
        intro b2 h2
        rcases b.some b2 h2 with ⟨b1, h1, he⟩ | ⟨h1, h2, h3, h4⟩
        · rw [ih.eq b1 h1, List.append_assoc, he, List.append_assoc]
        · obtain ⟨n1, n2⟩ := ih.new h1
          simp [n1, n2, h2, h3, h4]
      refine ⟨?_, ?_, ?_⟩
      · rw [sent_append, recvd_append]
        cases hb : (Fiber.step w c o).1.boxes a with
        | some b2 => rw [key b2 hb]; exact List.prefix_append _ _
        | none =>
          obtain ⟨h1, h2⟩ := b.none hb
          rw [h1, h2]; simpa using ih.pre
      · intro b2 h2; rw [sent_append, recvd_append]; exact key b2 h2
      · intro hm
        have hb : (Fiber.step w c o).1.boxes a = none := by
          cases hx : (Fiber.step w c o).1.boxes a with
          | none => rfl
          | some b2 => have := (h.inv.j.bidx a (by simp [hx])).2; omega
        obtain ⟨h1, h2⟩ := b.none hb
        have := ih.new (by rcases cr with h | h <;> omega)
        rw [sent_append, recvd_append, h1, h2, this.1, this.2]
        exact ⟨rfl, rfl⟩

structure Made (w : Sys) (tr : List Item) : Prop where
  known : ∀ a, w.boxes a ≠ none → a ∈ created tr
  still : ∀ a ∈ created tr, (∀ it ∈ tr, it.call ≠ .boxClose a) → w.boxes a ≠ none

theorem Hist.made {main idle : Nat} {w : Sys} {tr : List Item} (h : Hist main idle w tr) : Made w tr := by
  induction h with
  | init => exact ⟨fun a h => absurd rfl h, fun a h => by cases h⟩
  | @step w tr c o hh lg ih =>
    rcases step_ok hh.inv lg with ⟨f, hc, h⟩ | h
    · rw [h]
      subst hc
      have e1 : created (tr ++ [⟨w.cur, .add f, .fail (o.a 0)⟩]) = created tr := by
        rw [created_append]; simp [Item.created]
      refine ⟨by rw [e1]; exact ih.known, ?_⟩
      rw [e1]
      intro a ha hn
      exact ih.still a ha fun it hit => hn it (by simp [hit])
    · have cr := create_step hh.inv lg h
      refine ⟨?_, ?_⟩
      · intro a ha
        rw [created_append]
        by_cases hb : w.boxes a = none
        · have h1 := (box_step hh.inv lg h a).back hb ha
          have h2 := (h.inv.j.bidx a ha).2
          rcases cr with cr | cr
          · omega
          · have : a = w.mindex + 1 := by omega
            subst this
            rw [cr.2.1]; simp
        · exact List.mem_append_left _ (ih.known a hb)
      · intro a ha hn
        rw [created_append] at ha
        rcases List.mem_append.1 ha with ha | ha
        · refine (box_step hh.inv lg h a).keep (ih.still a ha fun it hit => hn it (by simp [hit])) ?_
          exact hn _ (by simp)
        · rcases cr with cr | cr
          · rw [cr.2] at ha; cases ha
          · rw [cr.2.1] at ha
            simp only [Option.toList_some, List.mem_singleton] at ha
            subst ha; exact cr.2.2

/-- the run queue node of the first insertion cannot be allocated -/
def noQ : Oracle := ⟨fun k => if k = 0 then ERROR_GENERAL_OUT_OF_MEMORY else SUCCESS, fun _ => SUCCESS⟩

theorem resumes_cur {w : Sys} {c : Call} {o : Oracle} {f : Nat} (h : (step w c o).2.resumes f = true) :
    (step w c o).1.cur = f := by
  have sw : ∀ v g e, (Item.mk w.cur c (switch v g e).2).resumes f = true → (switch v g e).1.cur = f := by
    intro v g e
    unfold switch
    split <;> (intro h; simpa [Item.resumes] using h)
  revert h
  unfold step
  simp only
  split
  · intro h; cases h
  · split
    · exact sw _ _ _
    · split
      · exact sw _ _ _
      · intro h; cases h

theorem Lost.not_resumed {w : Sys} {c : Call} {o : Oracle} {f : Nat} (l : Lost (step w c o).1 f) :
    (step w c o).2.resumes f = false := by
  cases h : (step w c o).2.resumes f with
  | false => rfl
  | true => exact absurd (by simp [resumes_cur h]) l.runs

theorem lost_exec : ∀ {cs : List (Call × Oracle)} {main idle : Nat} {w : Sys} {tr : List Item} {f : Nat},
    Hist main idle w tr → Lost w f → Legals w cs →
    Lost (exec w cs).1 f ∧ ∀ it ∈ (exec w cs).2, it.resumes f = false := by
  intro cs
  induction cs with
  | nil => intro main idle w tr f _ lo _; exact ⟨lo, fun it h => by cases h⟩
  | cons x cs ih =>
    intro main idle w tr f h lo lg
    obtain ⟨c, o⟩ := x
    have l2 := lost_step h.inv lo lg.1
    obtain ⟨i1, i2⟩ := ih (.step c o h lg.1) l2 lg.2
    refine ⟨i1, ?_⟩
    intro it hit
    rcases List.mem_cons.1 hit with hit | hit
    · subst hit
      exact l2.not_resumed
    · exact i2 it hit

structure CondHist (w : Sys) (tr : List Item) (x : Nat) : Prop where
  pre : woken x tr ++ due w x <+: waited x tr
  eq : ∀ l, w.conds x = some l → waited x tr = woken x tr ++ due w x ++ l
  new : w.cindex < x → waited x tr = woken x tr ++ due w x

theorem hstep_cindex {w w1 : Sys} {c : Call} (h : HStep w c w1) : w.cindex ≤ w1.cindex := by
  cases h <;>
    first
    | exact Nat.le_refl _
    | exact Nat.le_succ _
    | (rename_i l _; exact Nat.le_of_eq (bks_fields l (setCond w _ (some []))).2.2.2.2.2.1.symm)

theorem Hist.cond {main idle : Nat} {w : Sys} {tr : List Item} (h : Hist main idle w tr) (x : Nat) :
    CondHist w tr x := by
  induction h with
  | init => exact ⟨by simp [waited, woken, due, Fiber.init], fun l hl => (by cases hl), fun _ => rfl⟩
  | @step w tr c o hh lg ih =>
    rcases step_ok hh.inv lg with ⟨f, hc, h⟩ | h
    · rw [h]
      subst hc
      have e1 : waited x (tr ++ [⟨w.cur, .add f, .fail (o.a 0)⟩]) = waited x tr := by
        rw [waited_append]; simp [waited1]
      have e2 : woken x (tr ++ [⟨w.cur, .add f, .fail (o.a 0)⟩]) = woken x tr := by
        rw [woken_append]; simp [Item.woken]
      exact ⟨by rw [e1, e2]; exact ih.pre, by rw [e1, e2]; exact ih.eq, by rw [e1, e2]; exact ih.new⟩
    · have b := cond_step hh.inv lg h x
      have hci : w.cindex ≤ (Fiber.step w c o).1.cindex := by
        obtain ⟨w1, g, q, e, hs, m, af, _⟩ := h.out
        rw [af.cindex]; exact hstep_cindex hs
      have key : ∀ l2, (Fiber.step w c o).1.conds x = some l2 →
          waited x tr ++ waited1 x (Fiber.step w c o).2 =
            woken x tr ++ ((Fiber.step w c o).2.woken x).toList ++ due (Fiber.step w c o).1 x ++ l2 := by
        intro l2 h2
        rcases b.some l2 h2 with ⟨l, h1, he⟩ | ⟨h1, h2, h3, h4⟩
        · rw [ih.eq l h1]
          simp only [List.append_assoc] at he ⊢
          rw [he]
        · rw [ih.new h1, h3, h2, h4]; simp
      refine ⟨?_, ?_, ?_⟩
      · rw [waited_append, woken_append]
        cases hb : (Fiber.step w c o).1.conds x with
        | some b2 => rw [key b2 hb]; exact List.prefix_append _ _
        | none =>
          obtain ⟨h1, h2⟩ := b.none hb
          have := ih.pre
          rw [h1]
          rw [h2] at this
          simpa using this
      · intro b2 h2; rw [waited_append, woken_append]; exact key b2 h2
      · intro hm
        have hb : (Fiber.step w c o).1.conds x = none := by
          cases hx : (Fiber.step w c o).1.conds x with
          | none => rfl
          | some b2 => have := (h.inv.j.cidx x (by simp [hx])).2; omega
        obtain ⟨h1, h2⟩ := b.none hb
        have := ih.new (by omega)
        rw [waited_append, woken_append, h1, this, h2]
        simp

theorem notify_ring {w w1 : Sys} {c : Call} {o : Oracle} (h : handler w c o = (w1, SUCCESS)) (hne : w1.runq ≠ []) :
    (step w c o).1.cur :: (step w c o).1.runq = w1.runq ∧ (step w c o).1.conds = w1.conds := by
  cases hr : w1.runq with
  | nil => exact absurd hr hne
  | cons f q =>
    obtain ⟨h1, h2, _⟩ := step_pop h hr
    refine ⟨by rw [h1, h2], ?_⟩
    simp only [step, h, hr, ne_eq, not_true_eq_false, if_false]
    unfold switch
    split <;> rfl

/-- What a call returned on the spot: status, and handle if it set one. -/
def Item.answer (i : Item) : Option (Status × Option Nat) :=
  match i.next with
  | .fail st => some (st, none)
  | .ret f c e => if f = i.who then some (result c e) else none
  | .start _ _ => none

theorem create_answer {w w1 : Sys} {c : Call} {o : Oracle} {e : Ev}
    (h : handler w c o = front w1 w.cur e (o.q 0)) (hq : o.q 0 = SUCCESS) :
    (step w c o).2.answer = some (result c e) := by
  have hh : handler w c o = (fr w1 w.cur e, SUCCESS) := by rw [h, front_ok hq]
  simp only [step, hh, ne_eq, not_true_eq_false, if_false]
  simp [fr, switch, Item.answer, setEv, setCall]

end Rcpr.Fiber
