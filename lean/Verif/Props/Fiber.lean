import Verif.FiberRun

/-!
Properties of the fiber scheduler, of mailboxes and of conditions.

`Hist main idle w tr` says that `w` is reached from the start by calls that are legal (`Legal`), with
trace `tr`; `Any` is the same without restriction. Claims that need the restriction carry `_partial`, and
theorems ending in `_violated` show what happens without it.
-/
namespace Rcpr.Fiber

open Rcpr

/-! ### C29: order of the run queue -/

/-- Plain yields go round the ring of runnable fibers: after `n` of them, whatever their number, fiber
`i` of the ring is the one that was fiber `(i + n) mod` size. -/
theorem round_robin : ∀ (os : List Oracle) (w : Sys), (∀ o ∈ os, ∀ k, o.q k = SUCCESS) →
    w.idle ∉ w.cur :: w.runq → ∀ i, i < (w.cur :: w.runq).length →
    ((exec w (os.map fun o => (.run, o))).1.cur :: (exec w (os.map fun o => (.run, o))).1.runq)[i]? =
      (w.cur :: w.runq)[(i + os.length) % (w.cur :: w.runq).length]? := by
  intro os
  induction os with
  | nil =>
    intro w _ _ i hi
    show (w.cur :: w.runq)[i]? = (w.cur :: w.runq)[(i + 0) % _]?
    rw [Nat.add_zero, Nat.mod_eq_of_lt hi]
  | cons o os ih =>
    intro w ho hidle i hi
    have hc : w.cur ≠ w.idle := fun h => hidle (by simp [h])
    have hh : handler w .run o = (bk w w.cur ⟨.internal, RESUME_RUN, 0⟩, SUCCESS) := by
      simp only [handler, runH, if_neg hc, back_ok (ho o (by simp) 0)]
    obtain ⟨x, l, hx⟩ : ∃ x l, w.runq ++ [w.cur] = x :: l := by
      cases hq : w.runq with
      | nil => exact ⟨_, _, rfl⟩
      | cons x l => exact ⟨_, _, rfl⟩
    obtain ⟨h1, h2, h3, _⟩ := step_pop (f := x) (q := l) hh hx
    have hring : (step w .run o).1.cur :: (step w .run o).1.runq = w.runq ++ [w.cur] := by rw [h1, h2, hx]
    have hlen : ((step w .run o).1.cur :: (step w .run o).1.runq).length = (w.cur :: w.runq).length := by
      rw [hring]; simp
    have hid : (step w .run o).1.idle ∉ (step w .run o).1.cur :: (step w .run o).1.runq := by
      rw [h3, hring]
      show w.idle ∉ _
      intro hm
      apply hidle
      simp only [List.mem_append, List.mem_singleton] at hm
      rcases hm with hm | hm <;> simp [hm]
    have e := ih (step w .run o).1 (fun o' ho' => ho o' (by simp [ho'])) hid i (by rw [hlen]; exact hi)
    show ((exec (step w .run o).1 (os.map fun o => (.run, o))).1.cur :: _)[i]? = _
    refine e.trans ?_
    rw [hlen, hring]
    have hpos : 0 < (w.cur :: w.runq).length := by simp
    have hj : (i + os.length) % (w.cur :: w.runq).length < (w.cur :: w.runq).length := Nat.mod_lt _ hpos
    have hsum : (i + (o :: os).length) % (w.cur :: w.runq).length
        = ((i + os.length) % (w.cur :: w.runq).length + 1) % (w.cur :: w.runq).length := by
      simp [Nat.add_assoc]
    rw [hsum]
    generalize (i + os.length) % (w.cur :: w.runq).length = j at hj
    simp only [List.length_cons] at hj ⊢
    by_cases hjl : j < w.runq.length
    · rw [Nat.mod_eq_of_lt (by omega), List.getElem?_append_left hjl]; simp
    · have : j = w.runq.length := by omega
      subst this; simp

example : let w := (exec (init 1 9) (ok [.add 2, .add 3, .run])).1
    (w.cur :: w.runq) = [2, 3, 1] ∧ w.idle ∉ w.cur :: w.runq := by decide

/-- While the fibers only yield and notify, a queued fiber is resumed when as many calls have been made
as there are fibers ahead of it, plus one. -/
theorem served_in_order : ∀ (i : Nat) (cs : List (Call × Oracle)) (w : Sys),
    (∀ x ∈ cs, x.1.yields = true ∧ ∀ k, x.2.q k = SUCCESS) → i < cs.length → ∀ f, w.runq[i]? = some f →
    (exec w (cs.take (i + 1))).1.cur = f := by
  intro i
  induction i with
  | zero =>
    intro cs w hcs hi f hf
    cases cs with
    | nil => simp at hi
    | cons x cs =>
      obtain ⟨c, o⟩ := x
      obtain ⟨hy, hq⟩ := hcs (c, o) (by simp)
      rcases handler_ok (w := w) hq (c := c) (by cases c <;> simp_all [Call.yields, Call.isRequest]) with
        ⟨w1, h, hs⟩ | ⟨_, h, _⟩
      · obtain ⟨m, hm⟩ := yields_append hy hs
        cases hr : w.runq with
        | nil => simp [hr] at hf
        | cons g q =>
          simp only [hr, List.getElem?_cons_zero, Option.some.injEq] at hf
          subst hf
          rw [hr] at hm
          exact (step_pop h hm).1
      · subst h; simp [Call.yields] at hy
  | succ i ih =>
    intro cs w hcs hi f hf
    cases cs with
    | nil => simp at hi
    | cons x cs =>
      obtain ⟨c, o⟩ := x
      obtain ⟨hy, hq⟩ := hcs (c, o) (by simp)
      rcases handler_ok (w := w) hq (c := c) (by cases c <;> simp_all [Call.yields, Call.isRequest]) with
        ⟨w1, h, hs⟩ | ⟨_, h, _⟩
      · obtain ⟨m, hm⟩ := yields_append hy hs
        cases hr : w.runq with
        | nil => simp [hr] at hf
        | cons g q =>
          simp only [hr, List.getElem?_cons_succ] at hf
          rw [hr] at hm
          obtain ⟨_, h2, _⟩ := step_pop h hm
          refine ih cs (step w c o).1 (fun x hx => hcs x (by simp [hx])) (by simpa using hi) f ?_
          rw [h2]
          show (q ++ m)[i]? = _
          rw [List.getElem?_append_left (List.getElem?_eq_some_iff.1 hf).1, hf]
      · subst h; simp [Call.yields] at hy

example : let w := (exec (init 1 9) (ok [.condCreate, .add 2, .add 3])).1
    w.runq[1]? = some 3 ∧ (exec w (ok [.notifyAll 1, .run])).1.cur = 3 := by decide

/-! ### C54: overtaking -/

/-- C54 (violated): a fiber can yield for the release of a resource as often as it likes; the fibers in
the run queue stay where they are. -/
theorem overtaking_violated : ∀ (n : Nat) (w : Sys),
    (exec w (ok (List.replicate n .release))).1.cur = w.cur ∧
    (exec w (ok (List.replicate n .release))).1.runq = w.runq := by
  intro n
  induction n with
  | zero => intro w; exact ⟨rfl, rfl⟩
  | succ n ih =>
    intro w
    have hh : handler w .release okO = (fr w w.cur ⟨.internal, RESUME_RESOURCE_RELEASE, 0⟩, SUCCESS) := by
      simp only [handler, releaseH, front_ok (show okO.q 0 = SUCCESS from rfl)]
    obtain ⟨h1, h2, _⟩ := step_pop hh rfl
    obtain ⟨e1, e2⟩ := ih (step w .release okO).1
    exact ⟨e1.trans h1, e2.trans h2⟩

/-- C54 (violated): nor do two fibers that pass messages to and fro let a third one run: after any
number of rounds it is still in the run queue. -/
theorem pingpong_violated : let w := (exec (init 1 9) (ok [.boxCreate, .boxCreate, .add 2, .add 3, .run, .receive 2, .run])).1
    3 ∈ w.runq ∧ ∀ n, (exec w (List.replicate n (ok pingpong)).flatten).1.runq = [3] := by
  have h : Ping (exec (init 1 9) (ok [.boxCreate, .boxCreate, .add 2, .add 3, .run, .receive 2, .run])).1 :=
    ⟨by decide, by decide, by decide, by decide, by decide, by decide⟩
  refine ⟨by rw [h.runq]; simp, ?_⟩
  have all : ∀ n (w : Sys), Ping w → Ping (exec w (List.replicate n (ok pingpong)).flatten).1 := by
    intro n
    induction n with
    | zero => intro w h; exact h
    | succ n ih =>
      intro w h
      rw [List.replicate_succ, List.flatten_cons, exec_append]
      exact ih _ (ping_round h)
  exact fun n => (all n _ h).runq

/-! ### C30: every resumption answers the call -/

/-- Every return is a return from the call its fiber made last and that has not returned yet; in
particular each call returns at most once. This holds in all histories. -/
theorem returns_match_calls {main idle : Nat} {w : Sys} {tr : List Item} (h : Any main idle w tr) :
    ∀ tr1 it tr2, tr = tr1 ++ it :: tr2 → ∀ f c e, it.next = .ret f c e →
      (if f = it.who then some it.call else pending f tr1) = some c := by
  induction h with
  | init => intro tr1 it tr2 h; simp at h
  | @step w tr c o hw ih =>
    intro tr1 it tr2 heq f c' e hn
    rcases List.eq_nil_or_concat tr2 with rfl | ⟨tr2', x, rfl⟩
    · have := List.append_inj' heq rfl
      obtain ⟨rfl, hit⟩ := this
      cases hit
      have := (step_pend w c o f).2 f c' e hn
      rw [(step_boxes w c o).2.2.2.2, (step_boxes w c o).2.2.2.1, ← hw.call f]
      exact this
    · have heq' : tr ++ [(step w c o).2] = (tr1 ++ it :: tr2') ++ [x] := by simpa using heq
      obtain ⟨h1, _⟩ := List.append_inj' heq' rfl
      exact ih tr1 it tr2' h1 f c' e hn

example : ∃ w tr, Any 1 0 w tr ∧ ∃ it ∈ tr, it.next = .ret 1 (.send 1 7) ⟨.msg, MSG_SEND_SUCCESS, 0⟩ :=
  ⟨_, _, any_from (ok [.boxCreate, .send 1 7]) (by decide) (by decide), by decide⟩

/-- C30 (what holds): in a legal history a fiber is in the run queue at most once, it does not run while
it is queued, and every resumption hands a fiber an event that answers the call it is inside of. -/
theorem resumed_with_answer_partial {main idle : Nat} {w : Sys} {tr : List Item} (h : Hist main idle w tr) :
    (w.cur :: w.runq).Nodup ∧ ∀ it ∈ tr, match it.next with
      | .ret _ c e => Answers c e
      | .start _ e => Starts e
      | .fail _ => ∃ f, it.call = .add f := by
  refine ⟨h.inv.j.nodup, ?_⟩
  induction h with
  | init => intro it hit; cases hit
  | @step w tr c o hh lg ih =>
    intro it hit
    rcases List.mem_append.1 hit with hit | hit
    · exact ih it hit
    · simp only [List.mem_singleton] at hit
      subst hit
      rcases step_ok hh.inv lg with ⟨f, hc, h⟩ | h
      · rw [h]; exact ⟨f, hc⟩
      · obtain ⟨w1, g, q, e, hs, m, af, heq, hf⟩ := h.out
        rw [heq]
        rcases Out.loose m hf with ⟨h1, h2⟩ | ⟨c', h1, h2⟩
        · rw [h1]; exact h2
        · rw [h1]; exact h2

example : ∃ w tr, Hist 1 9 w tr ∧ tr.length = 9 ∧ w.runq = [2] :=
  ⟨_, _, hist_from (main := 1) (idle := 9)
    (cs := [.condCreate, .boxCreate, .add 2, .run, .wait 1, .notifyOne 1, .receive 1, .send 1 7, .run])
    (by decide) (by decide) (by decide), by decide⟩

/-- C30 (violated): a fiber that was told to terminate while it waited on a condition stays in the
condition's list. A later notification resumes it from a receive, with the event of the condition. -/
theorem resumed_with_answer_violated : ∃ w tr, Any 1 0 w tr ∧ ∃ it ∈ tr, ∃ f c e,
    it.next = .ret f c e ∧ e.disc ≠ .mgmt ∧ ¬ Answers c e :=
  ⟨_, _, any_from (ok [.condCreate, .boxCreate, .add 2, .run, .wait 1, .terminate 2, .receive 1, .notifyOne 1])
    (by decide) (by decide),
    ⟨1, .notifyOne 1, .ret 2 (.receive 1) ⟨.cond, COND_WAIT_SUCCESS, 0⟩⟩, by decide, 2, .receive 1, _, rfl, by decide,
    by simp [Answers]⟩

/-- C30 (violated): a quiesce request for a fiber in the run queue makes it run and leaves it queued. -/
theorem queued_once_violated : ∃ w tr, Any 1 0 w tr ∧ ¬ (w.cur :: w.runq).Nodup :=
  ⟨_, _, any_from (ok [.add 2, .run, .run, .quiesce 2]) (by decide) (by decide), by decide⟩

/-! ### C32: messages -/

/-- C32 (what holds): in a legal history, on every mailbox, the messages received are a beginning of the
messages sent, in order; and while the mailbox is open, those still in it are exactly the rest. -/
theorem messages_fifo_partial {main idle : Nat} {w : Sys} {tr : List Item} (h : Hist main idle w tr) (a : Nat) :
    recvd a tr <+: sent a tr ∧ ∀ b, w.boxes a = some b → sent a tr = recvd a tr ++ b.msgs :=
  ⟨(h.box a).pre, (h.box a).eq⟩

/-- C32 (what holds): when a fiber is blocked in a receive on an open mailbox, every message sent so far
has been received, and the next accepted send resumes this fiber at once with its message. -/
theorem receiver_woken_partial {main idle : Nat} {w : Sys} {tr : List Item} (h : Hist main idle w tr) {a r : Nat}
    (hr : pending r tr = some (.receive a)) (ho : w.boxes a ≠ none) :
    sent a tr = recvd a tr ∧ ∀ m o, Legal w (.send a m) o → o.a 0 = SUCCESS →
      ∃ e, (step w (.send a m) o).2.next = .ret r (.receive a) e ∧ result (.receive a) e = (SUCCESS, some m) := by
  have hc : w.call r = some (.receive a) := (h.any.call r).trans hr
  obtain ⟨r0, _, hk⟩ := h.known r a hc
  cases hb : w.boxes a with
  | none => exact absurd hb ho
  | some b =>
    have hbr := hk b hb
    subst hbr
    obtain ⟨_, _, b3⟩ := h.inv.j.box a b hb r0
    refine ⟨by rw [(h.box a).eq b hb, b3]; simp, ?_⟩
    intro m o lg h0
    have hcur : b.blocked ≠ w.cur := fun he => by
      have := h.inv.cur; rw [← he, hc] at this; cases this
    refine ⟨⟨.msg, MSG_RECEIVE_SUCCESS, m⟩, ?_, by simp [result, MSG_RECEIVE_SUCCESS, MSG_RECEIVE_FAILURE]⟩
    have hh : handler w (.send a m) o = (fr (setBox (fr (setBox w a (some ⟨b.blocked, [m]⟩)) w.cur
        ⟨.msg, MSG_SEND_SUCCESS, 0⟩) a (some ⟨0, []⟩)) b.blocked ⟨.msg, MSG_RECEIVE_SUCCESS, m⟩, SUCCESS) := by
      simp [handler, sendH, hb, h0, b3, r0, front_ok (lg.alloc 0), front_ok (lg.alloc 1)]
    simp [step, hh, fr, setBox, setEv, switch, setCall, hcur, hc]

/-- C32 (what holds): a receive on an open mailbox that holds messages returns the oldest at once. -/
theorem receive_returns_partial {main idle : Nat} {w : Sys} {tr : List Item} (h : Hist main idle w tr) {a m : Nat}
    (ho : w.boxes a ≠ none) {rest : List Nat} (hs : sent a tr = recvd a tr ++ m :: rest) {o : Oracle}
    (lg : Legal w (.receive a) o) :
    ∃ e, (step w (.receive a) o).2.next = .ret w.cur (.receive a) e ∧ result (.receive a) e = (SUCCESS, some m) := by
  cases hb : w.boxes a with
  | none => exact absurd hb ho
  | some b =>
    have hm : b.msgs = m :: rest := by
      have := (h.box a).eq b hb
      rw [hs] at this
      exact (List.append_cancel_left this).symm
    have hh : handler w (.receive a) o = front (setBox w a (some ⟨b.blocked, rest⟩)) w.cur
        ⟨.msg, MSG_RECEIVE_SUCCESS, m⟩ (o.q 0) := by simp [handler, receiveH, hb, hm]
    rcases step_front hh with ⟨_, hn⟩ | ⟨hn, _⟩
    · exact absurd (lg.alloc 0) hn
    · exact ⟨_, by rw [hn], by simp [result, MSG_RECEIVE_SUCCESS, MSG_RECEIVE_FAILURE]⟩

example : ∃ w tr, Hist 1 9 w tr ∧ sent 1 tr = [5, 6, 7, 8] ∧ recvd 1 tr = [5, 6] ∧ pending 2 tr = some .run ∧
    w.boxes 1 ≠ none :=
  ⟨_, _, hist_from (main := 1) (idle := 9)
    (cs := [.boxCreate, .add 2, .send 1 5, .send 1 6, .run, .receive 1, .receive 1, .run, .send 1 7, .send 1 8])
    (by decide) (by decide) (by decide), by decide⟩

example : ∃ w tr, Hist 1 9 w tr ∧ pending 2 tr = some (.receive 1) ∧ w.boxes 1 ≠ none :=
  ⟨_, _, hist_from (main := 1) (idle := 9) (cs := [.boxCreate, .add 2, .run, .receive 1])
    (by decide) (by decide) (by decide), by decide⟩

/-- C32 (violated): a send whose run queue node cannot be allocated reports failure and leaves the
message in the mailbox: it is received though no send succeeded. -/
theorem failed_send_delivers_violated : ∃ w tr, Any 1 9 w tr ∧ sent 1 tr = [] ∧ recvd 1 tr = [7] :=
  ⟨_, _, any_from [(.boxCreate, okO), (.send 1 7, noQ), (.receive 1, okO)] (by decide) (by decide), by decide⟩

/-- C32 (violated): a receive whose run queue node cannot be allocated drops the message. -/
theorem failed_receive_loses_violated : ∃ w tr, Any 1 9 w tr ∧ sent 1 tr = [7, 8] ∧ recvd 1 tr = [8] :=
  ⟨_, _, any_from [(.boxCreate, okO), (.send 1 7, okO), (.receive 1, noQ), (.send 1 8, okO), (.receive 1, okO)]
    (by decide) (by decide), by decide⟩

/-- C32 (violated): a fiber told to quiesce while blocked in a receive stays registered as the mailbox's
receiver: the next message goes to it while it waits for something else, and is lost. -/
theorem quiesced_receiver_violated : ∃ w tr, Any 1 9 w tr ∧ sent 1 tr = [7] ∧ recvd 1 tr = [] ∧
    w.boxes 1 = some ⟨0, []⟩ ∧ pending 2 tr = none :=
  ⟨_, _, any_from (ok [.boxCreate, .condCreate, .add 2, .run, .receive 1, .quiesce 2, .wait 1, .send 1 7])
    (by decide) (by decide), by decide⟩

/-! ### C33: addresses -/

/-- C33: in every history, whatever fails, each address `mailbox_create` returns is greater than all it
returned before. -/
theorem addresses_fresh {main idle : Nat} {w : Sys} {tr : List Item} (h : Any main idle w tr) :
    (created tr).Pairwise (· < ·) ∧ ∀ a ∈ created tr, a ≠ 0 :=
  ⟨h.inv.fresh, fun a ha => by have := (h.inv.made a ha).1; omega⟩

/-- C33: in every history, sending to, receiving from or closing a mailbox that was closed is refused. -/
theorem closed_refused {main idle : Nat} {w : Sys} {tr : List Item} (h : Any main idle w tr) {a : Nat}
    (hc : closed a tr) {c : Call} (o : Oracle) (ha : c = .receive a ∨ c = .boxClose a ∨ ∃ m, c = .send a m) :
    (step w c o).2.refused = true :=
  refused_of_none (h.inv.shut a hc).1 ha

/-- C33 (what holds): in a legal history, sending to, receiving from or closing an address that
`mailbox_create` has not returned is refused. -/
theorem unknown_refused_partial {main idle : Nat} {w : Sys} {tr : List Item} (h : Hist main idle w tr) {a : Nat}
    (hc : a ∉ created tr) {c : Call} (o : Oracle) (ha : c = .receive a ∨ c = .boxClose a ∨ ∃ m, c = .send a m) :
    (step w c o).2.refused = true := by
  refine refused_of_none ?_ ha
  cases hb : w.boxes a with
  | none => rfl
  | some b => exact absurd (h.made.known a (by simp [hb])) hc

/-- C33 (what holds): in a legal history, an address that was returned and never passed to
`mailbox_close` can be sent to: only an allocation failure refuses it. -/
theorem open_accepts_partial {main idle : Nat} {w : Sys} {tr : List Item} (h : Hist main idle w tr) {a : Nat}
    (hc : a ∈ created tr) (hn : ∀ it ∈ tr, it.call ≠ .boxClose a) {m : Nat} {o : Oracle} (lg : Legal w (.send a m) o)
    (h0 : o.a 0 = SUCCESS) : (step w (.send a m) o).2.refused = false := by
  cases hb : w.boxes a with
  | none => exact absurd hb (h.made.still a hc hn)
  | some b =>
    by_cases hbl : b.blocked = 0
    · have hh : handler w (.send a m) o = front (setBox w a (some ⟨b.blocked, b.msgs ++ [m]⟩)) w.cur
          ⟨.msg, MSG_SEND_SUCCESS, 0⟩ (o.q 0) := by
        simp [handler, sendH, hb, h0, hbl, front_ok (lg.alloc 0)]
      rcases step_front hh with ⟨_, hn⟩ | ⟨hn, _⟩
      · exact absurd (lg.alloc 0) hn
      · rw [hn]; simp [Item.refused, result, MSG_SEND_SUCCESS, MSG_SEND_FAILURE]
    · obtain ⟨_, b2, _⟩ := h.inv.j.box a b hb hbl
      obtain ⟨e, he, _⟩ := (receiver_woken_partial h ((h.any.call b.blocked).symm.trans b2) (by simp [hb])).2 m o lg h0
      have hne : b.blocked ≠ w.cur := by
        intro h'
        have := h.inv.cur
        rw [← h', b2] at this; cases this
      simp only [Item.refused, he]
      rw [(step_boxes w (.send a m) o).2.2.2.2]
      simp [hne]

example : ∃ w tr, Hist 1 9 w tr ∧ created tr = [1, 2, 3] ∧ closed 2 tr ∧ (∀ it ∈ tr, it.call ≠ .boxClose 3) :=
  ⟨_, _, hist_from (main := 1) (idle := 9) (cs := [.boxCreate, .boxCreate, .boxClose 2, .boxCreate])
    (by decide) (by decide) (by decide), by decide, ⟨_, List.mem_cons_of_mem _ (List.mem_cons_of_mem _ (List.mem_cons_self ..)), by decide⟩, by decide⟩

/-- C33 (violated): a `mailbox_create` that fails for want of a run queue node leaves its mailbox in
place: a message can be sent to an address that was never returned. -/
theorem unknown_refused_violated : ∃ w tr, Any 1 9 w tr ∧ created tr = [] ∧
    (step w (.send 1 7) okO).2.refused = false :=
  ⟨_, _, any_from [(.boxCreate, noQ)] (by decide) (by decide), by decide⟩

/-! ### C34 and C37: closing -/

/-- C34 (violated): in every legal history, when a mailbox is closed while a fiber is blocked on it,
that fiber never runs again, whatever the others do. -/
theorem close_wakes_receiver_violated {main idle : Nat} {w : Sys} {tr : List Item} (h : Hist main idle w tr)
    {a r : Nat} (hr : pending r tr = some (.receive a)) (ho : w.boxes a ≠ none) {o : Oracle}
    {cs : List (Call × Oracle)} (lg : Legals w ((.boxClose a, o) :: cs)) :
    (exec w ((.boxClose a, o) :: cs)).1.cur ≠ r ∧ ∀ it ∈ (exec w ((.boxClose a, o) :: cs)).2, it.resumes r = false := by
  have hc : w.call r = some (.receive a) := (h.any.call r).trans hr
  obtain ⟨r0, _, hk⟩ := h.known r a hc
  cases hb : w.boxes a with
  | none => exact absurd hb ho
  | some b =>
    have lo := close_lost h.inv hb (hk b hb) r0 lg.1
    obtain ⟨i1, i2⟩ := lost_exec (.step _ o h lg.1) lo lg.2
    refine ⟨fun he => i1.runs (by rw [← he]; exact List.mem_cons_self ..), ?_⟩
    intro it hit
    rcases List.mem_cons.1 hit with hit | hit
    · subst hit; exact lo.not_resumed
    · exact i2 it hit

example : let w := (exec (init 1 9) (ok [.boxCreate, .add 2, .run, .receive 1])).1
    w.boxes 1 ≠ none ∧ legalsB w [.boxClose 1, .run, .boxCreate, .send 2 7, .run] = true := by decide

/-- C37 (violated): in every legal history, when a condition is closed, the fibers that wait on it never
run again, whatever the others do. -/
theorem close_wakes_waiters_violated {main idle : Nat} {w : Sys} {tr : List Item} (h : Hist main idle w tr)
    {x f : Nat} (hr : pending f tr = some (.wait x)) (hq : f ∉ w.runq) (ho : w.conds x ≠ none) {o : Oracle}
    {cs : List (Call × Oracle)} (lg : Legals w ((.condClose x, o) :: cs)) :
    (exec w ((.condClose x, o) :: cs)).1.cur ≠ f ∧
      ∀ it ∈ (exec w ((.condClose x, o) :: cs)).2, it.resumes f = false := by
  have hc : w.call f = some (.wait x) := (h.any.call f).trans hr
  cases hl : w.conds x with
  | none => exact absurd hl ho
  | some l =>
    have hfl : f ∈ l := by
      rcases (h.listed f x hc).2 with h' | h'
      · exact absurd h' hq
      · exact h' l hl
    have lo := condClose_lost h.inv hl hfl lg.1
    obtain ⟨i1, i2⟩ := lost_exec (.step _ o h lg.1) lo lg.2
    refine ⟨fun he => i1.runs (by rw [← he]; exact List.mem_cons_self ..), ?_⟩
    intro it hit
    rcases List.mem_cons.1 hit with hit | hit
    · subst hit; exact lo.not_resumed
    · exact i2 it hit

example : let w := (exec (init 1 9) (ok [.condCreate, .add 2, .run, .wait 1])).1
    w.conds 1 ≠ none ∧ 2 ∉ w.runq ∧ legalsB w [.condClose 1, .run, .condCreate, .notifyAll 2] = true := by decide

/-! ### C36: conditions -/

/-- C36 (what holds): in a legal history, the fibers whose waits on a condition ended are, in order, a
beginning of the fibers that waited. While the condition is open, the rest are those already made
runnable and then those still waiting, in order: none is lost, woken twice, or woken without waiting. -/
theorem waiters_fifo_partial {main idle : Nat} {w : Sys} {tr : List Item} (h : Hist main idle w tr) (x : Nat) :
    woken x tr <+: waited x tr ∧
    ∀ l, w.conds x = some l →
      waited x tr = woken x tr ++ w.runq.filter (fun f => decide (pending f tr = some (.wait x))) ++ l := by
  have hd : due w x = w.runq.filter (fun f => decide (pending f tr = some (.wait x))) := by
    unfold due
    apply List.filter_congr
    intro g _
    rw [h.any.call g]
  refine ⟨(List.prefix_append _ _).trans (h.cond x).pre, ?_⟩
  rw [← hd]
  exact (h.cond x).eq

/-- C36 (what holds): notify one moves the fiber that has waited longest, and no other, to the end of
the run queue, followed by the caller. -/
theorem notify_one_wakes_partial {main idle : Nat} {w : Sys} {tr : List Item} (h : Hist main idle w tr) {x f : Nat}
    {l : List Nat} (hl : w.conds x = some (f :: l)) {o : Oracle} (lg : Legal w (.notifyOne x) o) :
    (step w (.notifyOne x) o).1.cur :: (step w (.notifyOne x) o).1.runq = w.runq ++ [f, w.cur] ∧
    (step w (.notifyOne x) o).1.conds x = some l ∧ pending f tr = some (.wait x) := by
  have hh : handler w (.notifyOne x) o = (bk (bks (setCond w x (some l)) [f]) w.cur ⟨.cond, COND_NOTIFY_SUCCESS, 0⟩, SUCCESS) := by
    simp [handler, notifyOneH, hl, back_ok (lg.alloc 0), back_ok (lg.alloc 1)]; rfl
  obtain ⟨r1, r2⟩ := notify_ring hh (by simp [bk])
  refine ⟨?_, ?_, ?_⟩
  · rw [r1]; simp [bk, bks, setCond, setEv]
  · rw [r2]; simp [bk, bks, setCond, setEv]
  · rw [← h.any.call f]; exact ((h.inv.j.cond x _ hl).2 f (by simp)).2.2

/-- C36 (what holds): notify all moves all waiting fibers, in order, to the end of the run queue,
followed by the caller. -/
theorem notify_all_wakes_partial {w : Sys} {x : Nat} {l : List Nat} (hl : w.conds x = some l) {o : Oracle}
    (lg : Legal w (.notifyAll x) o) :
    (step w (.notifyAll x) o).1.cur :: (step w (.notifyAll x) o).1.runq = w.runq ++ l ++ [w.cur] ∧
    (step w (.notifyAll x) o).1.conds x = some [] := by
  have hh : handler w (.notifyAll x) o =
      (bk (bks (setCond w x (some [])) l) w.cur ⟨.cond, COND_NOTIFY_SUCCESS, 0⟩, SUCCESS) := by
    simp only [handler, notifyAllH, hl, notifyLoop_ok lg.alloc, back_ok (lg.alloc _)]; rfl
  obtain ⟨h1, h2, h3, h4, h5, h6, h7, _⟩ := bks_fields l (setCond w x (some []))
  obtain ⟨r1, r2⟩ := notify_ring hh (by simp [bk])
  refine ⟨?_, ?_⟩
  · rw [r1]; simp only [bk, h7]; simp [setCond]
  · rw [r2]; show (bks _ l).conds x = _; rw [h2]; simp [setCond]

example : ∃ w tr, Hist 1 9 w tr ∧ waited 1 tr = [2, 3, 4] ∧ woken 1 tr = [2] ∧ w.conds 1 = some [4] ∧ w.runq = [3, 2] :=
  ⟨_, _, hist_from (main := 1) (idle := 9)
    (cs := [.condCreate, .add 2, .add 3, .add 4, .run, .wait 1, .wait 1, .wait 1, .notifyOne 1, .notifyOne 1])
    (by decide) (by decide) (by decide), by decide⟩

/-- C36 (violated): if the run queue node for the waiter cannot be allocated, the waiter is dropped and
the notification reports success; the next one wakes a fiber that came later. -/
theorem waiters_fifo_violated : ∃ w tr, Any 1 9 w tr ∧ waited 1 tr = [2, 3] ∧ woken 1 tr = [3] ∧
    w.conds 1 = some [] ∧ ∃ it ∈ tr, it.next = .ret 1 (.notifyOne 1) ⟨.cond, COND_NOTIFY_SUCCESS, ERROR_GENERAL_OUT_OF_MEMORY.toNat⟩ :=
  ⟨_, _, any_from [(.condCreate, okO), (.add 2, okO), (.add 3, okO), (.run, okO), (.wait 1, okO), (.wait 1, okO),
      (.notifyOne 1, noQ), (.notifyOne 1, okO)] (by decide) (by decide), by decide⟩

/-! ### C53: requests taken for results -/

/-- C53 (violated): a request to terminate that reaches a fiber inside a send is reported to it as
success of the send, and the request is gone. -/
theorem request_taken_for_result_violated : ∃ w tr, Any 1 9 w tr ∧ ∃ it ∈ tr,
    it.next = .ret 1 (.send 1 7) ⟨.mgmt, MGMT_TERMINATION_REQUEST, 0⟩ ∧
    result (.send 1 7) ⟨.mgmt, MGMT_TERMINATION_REQUEST, 0⟩ = (SUCCESS, none) :=
  ⟨_, _, any_from (ok [.boxCreate, .add 2, .run, .receive 1, .send 1 7, .terminate 1]) (by decide) (by decide), by decide⟩

/-- C53 (what holds): a request that reaches a fiber inside one of these calls makes the call fail. -/
theorem request_reported_partial {c : Call} {code p : Nat} (hc : code = MGMT_QUIESCE_REQUEST ∨ code = MGMT_TERMINATION_REQUEST)
    (h : c = .boxCreate ∨ (∃ a, c = .receive a) ∨ c = .condCreate ∨ (∃ x, c = .wait x) ∨ (∃ x, c = .notifyOne x) ∨
      (∃ x, c = .notifyAll x) ∨ c.isRequest = true) : (result c ⟨.mgmt, code, p⟩).1 ≠ SUCCESS := by
  rcases h with rfl | ⟨a, rfl⟩ | rfl | ⟨a, rfl⟩ | ⟨a, rfl⟩ | ⟨a, rfl⟩ | h
  · rcases hc with rfl | rfl <;> simp [result, MGMT_QUIESCE_REQUEST, MGMT_TERMINATION_REQUEST, MSG_CREATE_FAILURE, MSG_CREATE_SUCCESS] <;> decide
  · rcases hc with rfl | rfl <;> simp [result, MGMT_QUIESCE_REQUEST, MGMT_TERMINATION_REQUEST, MSG_RECEIVE_FAILURE, MSG_RECEIVE_SUCCESS] <;> decide
  · rcases hc with rfl | rfl <;> simp [result, MGMT_QUIESCE_REQUEST, MGMT_TERMINATION_REQUEST, COND_CREATE_FAILURE, COND_CREATE_SUCCESS] <;> decide
  · rcases hc with rfl | rfl <;> simp [result, MGMT_QUIESCE_REQUEST, MGMT_TERMINATION_REQUEST, COND_WAIT_FAILURE, COND_WAIT_SUCCESS] <;> decide
  · rcases hc with rfl | rfl <;> simp [result, MGMT_QUIESCE_REQUEST, MGMT_TERMINATION_REQUEST, COND_NOTIFY_FAILURE, COND_NOTIFY_SUCCESS] <;> decide
  · rcases hc with rfl | rfl <;> simp [result, MGMT_QUIESCE_REQUEST, MGMT_TERMINATION_REQUEST, COND_NOTIFY_FAILURE, COND_NOTIFY_SUCCESS] <;> decide
  · rcases hc with rfl | rfl <;> cases c <;> simp [Call.isRequest] at h <;>
      simp [result, MGMT_QUIESCE_REQUEST, MGMT_TERMINATION_REQUEST, MGMT_REQUEST_RESULT] <;> decide

/-! ### C35: creation reports failure -/

/-- C35 (what holds): `mailbox_create` and `conditional_create` return success exactly if nothing failed,
and a handle exactly with success, except when the tree insertion fails but the release of the new
object then succeeds. -/
theorem create_reports_partial (w : Sys) (o : Oracle) {c : Call} (hc : c = .boxCreate ∨ c = .condCreate)
    (h3 : o.a 3 = SUCCESS ∨ o.a 4 ≠ SUCCESS) :
    ∃ st h, (step w c o).2.answer = some (st, h) ∧
      (st = SUCCESS ↔ o.a 0 = SUCCESS ∧ o.a 1 = SUCCESS ∧ o.a 3 = SUCCESS ∧ o.q 0 = SUCCESS) ∧
      (h.isSome ↔ st = SUCCESS) := by
  have key : ∃ w1 e, handler w c o = front w1 w.cur e (o.q 0) ∧
      ((result c e).1 = SUCCESS ↔ o.a 0 = SUCCESS ∧ o.a 1 = SUCCESS ∧ o.a 3 = SUCCESS) ∧
      ((result c e).2.isSome ↔ (result c e).1 = SUCCESS) := by
    have hb : boxResource (o.a 0) (o.a 1) (o.a 2) = SUCCESS ↔ o.a 0 = SUCCESS ∧ o.a 1 = SUCCESS := by
      unfold boxResource
      split
      · rename_i h; exact ⟨fun h' => absurd h' h, fun h' => absurd h'.1 h⟩
      · split
        · rename_i h
          split
          · rename_i h2; exact ⟨fun h' => absurd h' h2, fun h' => absurd h'.2 h⟩
          · exact ⟨fun h' => absurd h' h, fun h' => absurd h'.2 h⟩
        · rename_i h1 h2; exact ⟨fun _ => ⟨Decidable.not_not.1 h1, Decidable.not_not.1 h2⟩, fun _ => rfl⟩
    rcases hc with rfl | rfl
    all_goals
      simp only [handler, boxCreateH, condCreateH]
      by_cases h1 : boxResource (o.a 0) (o.a 1) (o.a 2) = SUCCESS
      · simp only [h1, ne_eq, not_true_eq_false, if_false]
        by_cases ha : o.a 3 = SUCCESS
        · simp only [ha, not_true_eq_false, if_false]
          refine ⟨_, _, rfl, ?_, ?_⟩
          · exact ⟨fun _ => ⟨(hb.1 h1).1, (hb.1 h1).2, trivial⟩, fun _ => rfl⟩
          · exact ⟨fun _ => rfl, fun _ => rfl⟩
        · simp only [ha, not_false_eq_true, if_true]
          have h4 := h3.resolve_left ha
          refine ⟨_, _, rfl, ?_, ?_⟩
          · simp [result, statusOf_toNat, h4]
          · simp [result, statusOf_toNat, h4]
      · simp only [h1, ne_eq, not_false_eq_true, if_true]
        refine ⟨_, _, rfl, ?_, ?_⟩
        · simp only [result, if_true, statusOf_toNat]
          exact ⟨fun h => absurd h h1, fun h => absurd (hb.2 ⟨h.1, h.2.1⟩) h1⟩
        · simp only [result, if_true, statusOf_toNat]
          exact ⟨fun h => (by cases h), fun h => absurd h h1⟩
  obtain ⟨w1, e, hh, k1, k2⟩ := key
  by_cases hq : o.q 0 = SUCCESS
  · refine ⟨(result c e).1, (result c e).2, create_answer hh hq, ?_, k2⟩
    rw [k1]; simp [hq]
  · have hs : (step w c o).2.answer = some (o.q 0, none) := by
      have : (handler w c o).2 = o.q 0 := by rw [hh]; simp [front, hq]
      simp [step, this, hq, Item.answer]
    refine ⟨_, _, hs, ?_, ?_⟩
    · simp [hq]
    · simp [hq]

/-- C35 (violated): if the tree insertion fails, both report success and set no handle. -/
theorem create_reports_violated : ∀ c, c = .boxCreate ∨ c = .condCreate →
    (step (init 1 9) c ⟨fun _ => SUCCESS, fun k => if k = 3 then ERROR_GENERAL_OUT_OF_MEMORY else SUCCESS⟩).2.answer
      = some (SUCCESS, none) := by
  rintro c (rfl | rfl) <;> decide

end Rcpr.Fiber
