import Verif.FiberReq

/-!
C59: quiesce and terminate requests.

`alive main f tr` says that the trace shows fiber `f` entered and not ended; `Any main idle w tr` that
`w` is reached from the start by any calls at all, with trace `tr`.
-/
namespace Rcpr.Fiber

open Rcpr

/-- A request to one fiber, and the event it is told with. -/
def Requests (c : Call) (f code : Nat) : Prop :=
  c = .quiesce f ∧ code = MGMT_QUIESCE_REQUEST ∨ c = .terminate f ∧ code = MGMT_TERMINATION_REQUEST

/-- A request to all fibers, and the event they are told with. -/
def RequestsAll (c : Call) (code : Nat) : Prop :=
  c = .quiesceAll ∧ code = MGMT_QUIESCE_REQUEST ∨ c = .terminateAll ∧ code = MGMT_TERMINATION_REQUEST

/-- C59: a request to a fiber that has not been entered, or has ended, is refused, and nothing happens
to that fiber or any other. -/
theorem request_refused {main idle : Nat} {w : Sys} {tr : List Item} (h : Any main idle w tr) {c : Call} {f code : Nat}
    (hc : Requests c f code) (hf : ¬ alive main f tr) {o : Oracle} (ho : o.q 0 = SUCCESS) :
    ∃ e, (step w c o).2 = ⟨w.cur, c, .ret w.cur c e⟩ ∧ result c e = (ERROR_FIBER_INVALID_STATE, none) ∧
      (step w c o).1.cur = w.cur ∧ (step w c o).1.runq = w.runq ∧
      (∀ g, g ≠ w.cur → (step w c o).1.ev g = w.ev g) ∧ ∀ g, (step w c o).1.state g = w.state g := by
  have hs : w.state f ≠ .running := fun x => hf ((h.running f).1 x)
  have hh : handler w c o = (fr w w.cur ⟨.mgmt, MGMT_REQUEST_RESULT, ERROR_FIBER_INVALID_STATE.toNat⟩, SUCCESS) := by
    rcases hc with ⟨rfl, rfl⟩ | ⟨rfl, rfl⟩ <;> simp only [handler, requestH, if_pos hs, front_ok ho]
  refine ⟨⟨.mgmt, MGMT_REQUEST_RESULT, ERROR_FIBER_INVALID_STATE.toNat⟩, ?_, ?_, ?_⟩
  · simp [step, hh, fr, switch, setCall, setEv]
  · rcases hc with ⟨rfl, rfl⟩ | ⟨rfl, rfl⟩ <;> rfl
  · simp only [step, hh, fr, switch, setCall, setEv]
    refine ⟨by simp, by simp, ?_, by simp⟩
    intro g hg; simp [hg]

example : ∃ w tr, Any 1 9 w tr ∧ ¬ alive 1 2 tr ∧ started 1 2 tr ∧ Requests (.quiesce 2) 2 MGMT_QUIESCE_REQUEST :=
  ⟨_, _, any_from (ok [.add 2, .run, .stop]) (by decide) (by decide),
    fun h => h.2 ⟨⟨2, .stop, .ret 1 .run ⟨.internal, RESUME_RUN, 0⟩⟩, by decide, by decide⟩,
    Or.inr ⟨⟨1, .run, .start 2 ⟨.internal, RESUME_ADD_FIBER, 0⟩⟩, by decide, _, rfl⟩, Or.inl ⟨rfl, rfl⟩⟩

/-- C59: a request to another fiber that is alive resumes it out of the call it is inside of, with the
request. The requesting fiber is the next in the queue; no other fiber is affected. -/
theorem request_delivered {main idle : Nat} {w : Sys} {tr : List Item} (h : Any main idle w tr) {c : Call} {f code : Nat}
    (hc : Requests c f code) (hf : alive main f tr) (hn : f ≠ w.cur) {o : Oracle} (ho : ∀ k, o.q k = SUCCESS) :
    ∃ c', pending f tr = some c' ∧ (step w c o).2 = ⟨w.cur, c, .ret f c' ⟨.mgmt, code, 0⟩⟩ ∧
      (step w c o).1.cur = f ∧ (step w c o).1.runq = w.cur :: w.runq ∧
      (∀ g, g ≠ w.cur → g ≠ f → (step w c o).1.ev g = w.ev g) ∧ ∀ g, (step w c o).1.state g = w.state g := by
  obtain ⟨c', hp⟩ := h.inside hf hn
  have hcall : w.call f = some c' := by rw [h.call f]; exact hp
  have hs : w.state f = .running := (h.running f).2 hf
  have hh : handler w c o =
      (fr (fr w w.cur ⟨.mgmt, MGMT_REQUEST_RESULT, SUCCESS.toNat⟩) f ⟨.mgmt, code, 0⟩, SUCCESS) := by
    rcases hc with ⟨rfl, rfl⟩ | ⟨rfl, rfl⟩ <;>
      simp only [handler, requestH, if_neg (not_not_intro hs), front_ok (ho 0), front_ok (ho 1)] <;>
      rw [if_neg (by simp)]
  refine ⟨c', hp, ?_, ?_⟩
  · simp [step, hh, fr, switch, setCall, setEv, hn, hcall]
  · simp only [step, hh, fr, switch, setCall, setEv, hn, hcall]
    refine ⟨by simp, by simp, ?_, by simp⟩
    intro g hg hgf; simp [hg, hgf]

/-- C59: and when that fiber yields, the request returns with success. -/
theorem request_answered {main idle : Nat} {w : Sys} {tr : List Item} (h : Any main idle w tr) {c : Call} {f code : Nat}
    (hc : Requests c f code) (hf : alive main f tr) (hn : f ≠ w.cur) {o : Oracle} (ho : ∀ k, o.q k = SUCCESS)
    {o' : Oracle} (ho' : ∀ k, o'.q k = SUCCESS) :
    ∃ e, (step (step w c o).1 .run o').2 = ⟨f, .run, .ret w.cur c e⟩ ∧ result c e = (SUCCESS, none) := by
  obtain ⟨c', hp⟩ := h.inside hf hn
  have hcall : w.call f = some c' := by rw [h.call f]; exact hp
  have hs : w.state f = .running := (h.running f).2 hf
  have hh : handler w c o =
      (fr (fr w w.cur ⟨.mgmt, MGMT_REQUEST_RESULT, SUCCESS.toNat⟩) f ⟨.mgmt, code, 0⟩, SUCCESS) := by
    rcases hc with ⟨rfl, rfl⟩ | ⟨rfl, rfl⟩ <;>
      simp only [handler, requestH, if_neg (not_not_intro hs), front_ok (ho 0), front_ok (ho 1)] <;>
      rw [if_neg (by simp)]
  refine ⟨⟨.mgmt, MGMT_REQUEST_RESULT, SUCCESS.toNat⟩, ?_, ?_⟩
  · have hn' : w.cur ≠ f := Ne.symm hn
    have h1 : (step w c o).1.cur = f := by simp [step, hh, fr, switch, setCall, setEv, hn, hcall]
    have h2 : (step w c o).1.runq = w.cur :: w.runq := by simp [step, hh, fr, switch, setCall, setEv, hn, hcall]
    have h3 : (step w c o).1.ev w.cur = ⟨.mgmt, MGMT_REQUEST_RESULT, SUCCESS.toNat⟩ := by
      simp [step, hh, fr, switch, setCall, setEv, hn, hcall, hn']
    have h4 : (step w c o).1.call w.cur = some c := by
      simp [step, hh, fr, switch, setCall, setEv, hn, hcall, hn']
    generalize (step w c o).1 = w1 at h1 h2 h3 h4
    by_cases hi : w1.cur = w1.idle
    · have : handler w1 .run o' = (w1, SUCCESS) := by simp [handler, runH, hi]
      simp [step, this, h2, switch, setCall, h1, hn', h3, h4]
    · have : handler w1 .run o' = (bk w1 w1.cur ⟨.internal, RESUME_RUN, 0⟩, SUCCESS) := by
        simp only [handler, runH, if_neg hi, back_ok (ho' 0)]
      rw [h1] at this
      simp [step, this, h2, switch, setCall, h1, hn', h3, h4, bk, setEv]
  · rcases hc with ⟨rfl, rfl⟩ | ⟨rfl, rfl⟩ <;> rfl

example : ∃ w tr, Any 1 9 w tr ∧ alive 1 2 tr ∧ 2 ≠ w.cur ∧ pending 2 tr = some (.receive 1) ∧
    (step w (.terminate 2) okO).2 = ⟨1, .terminate 2, .ret 2 (.receive 1) ⟨.mgmt, MGMT_TERMINATION_REQUEST, 0⟩⟩ :=
  ⟨_, _, any_from (ok [.boxCreate, .add 2, .run, .receive 1]) (by decide) (by decide),
    ((any_from (ok [.boxCreate, .add 2, .run, .receive 1]) (by decide) (by decide)).running 2).1 (by decide),
    by decide, by decide, by decide⟩

/-- C59: a request call that returns success has been answered with a success by the management
discipline, whatever event it was resumed with. -/
theorem request_success_genuine {c : Call} (hc : c.isRequest = true) {e : Ev} (h : (result c e).1 = SUCCESS) :
    e.disc = .mgmt ∧ e.code = MGMT_REQUEST_RESULT ∧ statusOf e.param = SUCCESS := by
  cases c <;> simp only [Call.isRequest, Bool.false_eq_true] at hc <;>
    · simp only [result] at h
      split at h
      · exact absurd h (by decide)
      · next hn =>
        simp only [not_or, Decidable.not_not] at hn
        exact ⟨hn.1, hn.2, h⟩

/-- Other events do reach such calls, here the end of a wait that a request had cut short; its code is
that of a request result. -/
example : ∃ w tr, Any 1 0 w tr ∧ (⟨1, .notifyOne 1, .ret 2 (.quiesce 1) ⟨.cond, MGMT_REQUEST_RESULT, 0⟩⟩ : Item) ∈ tr ∧
    (result (.quiesce 1) ⟨.cond, MGMT_REQUEST_RESULT, 0⟩).1 = ERROR_FIBER_UNEXPECTED_RESUME_EVENT :=
  ⟨_, _, any_from (ok [.condCreate, .add 2, .run, .wait 1, .quiesce 2, .quiesce 1, .notifyOne 1]) (by decide) (by decide),
    by decide, by decide⟩

/-- C59 (what holds of a request to all): the fibers of a list `l` are put into the run queue with the
request, followed by the requesting fiber with a success result. The list contains every fiber that was
added and is alive, other than the requesting fiber and the one waiting for management events; it
contains only such fibers, and none more often than it was added. No other fiber is affected. -/
theorem request_all_partial {main idle : Nat} {w : Sys} {tr : List Item} (h : Any main idle w tr) {c : Call} {code : Nat}
    (hc : RequestsAll c code) {o : Oracle} (ho : ∀ k, o.q k = SUCCESS) :
    ∃ l, (∀ g, added g tr → alive main g tr → g ≠ w.cur → g ≠ w.mgmt → g ∈ l) ∧
      (∀ g ∈ l, (∃ it ∈ tr, it.call = .add g) ∧ alive main g tr ∧ g ≠ w.cur ∧ g ≠ w.mgmt) ∧
      (∀ g, l.count g ≤ (tr.filter fun it => it.call = .add g).length) ∧
      (step w c o).1.cur :: (step w c o).1.runq = w.runq ++ l ++ [w.cur] ∧
      (∀ g ∈ l, (step w c o).1.ev g = ⟨.mgmt, code, 0⟩) ∧
      result c ((step w c o).1.ev w.cur) = (SUCCESS, none) ∧
      ∀ g, g ∉ l → g ≠ w.cur → (step w c o).1.ev g = w.ev g := by
  obtain ⟨n, hl⟩ := requestLoop_ok (code := code) (y := w.cur) ho w.tree 0 w
  have hh : handler w c o =
      (bk (rqs code w (targets w w.cur w.tree)) w.cur ⟨.mgmt, MGMT_REQUEST_RESULT, SUCCESS.toNat⟩, SUCCESS) := by
    rcases hc with ⟨rfl, rfl⟩ | ⟨rfl, rfl⟩ <;>
      simp only [handler, requestAllH, hl, back_ok (ho n)] <;> rw [if_neg (by simp)]
  have mem : ∀ g, g ∈ targets w w.cur w.tree ↔ g ∈ w.tree ∧ w.cur ≠ g ∧ w.mgmt ≠ g ∧ w.state g = .running := by
    intro g; simp [targets]
  obtain ⟨r1, r2, r3, r4, r5, r6, r7⟩ := rqs_fields code (targets w w.cur w.tree) w
  have hq : (bk (rqs code w (targets w w.cur w.tree)) w.cur ⟨.mgmt, MGMT_REQUEST_RESULT, SUCCESS.toNat⟩).runq
      = w.runq ++ targets w w.cur w.tree ++ [w.cur] := by simp [bk, r1]
  obtain ⟨x, q, hx⟩ : ∃ x q, w.runq ++ targets w w.cur w.tree ++ [w.cur] = x :: q := by
    cases hh : w.runq ++ targets w w.cur w.tree with
    | nil => exact ⟨_, _, rfl⟩
    | cons x q => exact ⟨_, _, rfl⟩
  obtain ⟨p1, p2, _, _⟩ := step_pop hh (hq.trans hx)
  have hev : ∀ g, (step w c o).1.ev g =
      (bk (rqs code w (targets w w.cur w.tree)) w.cur ⟨.mgmt, MGMT_REQUEST_RESULT, SUCCESS.toNat⟩).ev g := by
    intro g
    simp only [step, hh, hq.trans hx, ne_eq, not_true_eq_false, if_false]
    unfold switch
    split
    · simp only [setEv, setCall]; split
      · next e => rw [e]
      · rfl
    · simp only [setEv, setCall]; split
      · next e => rw [e]
      · rfl
  refine ⟨targets w w.cur w.tree, ?_, ?_, ?_, ?_, ?_, ?_, ?_⟩
  · intro g h1 h2 h3 h4
    exact (mem g).2 ⟨(h.tree g).1 h1, Ne.symm h3, Ne.symm h4, (h.running g).2 h2⟩
  · intro g hg
    obtain ⟨m1, m2, m3, m4⟩ := (mem g).1 hg
    exact ⟨(h.tree g).2 m1, (h.running g).1 m4, Ne.symm m2, Ne.symm m3⟩
  · intro g
    exact Nat.le_trans (List.Sublist.count_le g List.filter_sublist) (h.tree_count g)
  · rw [p1, p2, hx]
  · intro g hg
    rw [hev]
    have : g ≠ w.cur := Ne.symm ((mem g).1 hg).2.1
    simp [bk, setEv, this, r2, hg]
  · rw [hev]
    rcases hc with ⟨rfl, rfl⟩ | ⟨rfl, rfl⟩ <;> simp [bk, setEv, result, MGMT_REQUEST_RESULT, statusOf, SUCCESS]
  · intro g hg hgc
    rw [hev]
    simp [bk, setEv, hgc, r2, hg]

example : ∃ w tr, Any 1 9 w tr ∧ added 2 tr ∧ added 3 tr ∧ alive 1 2 tr ∧ alive 1 3 tr ∧ w.cur = 1 ∧
    (exec w (ok [.quiesceAll, .run, .run])).2.map Item.next =
      [.ret 2 (.receive 1) ⟨.mgmt, MGMT_QUIESCE_REQUEST, 0⟩, .ret 3 (.wait 1) ⟨.mgmt, MGMT_QUIESCE_REQUEST, 0⟩,
        .ret 1 .quiesceAll ⟨.mgmt, MGMT_REQUEST_RESULT, 0⟩] :=
  have h := any_from (main := 1) (idle := 9)
    (ok [.boxCreate, .condCreate, .add 2, .add 3, .run, .receive 1, .wait 1]) (by decide) (by decide)
  ⟨_, _, h,
    ⟨⟨1, .add 2, .ret 1 (.add 2) ⟨.internal, RESUME_ADD_FIBER, 0⟩⟩, by decide, rfl, by intro st; simp⟩,
    ⟨⟨1, .add 3, .ret 1 (.add 3) ⟨.internal, RESUME_ADD_FIBER, 0⟩⟩, by decide, rfl, by intro st; simp⟩,
    (h.running 2).1 (by decide), (h.running 3).1 (by decide), by decide, by decide⟩

/-- C59 (violated): `fiber.h` promises that after a successful request to all "all running fibers have
been instructed to quiesce". The main fiber is alive and does not wait for management events; the request
of fiber 2 succeeds; yet the main fiber's call returns without the request, and it is not queued with
it. -/
theorem request_all_violated : ∃ w tr, Any 1 0 w tr ∧ alive 1 1 tr ∧ w.cur = 2 ∧ w.mgmt = 0 ∧
    (exec w (ok [.quiesceAll, .run])).2.map Item.next =
      [.ret 1 .run ⟨.internal, RESUME_RUN, 0⟩, .ret 2 .quiesceAll ⟨.mgmt, MGMT_REQUEST_RESULT, 0⟩] ∧
    result .quiesceAll ⟨.mgmt, MGMT_REQUEST_RESULT, 0⟩ = (SUCCESS, none) ∧
    (exec w (ok [.quiesceAll, .run])).1.ev 1 = ⟨.internal, RESUME_RUN, 0⟩ :=
  have h := any_from (main := 1) (idle := 0) (ok [.add 2, .run]) (by decide) (by decide)
  ⟨_, _, h, (h.running 1).1 (by decide), by decide, by decide, by decide, by decide, by decide⟩

end Rcpr.Fiber
