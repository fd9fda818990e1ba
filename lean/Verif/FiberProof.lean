import Verif.FiberSpec

/-! Lemmas for the properties of fibers, mailboxes and conditions. -/
namespace Rcpr.Fiber

open Rcpr

/-! ### The effect of the handlers when run queue allocations succeed -/

def fr (w : Sys) (f : Nat) (e : Ev) : Sys := { setEv w f e with runq := f :: w.runq }
def bk (w : Sys) (f : Nat) (e : Ev) : Sys := { setEv w f e with runq := w.runq ++ [f] }

theorem front_ok {w : Sys} {f : Nat} {e : Ev} {st : Status} (h : st = SUCCESS) :
    front w f e st = (fr w f e, SUCCESS) := by simp [front, h, fr]

theorem back_ok {w : Sys} {f : Nat} {e : Ev} {st : Status} (h : st = SUCCESS) :
    back w f e st = (bk w f e, SUCCESS) := by simp [back, h, bk]

/-- wake the fibers of a wait list, in order -/
def bks (w : Sys) (l : List Nat) : Sys :=
  l.foldl (fun w f => bk w f ⟨.cond, COND_WAIT_SUCCESS, 0⟩) w

theorem notifyLoop_ok {o : Oracle} (h : ∀ k, o.q k = SUCCESS) : ∀ (l : List Nat) (k : Nat) (w : Sys),
    notifyLoop o l k SUCCESS w = (bks w l, SUCCESS, k + l.length) := by
  intro l
  induction l with
  | nil => intro k w; simp [notifyLoop, bks]
  | cons f l ih =>
    intro k w
    simp only [notifyLoop, back_ok (h k)]
    rw [ih, show (SUCCESS).toNat = 0 from rfl]
    simp [bks]; omega

/-- The outcomes of the handlers for calls that are not requests, when run queue allocations succeed.
`y` is the running fiber. -/
inductive HStep (w : Sys) : Call → Sys → Prop
  | run : w.cur ≠ w.idle → HStep w .run (bk w w.cur ⟨.internal, RESUME_RUN, 0⟩)
  | idle : w.cur = w.idle → HStep w .run w
  | add (f : Nat) (t : List Nat) : w.mgmt = 0 →
      HStep w (.add f) (fr (bk { w with tree := t } f ⟨.internal, RESUME_ADD_FIBER, 0⟩) w.cur
        ⟨.internal, RESUME_ADD_FIBER, 0⟩)
  | addM (f : Nat) (t : List Nat) : w.mgmt ≠ 0 →
      HStep w (.add f) { fr (fr (bk { w with tree := t } f ⟨.internal, RESUME_ADD_FIBER, 0⟩) w.cur
        ⟨.internal, RESUME_ADD_FIBER, 0⟩) w.mgmt ⟨.mgmt, MGMT_FIBER_ADD, f⟩ with mgmt := 0 }
  | stop (s : Nat → FState) : w.mgmt = 0 → HStep w .stop { w with state := s }
  | stopM (s : Nat → FState) : w.mgmt ≠ 0 →
      HStep w .stop { fr { w with state := s } w.mgmt ⟨.mgmt, MGMT_FIBER_STOP, w.cur⟩ with mgmt := 0 }
  | release : HStep w .release (fr w w.cur ⟨.internal, RESUME_RESOURCE_RELEASE, 0⟩)
  | mgmtReceive : HStep w .mgmtReceive { w with mgmt := w.cur }
  | boxCreateFail (st : Status) : HStep w .boxCreate (fr w w.cur ⟨.msg, MSG_CREATE_FAILURE, st.toNat⟩)
  | boxCreate : HStep w .boxCreate (fr { setBox w (w.mindex + 1) (some ⟨0, []⟩) with mindex := w.mindex + 1 }
      w.cur ⟨.msg, MSG_CREATE_SUCCESS, w.mindex + 1⟩)
  | boxCloseFail (a : Nat) (st : Status) : w.boxes a = none → st ≠ SUCCESS →
      HStep w (.boxClose a) (fr w w.cur ⟨.msg, MSG_CLOSE, st.toNat⟩)
  | boxClose (a : Nat) (b : Box) (st : Status) : w.boxes a = some b →
      HStep w (.boxClose a) (fr (setBox w a none) w.cur ⟨.msg, MSG_CLOSE, st.toNat⟩)
  | sendFail (a m : Nat) (st : Status) : st ≠ SUCCESS →
      HStep w (.send a m) (fr w w.cur ⟨.msg, MSG_SEND_FAILURE, st.toNat⟩)
  | send (a m : Nat) (b : Box) : w.boxes a = some b → b.blocked = 0 →
      HStep w (.send a m) (fr (setBox w a (some ⟨0, b.msgs ++ [m]⟩)) w.cur ⟨.msg, MSG_SEND_SUCCESS, 0⟩)
  | sendWake (a m m' : Nat) (ms : List Nat) (b : Box) : w.boxes a = some b → b.blocked ≠ 0 →
      b.msgs ++ [m] = m' :: ms →
      HStep w (.send a m) (fr (setBox (fr (setBox w a (some ⟨b.blocked, m' :: ms⟩)) w.cur
        ⟨.msg, MSG_SEND_SUCCESS, 0⟩) a (some ⟨0, ms⟩)) b.blocked ⟨.msg, MSG_RECEIVE_SUCCESS, m'⟩)
  | receiveFail (a : Nat) (st : Status) : st ≠ SUCCESS →
      HStep w (.receive a) (fr w w.cur ⟨.msg, MSG_RECEIVE_FAILURE, st.toNat⟩)
  | receiveBlock (a : Nat) : w.boxes a = some ⟨0, []⟩ →
      HStep w (.receive a) (setBox w a (some ⟨w.cur, []⟩))
  | receive (a m x : Nat) (ms : List Nat) : w.boxes a = some ⟨x, m :: ms⟩ →
      HStep w (.receive a) (fr (setBox w a (some ⟨x, ms⟩)) w.cur ⟨.msg, MSG_RECEIVE_SUCCESS, m⟩)
  | condCreateFail (st : Status) : HStep w .condCreate (fr w w.cur ⟨.cond, COND_CREATE_FAILURE, st.toNat⟩)
  | condCreate : HStep w .condCreate (fr { setCond w (w.cindex + 1) (some []) with cindex := w.cindex + 1 }
      w.cur ⟨.cond, COND_CREATE_SUCCESS, w.cindex + 1⟩)
  | condCloseFail (h : Nat) (st : Status) : w.conds h = none → st ≠ SUCCESS →
      HStep w (.condClose h) (fr w w.cur ⟨.cond, COND_CLOSE_FAILURE, st.toNat⟩)
  | condClose (h : Nat) (l : List Nat) (e : Ev) : w.conds h = some l →
      e = ⟨.cond, COND_CLOSE_SUCCESS, 0⟩ ∨ (∃ st : Status, st ≠ SUCCESS ∧ e = ⟨.cond, COND_CLOSE_FAILURE, st.toNat⟩) →
      HStep w (.condClose h) (fr (setCond w h none) w.cur e)
  | waitFail (h : Nat) (st : Status) : st ≠ SUCCESS →
      HStep w (.wait h) (fr w w.cur ⟨.cond, COND_WAIT_FAILURE, st.toNat⟩)
  | wait (h : Nat) (l : List Nat) : w.conds h = some l →
      HStep w (.wait h) (setCond w h (some (l ++ [w.cur])))
  | notifyOneFail (h : Nat) : w.conds h = none →
      HStep w (.notifyOne h) (bk w w.cur ⟨.cond, COND_NOTIFY_FAILURE, ERROR_RBTREE_NOT_FOUND.toNat⟩)
  | notifyOneNone (h : Nat) : w.conds h = some [] →
      HStep w (.notifyOne h) (bk w w.cur ⟨.cond, COND_NOTIFY_SUCCESS, 0⟩)
  | notifyOne (h f : Nat) (l : List Nat) : w.conds h = some (f :: l) →
      HStep w (.notifyOne h) (bk (bks (setCond w h (some l)) [f]) w.cur ⟨.cond, COND_NOTIFY_SUCCESS, 0⟩)
  | notifyAllFail (h : Nat) : w.conds h = none →
      HStep w (.notifyAll h) (bk w w.cur ⟨.cond, COND_NOTIFY_FAILURE, ERROR_RBTREE_NOT_FOUND.toNat⟩)
  | notifyAll (h : Nat) (l : List Nat) : w.conds h = some l →
      HStep w (.notifyAll h) (bk (bks (setCond w h (some [])) l) w.cur ⟨.cond, COND_NOTIFY_SUCCESS, 0⟩)

theorem handler_ok {w : Sys} {c : Call} {o : Oracle} (hq : ∀ k, o.q k = SUCCESS) (hr : c.isRequest = false) :
    (∃ w1, handler w c o = (w1, SUCCESS) ∧ HStep w c w1) ∨
    (∃ f, c = .add f ∧ o.a 0 ≠ SUCCESS ∧ handler w c o = (w, o.a 0)) := by
  have hn : ERROR_RBTREE_NOT_FOUND ≠ SUCCESS := by decide
  cases c with
  | run =>
    left
    by_cases h : w.cur = w.idle
    · exact ⟨w, by simp [handler, runH, h], .idle h⟩
    · exact ⟨_, by simp only [handler, runH, if_neg h, back_ok (hq 0)], .run h⟩
  | add f =>
    by_cases h : o.a 0 = SUCCESS
    · left
      by_cases hm : w.mgmt = 0
      · exact ⟨_, by simp [handler, addH, h, back_ok (hq 0), front_ok (hq 1), hm], .add f (insertFib f w.tree) hm⟩
      · exact ⟨_, by simp [handler, addH, h, back_ok (hq 0), front_ok (hq 1), front_ok (hq 2), hm],
          .addM f (insertFib f w.tree) hm⟩
    · right; exact ⟨f, rfl, h, by simp [handler, addH, h]⟩
  | stop =>
    left
    by_cases hm : w.mgmt = 0
    · exact ⟨_, by simp [handler, stopH, hm] <;> rfl, .stop _ hm⟩
    · exact ⟨_, by simp [handler, stopH, hm, front_ok (hq 0)], .stopM (fun g => if g = w.cur then .stopped else w.state g) hm⟩
  | release => left; exact ⟨_, by simp only [handler, releaseH, front_ok (hq 0)], .release⟩
  | mgmtReceive => left; exact ⟨_, rfl, .mgmtReceive⟩
  | quiesce f => simp [Call.isRequest] at hr
  | terminate f => simp [Call.isRequest] at hr
  | quiesceAll => simp [Call.isRequest] at hr
  | terminateAll => simp [Call.isRequest] at hr
  | boxCreate =>
    left
    by_cases h : boxResource (o.a 0) (o.a 1) (o.a 2) = SUCCESS
    · by_cases h3 : o.a 3 = SUCCESS
      · exact ⟨_, by simp [handler, boxCreateH, h, h3, front_ok (hq 0)] <;> rfl, .boxCreate⟩
      · exact ⟨_, by simp [handler, boxCreateH, h, h3, front_ok (hq 0)] <;> rfl, .boxCreateFail (o.a 4)⟩
    · exact ⟨_, by simp [handler, boxCreateH, h, front_ok (hq 0)] <;> rfl,
        .boxCreateFail (boxResource (o.a 0) (o.a 1) (o.a 2))⟩
  | boxClose a =>
    left
    cases hb : w.boxes a with
    | none => exact ⟨_, by simp [handler, boxCloseH, hb, front_ok (hq 0)] <;> rfl, .boxCloseFail a _ hb hn⟩
    | some b => exact ⟨_, by simp [handler, boxCloseH, hb, front_ok (hq 0)] <;> rfl, .boxClose a b _ hb⟩
  | send a m =>
    left
    cases hb : w.boxes a with
    | none => exact ⟨_, by simp [handler, sendH, hb, front_ok (hq 0)] <;> rfl, .sendFail a m _ hn⟩
    | some b =>
      by_cases h : o.a 0 = SUCCESS
      · by_cases hbl : b.blocked = 0
        · exact ⟨_, by simp [handler, sendH, hb, h, hbl, front_ok (hq 0)] <;> rfl, .send a m b hb hbl⟩
        · cases hms : b.msgs ++ [m] with
          | nil => simp at hms
          | cons m' ms =>
            exact ⟨_, by simp [handler, sendH, hb, h, hbl, hms, front_ok (hq 0), front_ok (hq 1)] <;> rfl,
              .sendWake a m m' ms b hb hbl hms⟩
      · exact ⟨_, by simp [handler, sendH, hb, h, front_ok (hq 0)] <;> rfl, .sendFail a m _ h⟩
  | receive a =>
    left
    cases hb : w.boxes a with
    | none => exact ⟨_, by simp [handler, receiveH, hb, front_ok (hq 0)] <;> rfl, .receiveFail a _ hn⟩
    | some b =>
      obtain ⟨x, msgs⟩ := b
      cases msgs with
      | nil =>
        by_cases hx : x = 0
        · subst hx; exact ⟨_, by simp [handler, receiveH, hb] <;> rfl, .receiveBlock a hb⟩
        · exact ⟨_, by simp [handler, receiveH, hb, hx, front_ok (hq 0)] <;> rfl,
            .receiveFail a ERROR_MESSAGE_ALREADY_BLOCKED (by decide)⟩
      | cons m ms => exact ⟨_, by simp [handler, receiveH, hb, front_ok (hq 0)] <;> rfl, .receive a m x ms hb⟩
  | condCreate =>
    left
    by_cases h : boxResource (o.a 0) (o.a 1) (o.a 2) = SUCCESS
    · by_cases h3 : o.a 3 = SUCCESS
      · exact ⟨_, by simp [handler, condCreateH, h, h3, front_ok (hq 0)] <;> rfl, .condCreate⟩
      · exact ⟨_, by simp [handler, condCreateH, h, h3, front_ok (hq 0)] <;> rfl, .condCreateFail (o.a 4)⟩
    · exact ⟨_, by simp [handler, condCreateH, h, front_ok (hq 0)] <;> rfl,
        .condCreateFail (boxResource (o.a 0) (o.a 1) (o.a 2))⟩
  | condClose h =>
    left
    cases hb : w.conds h with
    | none => exact ⟨_, by simp [handler, condCloseH, hb, front_ok (hq 0)] <;> rfl, .condCloseFail h _ hb hn⟩
    | some l =>
      by_cases h0 : o.a 0 = SUCCESS
      · exact ⟨_, by simp [handler, condCloseH, hb, h0, front_ok (hq 0)] <;> rfl, .condClose h l _ hb (Or.inl rfl)⟩
      · exact ⟨_, by simp [handler, condCloseH, hb, h0, front_ok (hq 0)] <;> rfl,
          .condClose h l _ hb (Or.inr ⟨o.a 0, h0, rfl⟩)⟩
  | wait h =>
    left
    cases hb : w.conds h with
    | none => exact ⟨_, by simp [handler, waitH, hb, front_ok (hq 0)] <;> rfl, .waitFail h _ hn⟩
    | some l =>
      by_cases h0 : o.a 0 = SUCCESS
      · exact ⟨_, by simp [handler, waitH, hb, h0] <;> rfl, .wait h l hb⟩
      · exact ⟨_, by simp [handler, waitH, hb, h0, front_ok (hq 0)] <;> rfl, .waitFail h _ h0⟩
  | notifyOne h =>
    left
    cases hb : w.conds h with
    | none => exact ⟨_, by simp [handler, notifyOneH, hb, back_ok (hq 0)] <;> rfl, .notifyOneFail h hb⟩
    | some l =>
      cases l with
      | nil => exact ⟨_, by simp [handler, notifyOneH, hb, back_ok (hq 0)] <;> rfl, .notifyOneNone h hb⟩
      | cons f l =>
        exact ⟨_, by simp [handler, notifyOneH, hb, back_ok (hq 0), back_ok (hq 1)] <;> rfl, .notifyOne h f l hb⟩
  | notifyAll h =>
    left
    cases hb : w.conds h with
    | none => exact ⟨_, by simp [handler, notifyAllH, hb, back_ok (hq 0)] <;> rfl, .notifyAllFail h hb⟩
    | some l =>
      exact ⟨_, by simp only [handler, notifyAllH, hb, notifyLoop_ok hq, back_ok (hq _)] <;> rfl, .notifyAll h l hb⟩

/-! ### The invariant -/

/-- Who is where: `q` are the fibers that can run, `call` what the others are inside of. -/
structure J (w : Sys) (call : Nat → Option Call) (q : List Nat) : Prop where
  nodup : q.Nodup
  nz : ∀ f ∈ q, f ≠ 0
  box : ∀ a b, w.boxes a = some b → b.blocked ≠ 0 →
    b.blocked ∉ q ∧ call b.blocked = some (.receive a) ∧ b.msgs = []
  cond : ∀ h l, w.conds h = some l → l.Nodup ∧ ∀ f ∈ l, f ≠ 0 ∧ f ∉ q ∧ call f = some (.wait h)
  mgmt : w.mgmt ≠ 0 → w.mgmt ∉ q ∧ call w.mgmt = some .mgmtReceive
  idle : w.idle ≠ 0 → call w.idle = none ∨ call w.idle = some .run
  bidx : ∀ a, w.boxes a ≠ none → 1 ≤ a ∧ a ≤ w.mindex
  cidx : ∀ h, w.conds h ≠ none → 1 ≤ h ∧ h ≤ w.cindex

/-- What a fiber that stays in the run queue will be resumed with. -/
def Tight (c : Option Call) (e : Ev) : Prop :=
  match c with
  | none => e = ⟨.internal, RESUME_ADD_FIBER, 0⟩
  | some .run => e = ⟨.internal, RESUME_RUN, 0⟩
  | some (.add _) => e = ⟨.internal, RESUME_ADD_FIBER, 0⟩
  | some (.send _ _) => e = ⟨.msg, MSG_SEND_SUCCESS, 0⟩
  | some (.wait _) => e = ⟨.cond, COND_WAIT_SUCCESS, 0⟩
  | some (.notifyOne _) => e.disc = .cond ∧ (e.code = COND_NOTIFY_SUCCESS ∨ e.code = COND_NOTIFY_FAILURE)
  | some (.notifyAll _) => e.disc = .cond ∧ (e.code = COND_NOTIFY_SUCCESS ∨ e.code = COND_NOTIFY_FAILURE)
  | _ => False

/-- What the first fiber of the run queue may be resumed with. -/
def Loose (c : Option Call) (e : Ev) : Prop :=
  match c with
  | none => e = ⟨.internal, RESUME_ADD_FIBER, 0⟩
  | some c => Answers c e

theorem Tight.loose {c : Option Call} {e : Ev} (h : Tight c e) : Loose c e := by
  cases c with
  | none => exact h
  | some c =>
    cases c <;> simp only [Tight] at h <;> simp only [Loose, Answers]
    case run => exact Or.inl h
    case add => exact h
    case send => subst h; exact ⟨rfl, Or.inl rfl⟩
    case wait => subst h; exact ⟨rfl, Or.inl rfl⟩
    case notifyOne => exact h
    case notifyAll => exact h

structure Inv (w : Sys) : Prop where
  j : J w w.call (w.cur :: w.runq)
  cur : w.call w.cur = none
  tight : ∀ f ∈ w.runq, Tight (w.call f) (w.ev f)

/-- after the handler, before the switch -/
structure Mid (w : Sys) (call : Nat → Option Call) : Prop where
  j : J w call w.runq
  head : ∀ f q, w.runq = f :: q → Loose (call f) (w.ev f) ∧ ∀ g ∈ q, Tight (call g) (w.ev g)

/-- the calls the fibers are inside of, once `y` has made call `c` -/
def inside (w : Sys) (c : Call) : Nat → Option Call := fun g => if g = w.cur then some c else w.call g

theorem J.congr {w w' : Sys} {call : Nat → Option Call} {q : List Nat} (j : J w call q)
    (h1 : w'.boxes = w.boxes) (h2 : w'.conds = w.conds) (h3 : w'.mgmt = w.mgmt) (h4 : w'.idle = w.idle)
    (h5 : w'.mindex = w.mindex) (h6 : w'.cindex = w.cindex) : J w' call q := by
  refine ⟨j.nodup, j.nz, ?_, ?_, ?_, ?_, ?_, ?_⟩
  · rw [h1]; exact j.box
  · rw [h2]; exact j.cond
  · rw [h3]; exact j.mgmt
  · rw [h4]; exact j.idle
  · rw [h1, h5]; exact j.bidx
  · rw [h2, h6]; exact j.cidx

theorem J.perm {w : Sys} {call : Nat → Option Call} {q q' : List Nat} (j : J w call q) (h : q.Perm q') :
    J w call q' := by
  refine ⟨h.nodup_iff.1 j.nodup, fun f hf => j.nz f (h.mem_iff.2 hf), ?_, ?_, ?_, j.idle, j.bidx, j.cidx⟩
  · intro a b hb hn
    obtain ⟨p, q⟩ := j.box a b hb hn
    exact ⟨fun hm => p (h.mem_iff.2 hm), q⟩
  · intro a l hl
    obtain ⟨p, q⟩ := j.cond a l hl
    refine ⟨p, fun f hf => ?_⟩
    obtain ⟨r, s, t⟩ := q f hf
    exact ⟨r, fun hm => s (h.mem_iff.2 hm), t⟩
  · intro hn
    obtain ⟨p, q⟩ := j.mgmt hn
    exact ⟨fun hm => p (h.mem_iff.2 hm), q⟩

theorem J.tail {w : Sys} {call : Nat → Option Call} {y : Nat} {q : List Nat} (j : J w call (y :: q)) :
    J w call q := by
  refine ⟨(List.nodup_cons.1 j.nodup).2, fun f hf => j.nz f (List.mem_cons_of_mem _ hf), ?_, ?_, ?_, j.idle,
    j.bidx, j.cidx⟩
  · intro a b hb hn
    obtain ⟨p, q⟩ := j.box a b hb hn
    exact ⟨fun hm => p (List.mem_cons_of_mem _ hm), q⟩
  · intro a l hl
    obtain ⟨p, q⟩ := j.cond a l hl
    refine ⟨p, fun f hf => ?_⟩
    obtain ⟨r, s, t⟩ := q f hf
    exact ⟨r, fun hm => s (List.mem_cons_of_mem _ hm), t⟩
  · intro hn
    obtain ⟨p, q⟩ := j.mgmt hn
    exact ⟨fun hm => p (List.mem_cons_of_mem _ hm), q⟩

/-- a fiber that waits nowhere may become runnable -/
theorem J.cons {w : Sys} {call : Nat → Option Call} {f : Nat} {q : List Nat} (j : J w call q) (hq : f ∉ q)
    (h0 : f ≠ 0) (hb : ∀ a b, w.boxes a = some b → b.blocked ≠ f) (hc : ∀ h l, w.conds h = some l → f ∉ l)
    (hm : w.mgmt ≠ f) : J w call (f :: q) := by
  refine ⟨List.nodup_cons.2 ⟨hq, j.nodup⟩, ?_, ?_, ?_, ?_, j.idle, j.bidx, j.cidx⟩
  · intro g hg
    rcases List.mem_cons.1 hg with rfl | hg
    · exact h0
    · exact j.nz g hg
  · intro a b hab hn
    obtain ⟨p, q⟩ := j.box a b hab hn
    refine ⟨fun h => ?_, q⟩
    rcases List.mem_cons.1 h with h | h
    · exact hb a b hab h
    · exact p h
  · intro a l hl
    obtain ⟨p, q⟩ := j.cond a l hl
    refine ⟨p, fun g hg => ?_⟩
    obtain ⟨r, s, t⟩ := q g hg
    refine ⟨r, fun h => ?_, t⟩
    rcases List.mem_cons.1 h with h | h
    · subst h; exact hc a l hl hg
    · exact s h
  · intro hn
    obtain ⟨p, q⟩ := j.mgmt hn
    refine ⟨fun h => ?_, q⟩
    rcases List.mem_cons.1 h with h | h
    · exact hm h
    · exact p h

theorem J.setBox {w : Sys} {call : Nat → Option Call} {q : List Nat} (j : J w call q) {a : Nat} {b : Option Box}
    (hi : b = none ∨ 1 ≤ a ∧ a ≤ w.mindex)
    (hb : ∀ x, b = some x → x.blocked ≠ 0 → x.blocked ∉ q ∧ call x.blocked = some (.receive a) ∧ x.msgs = []) :
    J (setBox w a b) call q := by
  refine ⟨j.nodup, j.nz, ?_, j.cond, j.mgmt, j.idle, ?_, j.cidx⟩
  · intro a' b' h hn
    replace h : (if a' = a then b else w.boxes a') = some b' := h
    split at h
    · next ha => subst ha; exact hb b' h hn
    · exact j.box a' b' h hn
  · intro a' h
    replace h : (if a' = a then b else w.boxes a') ≠ none := h
    split at h
    · next ha =>
      subst ha
      rcases hi with hi | hi
      · exact absurd hi h
      · exact hi
    · exact j.bidx a' h

theorem J.setCond {w : Sys} {call : Nat → Option Call} {q : List Nat} (j : J w call q) {h : Nat} {l : Option (List Nat)}
    (hi : l = none ∨ 1 ≤ h ∧ h ≤ w.cindex)
    (hl : ∀ x, l = some x → x.Nodup ∧ ∀ f ∈ x, f ≠ 0 ∧ f ∉ q ∧ call f = some (.wait h)) :
    J (setCond w h l) call q := by
  refine ⟨j.nodup, j.nz, j.box, ?_, j.mgmt, j.idle, j.bidx, ?_⟩
  · intro a' b' hh
    replace hh : (if a' = h then l else w.conds a') = some b' := hh
    split at hh
    · next ha => subst ha; exact hl b' hh
    · exact j.cond a' b' hh
  · intro a' hh
    replace hh : (if a' = h then l else w.conds a') ≠ none := hh
    split at hh
    · next ha =>
      subst ha
      rcases hi with hi | hi
      · exact absurd hi hh
      · exact hi
    · exact j.cidx a' hh

theorem Inv.before {w : Sys} {c : Call} (i : Inv w) (h : w.cur = w.idle → c = .run) :
    J w (inside w c) (w.cur :: w.runq) ∧ ∀ f ∈ w.runq, Tight (inside w c f) (w.ev f) := by
  have ne : ∀ f, f ∉ w.cur :: w.runq → inside w c f = w.call f := by
    intro f hf
    unfold inside
    rw [if_neg (fun h => hf (by simp [h]))]
  refine ⟨⟨i.j.nodup, i.j.nz, ?_, ?_, ?_, ?_, i.j.bidx, i.j.cidx⟩, ?_⟩
  · intro a b hb hn
    obtain ⟨p, q⟩ := i.j.box a b hb hn
    exact ⟨p, by rw [ne _ p]; exact q⟩
  · intro a l hl
    obtain ⟨p, q⟩ := i.j.cond a l hl
    refine ⟨p, fun f hf => ?_⟩
    obtain ⟨r, s, t⟩ := q f hf
    exact ⟨r, s, by rw [ne _ s]; exact t⟩
  · intro hn
    obtain ⟨p, q⟩ := i.j.mgmt hn
    exact ⟨p, by rw [ne _ p]; exact q⟩
  · intro hn
    unfold inside
    split
    · next he => right; rw [h he.symm]
    · exact i.j.idle hn
  · intro f hf
    have : f ≠ w.cur := by
      intro he; subst he; exact (List.nodup_cons.1 i.j.nodup).1 hf
    unfold inside
    rw [if_neg this]; exact i.tight f hf

/-- put the running fiber in front -/
theorem Mid.fr {w w' : Sys} {call : Nat → Option Call} {y : Nat} {e : Ev} (j : J w' call (y :: w.runq))
    (hr : w'.runq = w.runq) (he : w'.ev = w.ev) (t : ∀ f ∈ w.runq, Tight (call f) (w.ev f))
    (hy : Loose (call y) e) : Mid (fr w' y e) call := by
  refine ⟨J.congr (w := w') (q := y :: w'.runq) (by rw [hr]; exact j) rfl rfl rfl rfl rfl rfl, ?_⟩
  intro f q h
  simp only [Fiber.fr, List.cons.injEq] at h
  obtain ⟨rfl, rfl⟩ := h
  refine ⟨by simpa [Fiber.fr, setEv] using hy, fun g hg => ?_⟩
  rw [hr] at hg
  have : g ≠ y := by intro hh; subst hh; exact (List.nodup_cons.1 j.nodup).1 hg
  have e1 : (Fiber.fr w' y e).ev g = w.ev g := by simp [Fiber.fr, setEv, this, he]
  rw [e1]; exact t g hg

/-- the run queue with fibers appended -/
theorem mid_of_tight {w : Sys} {call : Nat → Option Call} (j : J w call w.runq)
    (t : ∀ f ∈ w.runq, Tight (call f) (w.ev f)) : Mid w call := by
  refine ⟨j, ?_⟩
  intro f q h
  rw [h] at t
  exact ⟨(t f (by simp)).loose, fun g hg => t g (List.mem_cons_of_mem _ hg)⟩

theorem bks_fields (l : List Nat) : ∀ w : Sys, (bks w l).boxes = w.boxes ∧ (bks w l).conds = w.conds ∧
    (bks w l).mgmt = w.mgmt ∧ (bks w l).idle = w.idle ∧ (bks w l).mindex = w.mindex ∧
    (bks w l).cindex = w.cindex ∧ (bks w l).runq = w.runq ++ l ∧ (bks w l).cur = w.cur ∧
    (bks w l).call = w.call ∧ (∀ f ∉ l, (bks w l).ev f = w.ev f) ∧
    (∀ f ∈ l, (bks w l).ev f = ⟨.cond, COND_WAIT_SUCCESS, 0⟩) := by
  induction l with
  | nil => intro w; simp [bks]
  | cons f l ih =>
    intro w
    have := ih (bk w f ⟨.cond, COND_WAIT_SUCCESS, 0⟩)
    obtain ⟨h1, h2, h3, h4, h5, h6, h7, h8, h9, h10, h11⟩ := this
    have e : bks w (f :: l) = bks (bk w f ⟨.cond, COND_WAIT_SUCCESS, 0⟩) l := rfl
    rw [e]
    refine ⟨h1, h2, h3, h4, h5, h6, by rw [h7]; simp [bk], h8, h9, ?_, ?_⟩
    · intro g hg
      simp only [List.mem_cons, not_or] at hg
      rw [h10 g hg.2]; simp [bk, setEv, hg.1]
    · intro g hg
      by_cases hgl : g ∈ l
      · exact h11 g hgl
      · rw [h10 g hgl]
        rcases List.mem_cons.1 hg with h | h
        · simp [bk, setEv, h]
        · exact absurd h hgl

/-- several fibers that wait nowhere become runnable -/
theorem J.append {w : Sys} {call : Nat → Option Call} {q : List Nat} (j : J w call q) : ∀ l : List Nat,
    l.Nodup → (∀ f ∈ l, f ∉ q ∧ f ≠ 0 ∧ (∀ a b, w.boxes a = some b → b.blocked ≠ f) ∧
      (∀ h l, w.conds h = some l → f ∉ l) ∧ w.mgmt ≠ f) → J w call (l ++ q) := by
  intro l
  induction l with
  | nil => intro _ _; exact j
  | cons f l ih =>
    intro hn h
    obtain ⟨h1, h2, h3, h4, h5⟩ := h f (by simp)
    have hn := List.nodup_cons.1 hn
    refine (ih hn.2 fun g hg => h g (List.mem_cons_of_mem _ hg)).cons ?_ h2 h3 h4 h5
    intro hm
    rcases List.mem_append.1 hm with hm | hm
    · exact hn.1 hm
    · exact h1 hm

theorem inside_cur (w : Sys) (c : Call) : inside w c w.cur = some c := by simp [inside]

/-- notify: the fibers `l` of the wait list are woken, then the caller -/
theorem mid_notify {w : Sys} {c : Call} {h : Nat} {l l' : List Nat} (j : J w (inside w c) (w.cur :: w.runq))
    (t : ∀ f ∈ w.runq, Tight (inside w c f) (w.ev f)) (hl : w.conds h = some (l ++ l')) (hc : c = .notifyOne h ∨ c = .notifyAll h) :
    Mid (bk (bks (setCond w h (some l')) l) w.cur ⟨.cond, COND_NOTIFY_SUCCESS, 0⟩) (inside w c) := by
  obtain ⟨c1, c2⟩ := j.cond h _ hl
  have hnd := List.nodup_append.1 c1
  have j1 : J (setCond w h (some l')) (inside w c) (w.cur :: w.runq) := by
    refine j.setCond (Or.inr (j.cidx h (by simp [hl]))) ?_
    intro x hx; cases hx
    exact ⟨hnd.2.1, fun f hf => c2 f (by simp [hf])⟩
  have j2 : J (setCond w h (some l')) (inside w c) (l ++ w.cur :: w.runq) := by
    refine j1.append l hnd.1 ?_
    intro f hf
    obtain ⟨r, s, t⟩ := c2 f (by simp [hf])
    refine ⟨s, r, ?_, ?_, ?_⟩
    · intro a b hb he
      have := (j.box a b hb (by rw [he]; exact r)).2.1
      rw [he, t] at this; cases this
    · intro h' x hx hfx
      replace hx : (if h' = h then some l' else w.conds h') = some x := hx
      split at hx
      · cases hx; exact hnd.2.2 f hf f hfx rfl
      · next hne =>
        have := ((j.cond h' x hx).2 f hfx).2.2
        rw [t] at this; cases this; exact hne rfl
    · intro he
      replace he : w.mgmt = f := he
      have := (j.mgmt (by rw [he]; exact r)).2
      rw [he, t] at this; cases this
  obtain ⟨h1, h2, h3, h4, h5, h6, h7, h8, h9, h10, h11⟩ := bks_fields l (setCond w h (some l'))
  have hcur : w.cur ∉ l ++ w.runq := by
    have hp : (l ++ w.cur :: w.runq).Perm (w.cur :: (l ++ w.runq)) := List.perm_middle
    exact (List.nodup_cons.1 (hp.nodup_iff.1 j2.nodup)).1
  have hr : (bk (bks (setCond w h (some l')) l) w.cur ⟨.cond, COND_NOTIFY_SUCCESS, 0⟩).runq
      = w.runq ++ l ++ [w.cur] := by simp only [bk, h7]; rfl
  refine mid_of_tight ?_ ?_
  · rw [hr]
    refine (j2.congr (w' := bk (bks (setCond w h (some l')) l) w.cur ⟨.cond, COND_NOTIFY_SUCCESS, 0⟩)
      h1 h2 h3 h4 h5 h6).perm ?_
    refine List.perm_middle.trans ?_
    refine (List.Perm.cons _ List.perm_append_comm).trans ?_
    exact (List.perm_append_comm (l₁ := [w.cur]) (l₂ := w.runq ++ l))
  · intro f hf
    rw [hr] at hf
    by_cases he : f = w.cur
    · subst he
      rw [inside_cur]
      have : (bk (bks (setCond w h (some l')) l) w.cur ⟨.cond, COND_NOTIFY_SUCCESS, 0⟩).ev w.cur
          = ⟨.cond, COND_NOTIFY_SUCCESS, 0⟩ := by simp [bk, setEv]
      rw [this]
      rcases hc with rfl | rfl <;> exact ⟨rfl, Or.inl rfl⟩
    · have e1 : (bk (bks (setCond w h (some l')) l) w.cur ⟨.cond, COND_NOTIFY_SUCCESS, 0⟩).ev f
          = (bks (setCond w h (some l')) l).ev f := by simp [bk, setEv, he]
      rw [e1]
      by_cases hfl : f ∈ l
      · rw [h11 f hfl, (c2 f (by simp [hfl])).2.2]; exact rfl
      · rw [h10 f hfl]
        refine t f ?_
        simpa [hfl, he] using hf

/-- the caller goes to the back of the queue -/
theorem mid_back {w : Sys} {c : Call} {e : Ev} (j : J w (inside w c) (w.cur :: w.runq))
    (t : ∀ f ∈ w.runq, Tight (inside w c f) (w.ev f)) (he : Tight (some c) e) :
    Mid (bk w w.cur e) (inside w c) := by
  refine mid_of_tight ((j.perm (q' := w.runq ++ [w.cur]) ?_).congr rfl rfl rfl rfl rfl rfl) ?_
  · exact List.perm_append_comm (l₁ := [w.cur])
  · intro f hf
    by_cases hy : f = w.cur
    · subst hy; rw [inside_cur]; simpa [bk, setEv] using he
    · have : (bk w w.cur e).ev f = w.ev f := by simp [bk, setEv, hy]
      rw [this]; refine t f ?_; simpa [bk, hy] using hf

theorem J.nomgmt {w : Sys} {call : Nat → Option Call} {q : List Nat} (j : J w call q) :
    J { w with mgmt := 0 } call q :=
  ⟨j.nodup, j.nz, j.box, j.cond, fun h => absurd rfl h, j.idle, j.bidx, j.cidx⟩

theorem hstep_mid {w w1 : Sys} {c : Call} {o : Oracle} (i : Inv w) (lg : Legal w c o) (h : HStep w c w1) :
    Mid w1 (inside w c) := by
  obtain ⟨j, t⟩ := i.before (c := c) lg.idle
  have hy0 : w.cur ≠ 0 := j.nz _ (by simp)
  cases h with
  | run h => exact mid_back j t rfl
  | idle h => exact mid_of_tight j.tail t
  | add f tr hm =>
    obtain ⟨f0, fq, fc⟩ := lg.fresh f rfl
    have hne : f ≠ w.cur := fun h => fq (by simp [h])
    have fc' : inside w (.add f) f = none := by simp [inside, hne, fc]
    have j1 : J w (inside w (.add f)) (f :: w.cur :: w.runq) := by
      refine j.cons fq f0 ?_ ?_ ?_
      · intro a b hb he
        have := (j.box a b hb (by rw [he]; exact f0)).2.1
        rw [he, fc'] at this; cases this
      · intro h x hx hfx
        have := ((j.cond h x hx).2 f hfx).2.2
        rw [fc'] at this; cases this
      · rw [hm]; exact f0.symm
    refine Mid.fr (w := bk { w with tree := tr } f ⟨.internal, RESUME_ADD_FIBER, 0⟩) ?_ rfl rfl ?_ ?_
    · refine (j1.perm (q' := w.cur :: (w.runq ++ [f])) ?_).congr rfl rfl rfl rfl rfl rfl
      refine (List.Perm.swap _ _ _).trans (List.Perm.cons _ ?_)
      exact List.perm_append_comm (l₁ := [f])
    · intro g hg
      by_cases hgf : g = f
      · subst hgf; rw [fc']; simp [bk, setEv, Tight]
      · have : (bk { w with tree := tr } f ⟨.internal, RESUME_ADD_FIBER, 0⟩).ev g = w.ev g := by
          simp [bk, setEv, hgf]
        rw [this]; refine t g ?_; simpa [bk, hgf] using hg
    · rw [inside_cur]; exact rfl
  | addM f tr hm =>
    obtain ⟨f0, fq, fc⟩ := lg.fresh f rfl
    have hne : f ≠ w.cur := fun h => fq (by simp [h])
    have fc' : inside w (.add f) f = none := by simp [inside, hne, fc]
    obtain ⟨m1, m2⟩ := j.mgmt hm
    have hmf : w.mgmt ≠ f := by intro h; rw [h, fc'] at m2; cases m2
    have hmy : w.mgmt ≠ w.cur := fun h => m1 (by simp [h])
    have j1 : J w (inside w (.add f)) (f :: w.cur :: w.runq) := by
      refine j.cons fq f0 ?_ ?_ hmf
      · intro a b hb he
        have := (j.box a b hb (by rw [he]; exact f0)).2.1
        rw [he, fc'] at this; cases this
      · intro h x hx hfx
        have := ((j.cond h x hx).2 f hfx).2.2
        rw [fc'] at this; cases this
    have j2 : J { w with mgmt := 0 } (inside w (.add f)) (w.mgmt :: f :: w.cur :: w.runq) := by
      refine j1.nomgmt.cons ?_ hm ?_ ?_ hm.symm
      · intro h
        rcases List.mem_cons.1 h with h | h
        · exact hmf h
        · exact m1 h
      · intro a b hb he
        have := (j.box a b hb (by rw [he]; exact hm)).2.1
        rw [he, m2] at this; cases this
      · intro h x hx hfx
        have := ((j.cond h x hx).2 w.mgmt hfx).2.2
        rw [m2] at this; cases this
    refine ⟨(j2.perm (q' := w.mgmt :: w.cur :: (w.runq ++ [f])) ?_).congr rfl rfl rfl rfl rfl rfl, ?_⟩
    · refine List.Perm.cons _ ?_
      refine (List.Perm.swap _ _ _).trans (List.Perm.cons _ ?_)
      exact List.perm_append_comm (l₁ := [f])
    · intro g q hq
      simp only [fr, bk, List.cons.injEq] at hq
      obtain ⟨rfl, rfl⟩ := hq
      refine ⟨?_, ?_⟩
      · rw [m2]; simp [fr, setEv, Loose, Answers]
      · intro g hg
        have hgm : g ≠ w.mgmt := by
          intro h; subst h
          simp only [List.mem_cons, List.mem_append, List.mem_singleton, List.not_mem_nil, or_false, setEv] at hg
          rcases hg with h | h | h
          · exact hmy h
          · exact m1 (List.mem_cons_of_mem _ h)
          · exact hmf h
        by_cases hgy : g = w.cur
        · subst hgy; rw [inside_cur]; simp [fr, setEv, hgm, Tight]
        · by_cases hgf : g = f
          · subst hgf; rw [fc']; simp [fr, bk, setEv, hgm, hgy, Tight]
          · simp only [List.mem_cons, List.mem_append, List.mem_singleton, setEv, hgy, hgf, false_or, or_false,
              List.not_mem_nil] at hg
            have := t g hg
            simpa [fr, bk, setEv, hgm, hgy, hgf] using this
  | stop s hm => exact mid_of_tight (j.tail.congr rfl rfl rfl rfl rfl rfl) t
  | stopM s hm =>
    obtain ⟨m1, m2⟩ := j.mgmt hm
    have j2 : J { w with mgmt := 0 } (inside w .stop) (w.mgmt :: w.runq) := by
      refine j.tail.nomgmt.cons ?_ hm ?_ ?_ hm.symm
      · exact fun h => m1 (List.mem_cons_of_mem _ h)
      · intro a b hb he
        have := (j.box a b hb (by rw [he]; exact hm)).2.1
        rw [he, m2] at this; cases this
      · intro h x hx hfx
        have := ((j.cond h x hx).2 w.mgmt hfx).2.2
        rw [m2] at this; cases this
    refine ⟨j2.congr rfl rfl rfl rfl rfl rfl, ?_⟩
    intro g q hq
    simp only [fr, List.cons.injEq] at hq
    obtain ⟨rfl, rfl⟩ := hq
    refine ⟨by rw [m2]; simp [fr, setEv, Loose, Answers], ?_⟩
    intro g hg
    have hgm : g ≠ w.mgmt := by
      intro h; subst h; exact m1 (List.mem_cons_of_mem _ hg)
    have := t g hg
    simpa [fr, setEv, hgm] using this
  | release => exact Mid.fr j rfl rfl t (by rw [inside_cur]; exact rfl)
  | mgmtReceive =>
    refine mid_of_tight ?_ t
    have jt := j.tail
    refine ⟨jt.nodup, jt.nz, jt.box, jt.cond, fun _ => ⟨(List.nodup_cons.1 j.nodup).1, inside_cur _ _⟩,
      jt.idle, jt.bidx, jt.cidx⟩
  | boxCreateFail st => exact Mid.fr j rfl rfl t (by rw [inside_cur]; exact ⟨rfl, Or.inr rfl⟩)
  | boxCreate =>
    refine Mid.fr (w := w) ?_ rfl rfl t (by rw [inside_cur]; exact ⟨rfl, Or.inl rfl⟩)
    have jb : J { w with mindex := w.mindex + 1 } (inside w .boxCreate) (w.cur :: w.runq) :=
      ⟨j.nodup, j.nz, j.box, j.cond, j.mgmt, j.idle,
        fun a ha => ⟨(j.bidx a ha).1, Nat.le_succ_of_le (j.bidx a ha).2⟩, j.cidx⟩
    refine (jb.setBox (a := w.mindex + 1) (b := some ⟨0, []⟩) (Or.inr ⟨by omega, Nat.le_refl _⟩) ?_).congr
      rfl rfl rfl rfl rfl rfl
    intro x hx hn; cases hx; exact absurd rfl hn
  | boxCloseFail a st => exact Mid.fr j rfl rfl t (by rw [inside_cur]; exact ⟨rfl, rfl⟩)
  | boxClose a b st hb =>
    refine Mid.fr (w := w) ?_ rfl rfl t (by rw [inside_cur]; exact ⟨rfl, rfl⟩)
    exact j.setBox (Or.inl rfl) (fun x hx => by cases hx)
  | sendFail a m st => exact Mid.fr j rfl rfl t (by rw [inside_cur]; exact ⟨rfl, Or.inr rfl⟩)
  | send a m b hb hbl =>
    refine Mid.fr (w := w) ?_ rfl rfl t (by rw [inside_cur]; exact ⟨rfl, Or.inl rfl⟩)
    refine j.setBox (Or.inr (j.bidx a (by simp [hb]))) ?_
    intro x hx hn; cases hx; exact absurd rfl hn
  | sendWake a m m' ms b hb hbl hms =>
    obtain ⟨b1, b2, b3⟩ := j.box a b hb hbl
    have hby : b.blocked ≠ w.cur := fun h => b1 (by simp [h])
    have j1 : J (setBox w a (some ⟨0, ms⟩)) (inside w (.send a m)) (w.cur :: w.runq) := by
      refine j.setBox (Or.inr (j.bidx a (by simp [hb]))) ?_
      intro x hx hn; cases hx; exact absurd rfl hn
    have j2 : J (setBox w a (some ⟨0, ms⟩)) (inside w (.send a m)) (b.blocked :: w.cur :: w.runq) := by
      refine j1.cons b1 hbl ?_ ?_ ?_
      · intro a' x hx he
        replace hx : (if a' = a then some ⟨0, ms⟩ else w.boxes a') = some x := hx
        split at hx
        · cases hx; exact hbl he.symm
        · next hne =>
          have := (j.box a' x hx (by rw [he]; exact hbl)).2.1
          rw [he, b2] at this; cases this; exact hne rfl
      · intro h x hx hfx
        have := ((j.cond h x hx).2 _ hfx).2.2
        rw [b2] at this; cases this
      · intro he
        replace he : w.mgmt = b.blocked := he
        have := (j.mgmt (by rw [he]; exact hbl)).2
        rw [he, b2] at this; cases this
    refine ⟨(J.congr (w := setBox w a (some ⟨0, ms⟩)) j2 ?_ rfl rfl rfl rfl rfl), ?_⟩
    · funext x; simp only [fr, setBox, setEv]; split <;> rfl
    · intro g q hq
      simp only [fr, List.cons.injEq] at hq
      obtain ⟨rfl, rfl⟩ := hq
      refine ⟨by rw [b2]; simp [fr, setEv, Loose, Answers], ?_⟩
      intro g hg
      have hg : g ∈ w.cur :: w.runq := hg
      have hgb : g ≠ b.blocked := by intro h; subst h; exact b1 hg
      by_cases hgy : g = w.cur
      · subst hgy; rw [inside_cur]; simp [fr, setEv, setBox, hgb, Tight]
      · have := t g (by simpa [hgy] using hg)
        simpa [fr, setEv, setBox, hgb, hgy] using this
  | receiveFail a st => exact Mid.fr j rfl rfl t (by rw [inside_cur]; exact ⟨rfl, Or.inr rfl⟩)
  | receiveBlock a hb =>
    refine mid_of_tight ?_ t
    refine j.tail.setBox (Or.inr (j.bidx a (by simp [hb]))) ?_
    intro x hx _; cases hx
    exact ⟨(List.nodup_cons.1 j.nodup).1, inside_cur _ _, rfl⟩
  | receive a m x ms hb =>
    refine Mid.fr (w := w) ?_ rfl rfl t (by rw [inside_cur]; exact ⟨rfl, Or.inl rfl⟩)
    refine j.setBox (Or.inr (j.bidx a (by simp [hb]))) ?_
    intro y hy hn; cases hy
    have := (j.box a _ hb hn).2.2
    cases this
  | condCreateFail st => exact Mid.fr j rfl rfl t (by rw [inside_cur]; exact ⟨rfl, Or.inr rfl⟩)
  | condCreate =>
    refine Mid.fr (w := w) ?_ rfl rfl t (by rw [inside_cur]; exact ⟨rfl, Or.inl rfl⟩)
    have jb : J { w with cindex := w.cindex + 1 } (inside w .condCreate) (w.cur :: w.runq) :=
      ⟨j.nodup, j.nz, j.box, j.cond, j.mgmt, j.idle, j.bidx,
        fun a ha => ⟨(j.cidx a ha).1, Nat.le_succ_of_le (j.cidx a ha).2⟩⟩
    refine (jb.setCond (h := w.cindex + 1) (l := some []) (Or.inr ⟨by omega, Nat.le_refl _⟩) ?_).congr
      rfl rfl rfl rfl rfl rfl
    intro x hx; cases hx; exact ⟨List.nodup_nil, fun f hf => by cases hf⟩
  | condCloseFail h st => exact Mid.fr j rfl rfl t (by rw [inside_cur]; exact ⟨rfl, Or.inr rfl⟩)
  | condClose h l e hl he =>
    refine Mid.fr (w := w) ?_ rfl rfl t ?_
    · exact j.setCond (Or.inl rfl) (fun x hx => by cases hx)
    · rw [inside_cur]
      rcases he with rfl | ⟨st, _, rfl⟩
      · exact ⟨rfl, Or.inl rfl⟩
      · exact ⟨rfl, Or.inr rfl⟩
  | waitFail h st => exact Mid.fr j rfl rfl t (by rw [inside_cur]; exact ⟨rfl, Or.inr rfl⟩)
  | wait h l hl =>
    refine mid_of_tight ?_ t
    obtain ⟨c1, c2⟩ := j.cond h l hl
    refine j.tail.setCond (Or.inr (j.cidx h (by simp [hl]))) ?_
    intro x hx; cases hx
    have hyl : w.cur ∉ l := fun hm => (c2 _ hm).2.1 (by simp)
    refine ⟨?_, ?_⟩
    · rw [List.nodup_append]
      refine ⟨c1, by simp, ?_⟩
      intro a ha b hb; simp only [List.mem_singleton] at hb; subst hb
      exact fun h => hyl (h ▸ ha)
    · intro f hf
      rcases List.mem_append.1 hf with hf | hf
      · obtain ⟨r, s, u⟩ := c2 f hf
        exact ⟨r, fun h => s (List.mem_cons_of_mem _ h), u⟩
      · simp only [List.mem_singleton] at hf; subst hf
        exact ⟨hy0, (List.nodup_cons.1 j.nodup).1, inside_cur _ _⟩
  | notifyOneFail h hl => exact mid_back j t ⟨rfl, Or.inr rfl⟩
  | notifyOneNone h hl => exact mid_back j t ⟨rfl, Or.inl rfl⟩
  | notifyOne h f l hl => exact mid_notify (l := [f]) (l' := l) j t hl (Or.inl rfl)
  | notifyAllFail h hl => exact mid_back j t ⟨rfl, Or.inr rfl⟩
  | notifyAll h l hl => exact mid_notify (l := l) (l' := []) j t (by simpa using hl) (Or.inr rfl)

/-! ### One call -/

theorem hstep_frame {w w1 : Sys} {c : Call} (h : HStep w c w1) :
    w1.call = w.call ∧ w1.idle = w.idle ∧ (w.runq ≠ [] → w1.runq ≠ []) := by
  cases h <;>
    first
    | exact ⟨rfl, rfl, fun h => h⟩
    | exact ⟨rfl, rfl, fun _ => by simp [fr, bk]⟩
    | (rename_i l _
       obtain ⟨h1, h2, h3, h4, h5, h6, h7, h8, h9, h10, h11⟩ := bks_fields l (setCond w _ (some []))
       exact ⟨h9, h4, fun _ => by simp [bk]⟩)

/-- what a fiber that is switched to sees -/
def nextOf (c : Option Call) (f : Nat) (e : Ev) : Next :=
  match c with
  | some c => .ret f c e
  | none => .start f e

/-- the state after the switch from `w1` to `f` -/
structure After (w1 : Sys) (call : Nat → Option Call) (f : Nat) (q : List Nat) (w2 : Sys) : Prop where
  cur : w2.cur = f
  runq : w2.runq = q
  call : w2.call = fun g => if g = f then none else call g
  ev : ∀ g, g ≠ f → w2.ev g = w1.ev g
  boxes : w2.boxes = w1.boxes
  conds : w2.conds = w1.conds
  mgmt : w2.mgmt = w1.mgmt
  idle : w2.idle = w1.idle
  mindex : w2.mindex = w1.mindex
  cindex : w2.cindex = w1.cindex

theorem switch_after {w1 w : Sys} {c : Call} {f : Nat} {q : List Nat} {e : Ev} (hc : w1.call = w.call) :
    After w1 (inside w c) f q (switch { setCall w1 w.cur c with runq := q } f e).1 ∧
    (switch { setCall w1 w.cur c with runq := q } f e).2 = nextOf (inside w c f) f e := by
  have hcf : ({ setCall w1 w.cur c with runq := q } : Sys).call = inside w c := by
    unfold inside setCall; simp [hc]
  unfold switch
  rw [hcf]
  cases hi : inside w c f with
  | some c' => exact ⟨⟨rfl, rfl, rfl, fun g hg => if_neg hg, rfl, rfl, rfl, rfl, rfl, rfl⟩, rfl⟩
  | none =>
    refine ⟨⟨rfl, rfl, ?_, fun g hg => if_neg hg, rfl, rfl, rfl, rfl, rfl, rfl⟩, rfl⟩
    funext g
    show ({ setCall w1 w.cur c with runq := q } : Sys).call g = _
    rw [hcf]
    by_cases hg : g = f
    · subst hg; simp [hi]
    · simp [hg]

/-- the outcome of a legal call -/
structure Out (w : Sys) (c : Call) (w2 : Sys) (it : Item) : Prop where
  out : ∃ w1 f q e, HStep w c w1 ∧ Mid w1 (inside w c) ∧ After w1 (inside w c) f q w2 ∧
    it = ⟨w.cur, c, nextOf (inside w c f) f e⟩ ∧
    (w1.runq = f :: q ∧ e = w1.ev f ∨
      w1.runq = [] ∧ q = [] ∧ f = w1.idle ∧ f ≠ 0 ∧ e = ⟨.internal, RESUME_IDLE, 0⟩)

theorem step_ok {w : Sys} {c : Call} {o : Oracle} (i : Inv w) (lg : Legal w c o) :
    (∃ f, c = .add f ∧ step w c o = (w, ⟨w.cur, c, .fail (o.a 0)⟩)) ∨ Out w c (step w c o).1 (step w c o).2 := by
  rcases handler_ok (w := w) lg.alloc lg.request with ⟨w1, h, hs⟩ | ⟨f, hc, ha, h⟩
  · right
    obtain ⟨f1, f2, f3⟩ := hstep_frame hs
    have m := hstep_mid i lg hs
    cases hr : w1.runq with
    | nil =>
      have hi : w1.idle ≠ 0 := by
        rw [f2]
        rcases lg.more with h | h
        · exact h
        · exact absurd hr (f3 h)
      obtain ⟨a1, a2⟩ := switch_after (w1 := w1) (w := w) (c := c) (f := w1.idle) (q := w1.runq)
        (e := ⟨.internal, RESUME_IDLE, 0⟩) f1
      have e : step w c o = ((switch (setCall w1 w.cur c) w1.idle ⟨.internal, RESUME_IDLE, 0⟩).1,
          ⟨w.cur, c, (switch (setCall w1 w.cur c) w1.idle ⟨.internal, RESUME_IDLE, 0⟩).2⟩) := by
        simp [step, h, hr, hi]
      rw [e]
      refine ⟨w1, w1.idle, [], ⟨.internal, RESUME_IDLE, 0⟩, hs, m, ?_, ?_, Or.inr ⟨hr, rfl, rfl, hi, rfl⟩⟩
      · rw [← hr]; exact a1
      · show Item.mk _ _ _ = _
        congr 1
    | cons f q =>
      obtain ⟨a1, a2⟩ := switch_after (w1 := w1) (w := w) (c := c) (f := f) (q := q) (e := w1.ev f) f1
      have e : step w c o = ((switch { setCall w1 w.cur c with runq := q } f (w1.ev f)).1,
          ⟨w.cur, c, (switch { setCall w1 w.cur c with runq := q } f (w1.ev f)).2⟩) := by
        simp [step, h, hr]
      rw [e]
      refine ⟨w1, f, q, w1.ev f, hs, m, a1, ?_, Or.inl ⟨hr, rfl⟩⟩
      show Item.mk _ _ _ = _
      congr 1
  · left
    refine ⟨f, hc, ?_⟩
    simp [step, h, ha]

/-- the fiber switched to was inside no call, or sees an answer to its call -/
theorem Out.loose {w w1 : Sys} {c : Call} {f : Nat} {q : List Nat} {e : Ev} (m : Mid w1 (inside w c))
    (h : w1.runq = f :: q ∧ e = w1.ev f ∨
      w1.runq = [] ∧ q = [] ∧ f = w1.idle ∧ f ≠ 0 ∧ e = ⟨.internal, RESUME_IDLE, 0⟩) :
    (inside w c f = none ∧ Starts e) ∨ ∃ c', inside w c f = some c' ∧ Answers c' e := by
  rcases h with ⟨h1, h2⟩ | ⟨h1, h2, h3, h4, h5⟩
  · have hl := (m.head f q h1).1
    rw [h2]
    cases hc : inside w c f with
    | none => rw [hc] at hl; exact Or.inl ⟨rfl, Or.inl hl⟩
    | some c' => rw [hc] at hl; exact Or.inr ⟨c', rfl, hl⟩
  · subst h3
    subst h5
    rcases m.j.idle h4 with h | h
    · exact Or.inl ⟨h, Or.inr rfl⟩
    · exact Or.inr ⟨.run, h, Or.inr rfl⟩

theorem Out.inv {w w2 : Sys} {c : Call} {it : Item} (h : Out w c w2 it) : Inv w2 := by
  obtain ⟨w1, f, q, e, hs, m, a, rfl, hf⟩ := h.out
  have hj : J w1 (inside w c) (f :: q) := by
    rcases hf with ⟨h1, h2⟩ | ⟨h1, h2, h3, h4, h5⟩
    · rw [← h1]; exact m.j
    · have j := m.j
      rw [h1] at j
      subst h2
      have hidle := j.idle (h3 ▸ h4)
      rw [← h3] at hidle
      refine j.cons (by simp) h4 ?_ ?_ ?_
      · intro a b hb he
        have := (j.box a b hb (by rw [he]; exact h4)).2.1
        rw [he] at this
        rcases hidle with h | h <;> rw [h] at this <;> cases this
      · intro x l hl hfl
        have := ((j.cond x l hl).2 f hfl).2.2
        rcases hidle with h | h <;> rw [h] at this <;> cases this
      · intro he
        have := (j.mgmt (by rw [he]; exact h4)).2
        rw [he] at this
        rcases hidle with h | h <;> rw [h] at this <;> cases this
  have ne : ∀ g, g ∉ f :: q → w2.call g = inside w c g := by
    intro g hg
    rw [a.call]
    show (if g = f then none else _) = _
    rw [if_neg (fun h => hg (by simp [h]))]
  have ht : ∀ g ∈ q, Tight (inside w c g) (w1.ev g) := by
    rcases hf with ⟨h1, h2⟩ | ⟨h1, h2, h3, h4, h5⟩
    · exact (m.head f q h1).2
    · subst h2; intro g hg; cases hg
  refine ⟨?_, ?_, ?_⟩
  · rw [a.cur, a.runq]
    have j' : J w1 w2.call (f :: q) := by
      refine ⟨hj.nodup, hj.nz, ?_, ?_, ?_, ?_, hj.bidx, hj.cidx⟩
      · intro x b hb hn
        obtain ⟨p, r⟩ := hj.box x b hb hn
        exact ⟨p, by rw [ne _ p]; exact r⟩
      · intro x l hl
        obtain ⟨p, r⟩ := hj.cond x l hl
        refine ⟨p, fun g hg => ?_⟩
        obtain ⟨r, s, t⟩ := r g hg
        exact ⟨r, s, by rw [ne _ s]; exact t⟩
      · intro hn
        obtain ⟨p, r⟩ := hj.mgmt hn
        exact ⟨p, by rw [ne _ p]; exact r⟩
      · intro hn
        rw [a.call]
        show (if w1.idle = f then none else _) = _ ∨ (if w1.idle = f then none else _) = _
        by_cases hif : w1.idle = f
        · simp [hif]
        · simp only [if_neg hif]; exact hj.idle hn
    exact j'.congr a.boxes a.conds a.mgmt a.idle a.mindex a.cindex
  · rw [a.cur, a.call]; simp
  · rw [a.runq]
    intro g hg
    have hgf : g ≠ f := by intro h; subst h; exact (List.nodup_cons.1 hj.nodup).1 hg
    rw [a.call, a.ev g hgf]
    simp only [if_neg hgf]
    exact ht g hg

theorem Hist.inv {main idle : Nat} {w : Sys} {tr : List Item} (h : Hist main idle w tr) : Inv w := by
  induction h with
  | init h0 hi =>
    refine ⟨⟨by simp [Fiber.init], by simpa [Fiber.init] using h0, ?_, ?_, ?_, fun _ => Or.inl rfl, ?_, ?_⟩, rfl, ?_⟩
    · intro a b hb; cases hb
    · intro a b hb; cases hb
    · intro h; exact absurd rfl h
    · intro a h; exact absurd rfl h
    · intro a h; exact absurd rfl h
    · intro f hf; cases hf
  | step c o _ lg ih =>
    rcases step_ok ih lg with ⟨f, _, h⟩ | h
    · rw [h]; exact ih
    · exact h.inv

end Rcpr.Fiber
