import Verif.FiberHist

/-! Lemmas that hold for all histories, with failing allocations and management requests. -/
namespace Rcpr.Fiber

open Rcpr

theorem front_boxes (w : Sys) (f : Nat) (e : Ev) (st : Status) : (front w f e st).1.boxes = w.boxes ∧
    (front w f e st).1.mindex = w.mindex ∧ (front w f e st).1.call = w.call := by
  unfold front; split <;> exact ⟨rfl, rfl, rfl⟩

theorem back_boxes (w : Sys) (f : Nat) (e : Ev) (st : Status) : (back w f e st).1.boxes = w.boxes ∧
    (back w f e st).1.mindex = w.mindex ∧ (back w f e st).1.call = w.call := by
  unfold back; split <;> exact ⟨rfl, rfl, rfl⟩

theorem requestLoop_boxes (code y : Nat) (o : Oracle) : ∀ (l : List Nat) (k : Nat) (w : Sys),
    (requestLoop code y o l k w).1.boxes = w.boxes ∧ (requestLoop code y o l k w).1.mindex = w.mindex ∧
    (requestLoop code y o l k w).1.call = w.call := by
  intro l
  induction l with
  | nil => intro k w; exact ⟨rfl, rfl, rfl⟩
  | cons f l ih =>
    intro k w
    unfold requestLoop
    have hb := back_boxes w f ⟨.mgmt, code, 0⟩ (o.q k)
    split
    · simp only
      split
      · exact hb
      · obtain ⟨h1, h2, h3⟩ := ih (k + 1) (back w f ⟨.mgmt, code, 0⟩ (o.q k)).1
        exact ⟨h1.trans hb.1, h2.trans hb.2.1, h3.trans hb.2.2⟩
    · exact ih k w

theorem notifyLoop_boxes (o : Oracle) : ∀ (l : List Nat) (k : Nat) (st : Status) (w : Sys),
    (notifyLoop o l k st w).1.boxes = w.boxes ∧ (notifyLoop o l k st w).1.mindex = w.mindex ∧
    (notifyLoop o l k st w).1.call = w.call := by
  intro l
  induction l with
  | nil => intro k st w; exact ⟨rfl, rfl, rfl⟩
  | cons f l ih =>
    intro k st w
    unfold notifyLoop
    have hb := back_boxes w f ⟨.cond, COND_WAIT_SUCCESS, SUCCESS.toNat⟩ (o.q k)
    simp only
    obtain ⟨h1, h2, h3⟩ := ih (k + 1) (back w f ⟨.cond, COND_WAIT_SUCCESS, SUCCESS.toNat⟩ (o.q k)).2
      (back w f ⟨.cond, COND_WAIT_SUCCESS, SUCCESS.toNat⟩ (o.q k)).1
    exact ⟨h1.trans hb.1, h2.trans hb.2.1, h3.trans hb.2.2⟩

/-- `w1` has the mailboxes of `w`, or fewer -/
structure Fewer (w w1 : Sys) : Prop where
  mindex : w1.mindex = w.mindex
  boxes : ∀ a, w.boxes a = none → w1.boxes a = none
  call : w1.call = w.call

theorem Fewer.of_eq {w w1 : Sys} (h : w1.boxes = w.boxes ∧ w1.mindex = w.mindex ∧ w1.call = w.call) : Fewer w w1 :=
  ⟨h.2.1, fun a ha => by rw [h.1]; exact ha, h.2.2⟩

theorem Fewer.trans {w w1 w2 : Sys} (h : Fewer w w1) (h' : Fewer w1 w2) : Fewer w w2 :=
  ⟨h'.mindex.trans h.mindex, fun a ha => h'.boxes a (h.boxes a ha), h'.call.trans h.call⟩

theorem Fewer.front {w w1 : Sys} (h : Fewer w w1) (f : Nat) (e : Ev) (st : Status) : Fewer w (front w1 f e st).1 :=
  h.trans (.of_eq (front_boxes w1 f e st))

theorem Fewer.back {w w1 : Sys} (h : Fewer w w1) (f : Nat) (e : Ev) (st : Status) : Fewer w (back w1 f e st).1 :=
  h.trans (.of_eq (back_boxes w1 f e st))

theorem Fewer.refl (w : Sys) : Fewer w w := .of_eq ⟨rfl, rfl, rfl⟩

theorem Fewer.setBox {w w1 : Sys} (h : Fewer w w1) {a : Nat} {b : Option Box} (hb : w.boxes a ≠ none) :
    Fewer w (setBox w1 a b) := by
  refine ⟨h.mindex, ?_, h.call⟩
  intro x hx
  show (if x = a then b else w1.boxes x) = none
  rw [if_neg (by intro hxa; subst hxa; exact hb hx)]
  exact h.boxes x hx

theorem Fewer.clear {w w1 : Sys} (h : Fewer w w1) (a : Nat) : Fewer w (Fiber.setBox w1 a none) := by
  refine ⟨h.mindex, ?_, h.call⟩
  intro x hx
  show (if x = a then none else w1.boxes x) = none
  split
  · rfl
  · exact h.boxes x hx

/-- what a call does to the mailboxes -/
theorem handler_boxes (w : Sys) (c : Call) (o : Oracle) : Fewer w (handler w c o).1 ∨
    (c = .boxCreate ∧ (handler w c o).1.mindex = w.mindex + 1 ∧ (handler w c o).1.call = w.call ∧
      (handler w c o).1.boxes = fun x => if x = w.mindex + 1 then some ⟨0, []⟩ else w.boxes x) := by
  have base : ∀ {w1 : Sys}, w1.boxes = w.boxes → w1.mindex = w.mindex → w1.call = w.call → Fewer w w1 :=
    fun h1 h2 h3 => .of_eq ⟨h1, h2, h3⟩
  cases c with
  | run =>
    left; simp only [handler, runH]
    split
    · exact .refl w
    · exact (Fewer.refl w).back _ _ _
  | add f =>
    left
    simp only [handler, addH]
    split
    · exact .refl w
    · have h1 : Fewer w (back { w with tree := insertFib f w.tree } f ⟨.internal, RESUME_ADD_FIBER, 0⟩ (o.q 0)).1 :=
        (base (w1 := { w with tree := insertFib f w.tree }) rfl rfl rfl).back _ _ _
      split
      · exact ⟨h1.mindex, h1.boxes, h1.call⟩
      · have h2 := h1.front w.cur ⟨.internal, RESUME_ADD_FIBER, 0⟩ (o.q 1)
        split
        · exact h2
        · split
          · have h3 := h2.front w.mgmt ⟨.mgmt, MGMT_FIBER_ADD, f⟩ (o.q 2)
            split
            · exact h3
            · exact ⟨h3.mindex, h3.boxes, h3.call⟩
          · exact h2
  | stop =>
    left
    simp only [handler, stopH]
    split
    · have h3 := (base (w1 := { w with state := fun g => if g = w.cur then .stopped else w.state g }) rfl rfl rfl).front
        w.mgmt ⟨.mgmt, MGMT_FIBER_STOP, w.cur⟩ (o.q 0)
      split
      · exact h3
      · exact ⟨h3.mindex, h3.boxes, h3.call⟩
    · exact base rfl rfl rfl
  | release => left; exact (Fewer.refl w).front _ _ _
  | mgmtReceive => left; exact base rfl rfl rfl
  | quiesce f =>
    left; simp only [handler, requestH]
    split
    · exact (Fewer.refl w).front _ _ _
    · split
      · exact (Fewer.refl w).front _ _ _
      · exact ((Fewer.refl w).front _ _ _).front _ _ _
  | terminate f =>
    left; simp only [handler, requestH]
    split
    · exact (Fewer.refl w).front _ _ _
    · split
      · exact (Fewer.refl w).front _ _ _
      · exact ((Fewer.refl w).front _ _ _).front _ _ _
  | quiesceAll =>
    left; simp only [handler, requestAllH]
    split
    · exact .of_eq (requestLoop_boxes _ _ _ _ _ _)
    · exact (Fewer.of_eq (requestLoop_boxes _ _ _ _ _ _)).back _ _ _
  | terminateAll =>
    left; simp only [handler, requestAllH]
    split
    · exact .of_eq (requestLoop_boxes _ _ _ _ _ _)
    · exact (Fewer.of_eq (requestLoop_boxes _ _ _ _ _ _)).back _ _ _
  | boxCreate =>
    simp only [handler, boxCreateH]
    split
    · left; exact (Fewer.refl w).front _ _ _
    · split
      · left; exact (Fewer.refl w).front _ _ _
      · right
        refine ⟨trivial, ?_, ?_, ?_⟩
        · rw [(front_boxes _ _ _ _).2.1]
        · rw [(front_boxes _ _ _ _).2.2]; rfl
        · rw [(front_boxes _ _ _ _).1]; rfl
  | boxClose a =>
    left; simp only [handler, boxCloseH]
    split
    · exact (Fewer.refl w).front _ _ _
    · exact ((Fewer.refl w).clear a).front _ _ _
  | send a m =>
    left; simp only [handler, sendH]
    split
    · exact (Fewer.refl w).front _ _ _
    · next b hb =>
      have hb : w.boxes a ≠ none := by simp [hb]
      split
      · exact (Fewer.refl w).front _ _ _
      · split
        · exact ((Fewer.refl w).setBox hb).front _ _ _
        · split
          · split
            · exact (((Fewer.refl w).setBox hb).front _ _ _).setBox hb
            · exact ((((Fewer.refl w).setBox hb).front _ _ _).setBox hb).front _ _ _
          · exact ((Fewer.refl w).setBox hb).front _ _ _
  | receive a =>
    left; simp only [handler, receiveH]
    split
    · exact (Fewer.refl w).front _ _ _
    · next b hb =>
      have hb : w.boxes a ≠ none := by simp [hb]
      split
      · split
        · exact (Fewer.refl w).front _ _ _
        · exact (Fewer.refl w).setBox hb
      · exact ((Fewer.refl w).setBox hb).front _ _ _
  | condCreate =>
    left; simp only [handler, condCreateH]
    split
    · exact (Fewer.refl w).front _ _ _
    · split
      · exact (Fewer.refl w).front _ _ _
      · exact (base (w1 := { setCond w (w.cindex + 1) (some []) with cindex := w.cindex + 1 }) rfl rfl rfl).front _ _ _
  | condClose h =>
    left; simp only [handler, condCloseH]
    split
    · exact (Fewer.refl w).front _ _ _
    · split <;> exact (base (w1 := setCond w h none) rfl rfl rfl).front _ _ _
  | wait h =>
    left; simp only [handler, waitH]
    split
    · exact (Fewer.refl w).front _ _ _
    · split
      · exact (Fewer.refl w).front _ _ _
      · exact base rfl rfl rfl
  | notifyOne h =>
    left; simp only [handler, notifyOneH]
    split
    · exact (Fewer.refl w).back _ _ _
    · exact (Fewer.refl w).back _ _ _
    · next f l _ =>
      exact ((base (w1 := setCond w h (some l)) rfl rfl rfl).back _ _ _).back _ _ _
  | notifyAll h =>
    left; simp only [handler, notifyAllH]
    split
    · exact (Fewer.refl w).back _ _ _
    · next l _ =>
      exact ((base (w1 := setCond w h (some [])) rfl rfl rfl).trans
        (.of_eq (notifyLoop_boxes _ _ _ _ _))).back _ _ _

/-- the switch at the end of a call that left `w1` -/
theorem step_fail {w : Sys} {c : Call} {o : Oracle} (h : (handler w c o).2 ≠ SUCCESS) :
    step w c o = ((handler w c o).1, ⟨w.cur, c, .fail (handler w c o).2⟩) := by simp [step, h]

theorem switch_boxes (w : Sys) (f : Nat) (e : Ev) : (switch w f e).1.boxes = w.boxes ∧
    (switch w f e).1.mindex = w.mindex ∧ (∀ g, (switch w f e).1.call g = w.call g ∨ (switch w f e).1.call g = none) ∧
    (switch w f e).2 = nextOf (w.call f) f e := by
  unfold switch nextOf
  cases h : w.call f with
  | none => exact ⟨rfl, rfl, fun _ => Or.inl rfl, rfl⟩
  | some c =>
    refine ⟨rfl, rfl, fun g => ?_, rfl⟩
    show (if g = f then none else w.call g) = _ ∨ (if g = f then none else w.call g) = _
    split
    · exact Or.inr rfl
    · exact Or.inl rfl

theorem step_boxes (w : Sys) (c : Call) (o : Oracle) : (step w c o).1.boxes = (handler w c o).1.boxes ∧
    (step w c o).1.mindex = (handler w c o).1.mindex ∧
    (∀ g, (step w c o).1.call g = (handler w c o).1.call g ∨ (step w c o).1.call g = none ∨
      (g = w.cur ∧ (step w c o).1.call g = some c)) ∧ (step w c o).2.call = c ∧ (step w c o).2.who = w.cur := by
  have hset : ∀ q g, ({ setCall (handler w c o).1 w.cur c with runq := q } : Sys).call g = (handler w c o).1.call g ∨
      (g = w.cur ∧ ({ setCall (handler w c o).1 w.cur c with runq := q } : Sys).call g = some c) := by
    intro q g
    show (if g = w.cur then some c else _) = _ ∨ (g = w.cur ∧ (if g = w.cur then some c else _) = _)
    split
    · right; exact ⟨‹_›, rfl⟩
    · left; rfl
  have sw : ∀ q f e,
      (switch { setCall (handler w c o).1 w.cur c with runq := q } f e).1.boxes = (handler w c o).1.boxes ∧
      (switch { setCall (handler w c o).1 w.cur c with runq := q } f e).1.mindex = (handler w c o).1.mindex ∧
      (∀ g, (switch { setCall (handler w c o).1 w.cur c with runq := q } f e).1.call g = (handler w c o).1.call g ∨
        (switch { setCall (handler w c o).1 w.cur c with runq := q } f e).1.call g = none ∨
        (g = w.cur ∧ (switch { setCall (handler w c o).1 w.cur c with runq := q } f e).1.call g = some c)) := by
    intro q f e
    obtain ⟨h1, h2, h3, _⟩ := switch_boxes { setCall (handler w c o).1 w.cur c with runq := q } f e
    refine ⟨h1, h2, fun g => ?_⟩
    rcases h3 g with h | h
    · rw [h]
      rcases hset q g with h | h
      · exact Or.inl h
      · exact Or.inr (Or.inr h)
    · exact Or.inr (Or.inl h)
  unfold step
  simp only
  split
  · exact ⟨rfl, rfl, fun g => Or.inl rfl, rfl, rfl⟩
  · split
    · next f q hq => exact ⟨(sw q f _).1, (sw q f _).2.1, (sw q f _).2.2, rfl, rfl⟩
    · split
      · have := sw (handler w c o).1.runq (handler w c o).1.idle ⟨.internal, RESUME_IDLE, 0⟩
        exact ⟨this.1, this.2.1, this.2.2, rfl, rfl⟩
      · exact ⟨rfl, rfl, fun g => Or.inl rfl, rfl, rfl⟩

/-- a call whose fiber is put in front: it fails on the spot or its fiber sees the event at once -/
theorem step_front {w w' : Sys} {c : Call} {o : Oracle} {e : Ev} {st : Status}
    (h : handler w c o = front w' w.cur e st) :
    (step w c o).2 = ⟨w.cur, c, .fail st⟩ ∧ st ≠ SUCCESS ∨
    ((step w c o).2 = ⟨w.cur, c, .ret w.cur c e⟩ ∧ (step w c o).1.call w.cur = none) := by
  by_cases hst : st = SUCCESS
  · right
    rw [front_ok hst] at h
    have : (fr w' w.cur e).runq = w.cur :: w'.runq := rfl
    simp [step, h, this, fr_ev, switch, setCall]
  · left
    have : handler w c o = (setEv w' w.cur e, st) := by rw [h]; simp [front, hst]
    rw [step_fail (by rw [this]; exact hst), this]
    exact ⟨rfl, hst⟩

structure AnyInv (w : Sys) (tr : List Item) : Prop where
  bidx : ∀ a, w.boxes a ≠ none → 1 ≤ a ∧ a ≤ w.mindex
  call : ∀ f, w.call f ≠ some .boxCreate
  made : ∀ a ∈ created tr, 1 ≤ a ∧ a ≤ w.mindex
  fresh : (created tr).Pairwise (· < ·)
  shut : ∀ a, closed a tr → w.boxes a = none ∧ a ≤ w.mindex

theorem closed_append {a : Nat} {tr : List Item} {i : Item} :
    closed a (tr ++ [i]) ↔ closed a tr ∨ (i.call = .boxClose a ∧ i.refused = false) := by
  simp [closed, or_and_right, exists_or]

/-- the outcome of `mailbox_create` -/
theorem create_out (w : Sys) (o : Oracle) :
    (∃ st, (step w .boxCreate o).2 = ⟨w.cur, .boxCreate, .fail st⟩ ∧ st ≠ SUCCESS) ∨
    (∃ e, (step w .boxCreate o).2 = ⟨w.cur, .boxCreate, .ret w.cur .boxCreate e⟩ ∧
      (step w .boxCreate o).1.call w.cur = none ∧
      (e.code = MSG_CREATE_FAILURE ∨
        e = ⟨.msg, MSG_CREATE_SUCCESS, w.mindex + 1⟩ ∧ (step w .boxCreate o).1.mindex = w.mindex + 1)) := by
  have fin : ∀ w' e st, handler w .boxCreate o = front w' w.cur e st →
      (e.code = MSG_CREATE_FAILURE ∨
        e = ⟨.msg, MSG_CREATE_SUCCESS, w.mindex + 1⟩ ∧ (step w .boxCreate o).1.mindex = w.mindex + 1) →
      (∃ st, (step w .boxCreate o).2 = ⟨w.cur, .boxCreate, .fail st⟩ ∧ st ≠ SUCCESS) ∨
      (∃ e, (step w .boxCreate o).2 = ⟨w.cur, .boxCreate, .ret w.cur .boxCreate e⟩ ∧
        (step w .boxCreate o).1.call w.cur = none ∧
        (e.code = MSG_CREATE_FAILURE ∨
          e = ⟨.msg, MSG_CREATE_SUCCESS, w.mindex + 1⟩ ∧ (step w .boxCreate o).1.mindex = w.mindex + 1)) := by
    intro w' e st h he
    rcases step_front h with h | h
    · exact Or.inl ⟨st, h.1, h.2⟩
    · exact Or.inr ⟨e, h.1, h.2, he⟩
  by_cases h0 : boxResource (o.a 0) (o.a 1) (o.a 2) = SUCCESS
  · by_cases h3 : o.a 3 = SUCCESS
    · have h : handler w .boxCreate o = front { setBox w (w.mindex + 1) (some ⟨0, []⟩) with mindex := w.mindex + 1 } w.cur
          ⟨.msg, MSG_CREATE_SUCCESS, w.mindex + 1⟩ (o.q 0) := by simp [handler, boxCreateH, h0, h3]
      refine fin _ _ _ h (Or.inr ⟨rfl, ?_⟩)
      rw [(step_boxes w .boxCreate o).2.1, h, (front_boxes _ _ _ _).2.1]
    · have h : handler w .boxCreate o = front w w.cur ⟨.msg, MSG_CREATE_FAILURE, (o.a 4).toNat⟩ (o.q 0) := by
        simp [handler, boxCreateH, h0, h3]
      exact fin _ _ _ h (Or.inl rfl)
  · have h : handler w .boxCreate o = front w w.cur
        ⟨.msg, MSG_CREATE_FAILURE, (boxResource (o.a 0) (o.a 1) (o.a 2)).toNat⟩ (o.q 0) := by
      simp [handler, boxCreateH, h0]
    exact fin _ _ _ h (Or.inl rfl)

theorem step_next (w : Sys) (c : Call) (o : Oracle) : (∃ st, (step w c o).2 = ⟨w.cur, c, .fail st⟩) ∨
    ∃ f e, (step w c o).2 = ⟨w.cur, c, nextOf (if f = w.cur then some c else (handler w c o).1.call f) f e⟩ := by
  unfold step
  simp only
  split
  · exact Or.inl ⟨_, rfl⟩
  · split
    · next f q hq =>
      right
      refine ⟨f, (handler w c o).1.ev f, ?_⟩
      rw [(switch_boxes _ _ _).2.2.2]; rfl
    · split
      · right
        refine ⟨(handler w c o).1.idle, ⟨.internal, RESUME_IDLE, 0⟩, ?_⟩
        rw [(switch_boxes _ _ _).2.2.2]; rfl
      · exact Or.inl ⟨_, rfl⟩

/-- a call on a mailbox that is not there is refused -/
theorem refused_of_none {w : Sys} {c : Call} {o : Oracle} {a : Nat} (hb : w.boxes a = none)
    (hc : c = .receive a ∨ c = .boxClose a ∨ ∃ m, c = .send a m) : (step w c o).2.refused = true := by
  have nf : (statusOf ERROR_RBTREE_NOT_FOUND.toNat) ≠ SUCCESS := by decide
  have fin : ∀ w' e st, handler w c o = front w' w.cur e st → (result c e).1 ≠ SUCCESS →
      (step w c o).2.refused = true := by
    intro w' e st h he
    rcases step_front h with h | h
    · rw [h.1]; rfl
    · rw [h.1]; simp [Item.refused, he]
  rcases hc with rfl | rfl | ⟨m, rfl⟩
  · refine fin w ⟨.msg, MSG_RECEIVE_FAILURE, ERROR_RBTREE_NOT_FOUND.toNat⟩ (o.q 0) ?_ nf
    simp [handler, receiveH, hb]
  · refine fin w ⟨.msg, MSG_CLOSE, ERROR_RBTREE_NOT_FOUND.toNat⟩ (o.q 0) ?_ nf
    simp [handler, boxCloseH, hb]
  · refine fin w ⟨.msg, MSG_SEND_FAILURE, ERROR_RBTREE_NOT_FOUND.toNat⟩ (o.q 0) ?_ nf
    simp [handler, sendH, hb]

theorem Any.inv {main idle : Nat} {w : Sys} {tr : List Item} (h : Any main idle w tr) : AnyInv w tr := by
  induction h with
  | init =>
    refine ⟨fun a h => absurd rfl h, fun f h => ?_, fun a h => ?_, List.Pairwise.nil, ?_⟩
    · cases h
    · cases h
    · rintro a ⟨i, hi, _⟩; cases hi
  | @step w tr c o _ ih =>
    obtain ⟨s1, s2, s3, s4, s5⟩ := step_boxes w c o
    have hcall1 : (handler w c o).1.call = w.call := by
      rcases handler_boxes w c o with h | h
      · exact h.call
      · exact h.2.2.1
    have hmono : w.mindex ≤ (Fiber.step w c o).1.mindex := by
      rw [s2]
      rcases handler_boxes w c o with h | h
      · exact Nat.le_of_eq h.mindex.symm
      · omega
    have hnone : ∀ a, w.boxes a = none → a ≤ w.mindex → (Fiber.step w c o).1.boxes a = none := by
      intro a ha hm
      rw [s1]
      rcases handler_boxes w c o with h | h
      · exact h.boxes a ha
      · rw [h.2.2.2]
        show (if a = w.mindex + 1 then _ else _) = _
        rw [if_neg (by omega)]; exact ha
    have hbidx : ∀ a, (Fiber.step w c o).1.boxes a ≠ none → 1 ≤ a ∧ a ≤ (Fiber.step w c o).1.mindex := by
      intro a ha
      rcases handler_boxes w c o with h | h
      · have := ih.bidx a (fun hn => ha (by rw [s1]; exact h.boxes a hn))
        rw [s2, h.mindex]; exact this
      · rw [s1, h.2.2.2] at ha
        rw [s2, h.2.1]
        by_cases hm : a = w.mindex + 1
        · omega
        · simp only [if_neg hm] at ha
          have := ih.bidx a ha; omega
    have hcreated : ((Fiber.step w c o).2.created = none ∨
        ((Fiber.step w c o).2.created = some (w.mindex + 1) ∧ (Fiber.step w c o).1.mindex = w.mindex + 1)) ∧
        ∀ f, (Fiber.step w c o).1.call f ≠ some .boxCreate := by
      by_cases hc : c = .boxCreate
      · subst hc
        rcases create_out w o with ⟨st, h, hst⟩ | ⟨e, h, hcc, he⟩
        · refine ⟨Or.inl (by rw [h]; rfl), ?_⟩
          intro f hf
          have hfail : (handler w .boxCreate o).2 ≠ SUCCESS ∨ (Fiber.step w .boxCreate o).1.call = (handler w .boxCreate o).1.call := by
            by_cases hs : (handler w .boxCreate o).2 = SUCCESS
            · right
              have h' := h
              unfold Fiber.step at h' ⊢
              simp only [hs, ne_eq, not_true_eq_false, if_false] at h' ⊢
              split
              · next f q hq =>
                rw [hq] at h'
                simp only [Item.mk.injEq, true_and] at h'
                rw [(switch_boxes _ _ _).2.2.2] at h'
                unfold nextOf at h'
                split at h' <;> cases h'
              · next hq =>
                rw [hq] at h'
                simp only at h'
                split at h'
                · simp only [Item.mk.injEq, true_and] at h'
                  rw [(switch_boxes _ _ _).2.2.2] at h'
                  unfold nextOf at h'
                  split at h' <;> cases h'
                · next hi => rw [if_neg hi]
            · exact Or.inl hs
          have : (Fiber.step w .boxCreate o).1.call = (handler w .boxCreate o).1.call := by
            rcases hfail with h | h
            · rw [step_fail h]
            · exact h
          rw [this, hcall1] at hf
          exact ih.call f hf
        · refine ⟨?_, ?_⟩
          · rw [h]
            rcases he with he | ⟨rfl, hm⟩
            · left; simp [Item.created, result, he]
            · right; exact ⟨by simp [Item.created, result, MSG_CREATE_SUCCESS, MSG_CREATE_FAILURE], hm⟩
          · intro f hf
            by_cases hfc : f = w.cur
            · subst hfc; rw [hcc] at hf; cases hf
            · rcases s3 f with h | h | h
              · rw [h, hcall1] at hf; exact ih.call f hf
              · rw [h] at hf; cases hf
              · exact hfc h.1
      · refine ⟨Or.inl ?_, ?_⟩
        · rcases step_next w c o with ⟨st, h⟩ | ⟨f, e, h⟩
          · rw [h]; rfl
          · rw [h]
            refine created_none ?_
            split
            · simpa using hc
            · rw [hcall1]; exact ih.call f
        · intro f hf
          rcases s3 f with h | h | h
          · rw [h, hcall1] at hf; exact ih.call f hf
          · rw [h] at hf; cases hf
          · rw [h.2] at hf; cases hf; exact hc rfl
    refine ⟨hbidx, hcreated.2, ?_, ?_, ?_⟩
    · intro a ha
      rw [created_append] at ha
      rcases List.mem_append.1 ha with ha | ha
      · have := ih.made a ha; omega
      · rcases hcreated.1 with h | ⟨h, hm⟩
        · rw [h] at ha; cases ha
        · rw [h] at ha; simp only [Option.toList_some, List.mem_singleton] at ha; omega
    · rw [created_append, List.pairwise_append]
      refine ⟨ih.fresh, ?_, ?_⟩
      · rcases hcreated.1 with h | ⟨h, hm⟩ <;> rw [h] <;> simp
      · intro a ha b hb
        rcases hcreated.1 with h | ⟨h, hm⟩
        · rw [h] at hb; cases hb
        · rw [h] at hb; simp only [Option.toList_some, List.mem_singleton] at hb
          have := ih.made a ha; omega
    · intro a ha
      rcases closed_append.1 ha with h | ⟨h1, h2⟩
      · obtain ⟨p, q⟩ := ih.shut a h
        exact ⟨hnone a p q, Nat.le_trans q hmono⟩
      · rw [s4] at h1; subst h1
        cases hb : w.boxes a with
        | none =>
          rw [refused_of_none hb (Or.inr (Or.inl rfl))] at h2; cases h2
        | some b =>
          refine ⟨?_, Nat.le_trans (ih.bidx a (by simp [hb])).2 hmono⟩
          rw [s1]
          simp only [handler, boxCloseH, hb]
          rw [(front_boxes _ _ _ _).1]
          simp [setBox]

end Rcpr.Fiber
