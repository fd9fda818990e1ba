import Verif.FiberRun

/-!
Lemmas about quiesce and terminate requests: which fibers are running, which fibers the scheduler knows.
-/
namespace Rcpr.Fiber

open Rcpr

/-! ### What can be seen of a fiber's life -/

/-- Fiber `f` has been entered: it is the main fiber, or some step started it. -/
def started (main f : Nat) (tr : List Item) : Prop := f = main ∨ ∃ it ∈ tr, ∃ e, it.next = .start f e

/-- Fiber `f` has come to the end of its entry function. -/
def ended (f : Nat) (tr : List Item) : Prop := ∃ it ∈ tr, it.who = f ∧ it.call = .stop

/-- Fiber `f` has been entered and its entry function has not ended. -/
def alive (main f : Nat) (tr : List Item) : Prop := started main f tr ∧ ¬ ended f tr

/-- `fiber_scheduler_add` for `f` succeeded. -/
def added (f : Nat) (tr : List Item) : Prop := ∃ it ∈ tr, it.call = .add f ∧ ∀ st, it.next ≠ .fail st

/-! ### Frames -/

theorem front_frame (w : Sys) (f : Nat) (e : Ev) (st : Status) :
    (front w f e st).1.state = w.state ∧ (front w f e st).1.tree = w.tree ∧ (front w f e st).1.cur = w.cur := by
  unfold front; split <;> exact ⟨rfl, rfl, rfl⟩

theorem back_frame (w : Sys) (f : Nat) (e : Ev) (st : Status) :
    (back w f e st).1.state = w.state ∧ (back w f e st).1.tree = w.tree ∧ (back w f e st).1.cur = w.cur := by
  unfold back; split <;> exact ⟨rfl, rfl, rfl⟩

theorem requestLoop_frame (code y : Nat) (o : Oracle) : ∀ (l : List Nat) (k : Nat) (w : Sys),
    (requestLoop code y o l k w).1.state = w.state ∧ (requestLoop code y o l k w).1.tree = w.tree ∧
    (requestLoop code y o l k w).1.cur = w.cur := by
  intro l
  induction l with
  | nil => intro k w; exact ⟨rfl, rfl, rfl⟩
  | cons f l ih =>
    intro k w
    simp only [requestLoop]
    split
    · split
      · exact back_frame _ _ _ _
      · obtain ⟨h1, h2, h3⟩ := ih (k + 1) (back w f ⟨.mgmt, code, 0⟩ (o.q k)).1
        obtain ⟨b1, b2, b3⟩ := back_frame w f ⟨.mgmt, code, 0⟩ (o.q k)
        exact ⟨h1.trans b1, h2.trans b2, h3.trans b3⟩
    · exact ih k w

theorem notifyLoop_frame (o : Oracle) : ∀ (l : List Nat) (k : Nat) (st : Status) (w : Sys),
    (notifyLoop o l k st w).1.state = w.state ∧ (notifyLoop o l k st w).1.tree = w.tree ∧
    (notifyLoop o l k st w).1.cur = w.cur := by
  intro l
  induction l with
  | nil => intro k st w; exact ⟨rfl, rfl, rfl⟩
  | cons f l ih =>
    intro k st w
    simp only [notifyLoop]
    obtain ⟨h1, h2, h3⟩ := ih (k + 1) (back w f ⟨.cond, COND_WAIT_SUCCESS, SUCCESS.toNat⟩ (o.q k)).2
      (back w f ⟨.cond, COND_WAIT_SUCCESS, SUCCESS.toNat⟩ (o.q k)).1
    obtain ⟨b1, b2, b3⟩ := back_frame w f ⟨.cond, COND_WAIT_SUCCESS, SUCCESS.toNat⟩ (o.q k)
    exact ⟨h1.trans b1, h2.trans b2, h3.trans b3⟩

/-- what the calls other than `add` and `stop` leave alone -/
theorem handler_frame (w : Sys) (c : Call) (o : Oracle) (ha : ∀ f, c ≠ .add f) (hs : c ≠ .stop) :
    (handler w c o).1.state = w.state ∧ (handler w c o).1.tree = w.tree ∧ (handler w c o).1.cur = w.cur := by
  cases c <;> simp only [handler]
  case add g => exact absurd rfl (ha g)
  case stop => exact absurd rfl hs
  case run => unfold runH; split <;> simp [back_frame]
  case release => simp [releaseH, front_frame]
  case mgmtReceive => exact ⟨rfl, rfl, rfl⟩
  case quiesce g => unfold requestH; simp only; (repeat' split) <;> simp [front_frame]
  case terminate g => unfold requestH; simp only; (repeat' split) <;> simp [front_frame]
  case quiesceAll => unfold requestAllH; simp only; (repeat' split) <;> simp [back_frame, requestLoop_frame]
  case terminateAll => unfold requestAllH; simp only; (repeat' split) <;> simp [back_frame, requestLoop_frame]
  case boxCreate => unfold boxCreateH; simp only; (repeat' split) <;> simp [front_frame, setBox]
  case boxClose a => unfold boxCloseH; (repeat' split) <;> simp [front_frame, setBox]
  case send a m => unfold sendH; simp only; (repeat' split) <;> simp [front_frame, setBox]
  case receive a => unfold receiveH; (repeat' split) <;> simp [front_frame, setBox]
  case condCreate => unfold condCreateH; simp only; (repeat' split) <;> simp [front_frame, setCond]
  case condClose a => unfold condCloseH; (repeat' split) <;> simp [front_frame, setCond]
  case wait a => unfold waitH; (repeat' split) <;> simp [front_frame, setCond]
  case notifyOne a => unfold notifyOneH; simp only; (repeat' split) <;> simp [back_frame, setCond]
  case notifyAll a => unfold notifyAllH; simp only; (repeat' split) <;> simp [back_frame, setCond, notifyLoop_frame]

theorem handler_add (w : Sys) (f : Nat) (o : Oracle) :
    (handler w (.add f) o).1.state = w.state ∧ (handler w (.add f) o).1.cur = w.cur ∧
    ((handler w (.add f) o).1.tree = w.tree ∨ (handler w (.add f) o).1.tree = insertFib f w.tree) ∧
    ((handler w (.add f) o).2 = SUCCESS → (handler w (.add f) o).1.tree = insertFib f w.tree) := by
  simp only [handler]
  unfold addH
  simp only
  repeat' split
  all_goals simp_all [front_frame, back_frame]

theorem handler_stop (w : Sys) (o : Oracle) :
    (handler w .stop o).1.state = (fun g => if g = w.cur then .stopped else w.state g) ∧
    (handler w .stop o).1.tree = w.tree ∧ (handler w .stop o).1.cur = w.cur := by
  simp only [handler]
  unfold stopH
  simp only
  repeat' split
  all_goals simp_all [front_frame]

theorem handler_state (w : Sys) (c : Call) (o : Oracle) (f : Nat) :
    (handler w c o).1.state f = if c = .stop ∧ f = w.cur then .stopped else w.state f := by
  by_cases hs : c = .stop
  · subst hs; rw [(handler_stop w o).1]; simp
  · by_cases ha : ∃ g, c = .add g
    · obtain ⟨g, rfl⟩ := ha; rw [(handler_add w g o).1]; simp
    · rw [(handler_frame w c o (fun g h => ha ⟨g, h⟩) hs).1]; simp [hs]

theorem handler_cur (w : Sys) (c : Call) (o : Oracle) : (handler w c o).1.cur = w.cur := by
  by_cases hs : c = .stop
  · subst hs; exact (handler_stop w o).2.2
  · by_cases ha : ∃ g, c = .add g
    · obtain ⟨g, rfl⟩ := ha; exact (handler_add w g o).2.1
    · exact (handler_frame w c o (fun g h => ha ⟨g, h⟩) hs).2.2

/-- the tree after a call: only `add` changes it -/
theorem handler_tree (w : Sys) (c : Call) (o : Oracle) (ha : ∀ f, c ≠ .add f) :
    (handler w c o).1.tree = w.tree := by
  by_cases hs : c = .stop
  · subst hs; exact (handler_stop w o).2.1
  · exact (handler_frame w c o ha hs).2.1

theorem mem_insertFib {f g : Nat} : ∀ {l : List Nat}, g ∈ insertFib f l ↔ g = f ∨ g ∈ l := by
  intro l
  induction l with
  | nil => simp [insertFib]
  | cons x l ih =>
    simp only [insertFib]
    split
    · simp
    · simp only [List.mem_cons, ih]
      constructor
      · rintro (h | h | h) <;> simp [h]
      · rintro (h | h | h) <;> simp [h]

/-! ### Steps -/

/-- A step fails and leaves the fiber running, or it switches to a fiber. -/
theorem step_shape (w : Sys) (c : Call) (o : Oracle) :
    (∃ st, step w c o = ((handler w c o).1, ⟨w.cur, c, .fail st⟩)) ∨
    ((handler w c o).2 = SUCCESS ∧ ∃ f q e,
      step w c o = ((switch { setCall (handler w c o).1 w.cur c with runq := q } f e).1,
        ⟨w.cur, c, (switch { setCall (handler w c o).1 w.cur c with runq := q } f e).2⟩)) := by
  unfold step
  simp only
  split
  · exact Or.inl ⟨_, rfl⟩
  · next h =>
    split
    · exact Or.inr ⟨by simpa using h, _, _, _, rfl⟩
    · split
      · exact Or.inr ⟨by simpa using h, _, (handler w c o).1.runq, _, rfl⟩
      · exact Or.inl ⟨_, rfl⟩

theorem started_append {main f : Nat} {tr : List Item} {it : Item} :
    started main f (tr ++ [it]) ↔ started main f tr ∨ ∃ e, it.next = .start f e := by
  simp only [started, List.mem_append, List.mem_singleton]
  constructor
  · rintro (h | ⟨i, h | rfl, e⟩)
    · exact Or.inl (Or.inl h)
    · exact Or.inl (Or.inr ⟨i, h, e⟩)
    · exact Or.inr e
  · rintro ((h | ⟨i, h, e⟩) | e)
    · exact Or.inl h
    · exact Or.inr ⟨i, Or.inl h, e⟩
    · exact Or.inr ⟨it, Or.inr rfl, e⟩

theorem ended_append {f : Nat} {tr : List Item} {it : Item} :
    ended f (tr ++ [it]) ↔ ended f tr ∨ it.who = f ∧ it.call = .stop := by
  simp only [ended, List.mem_append, List.mem_singleton]
  constructor
  · rintro ⟨i, h | rfl, e⟩
    · exact Or.inl ⟨i, h, e⟩
    · exact Or.inr e
  · rintro (⟨i, h, e⟩ | e)
    · exact ⟨i, Or.inl h, e⟩
    · exact ⟨it, Or.inr rfl, e⟩

/-- how the fields of a fiber go with its life -/
structure Life (main : Nat) (w : Sys) (tr : List Item) : Prop where
  cur : started main w.cur tr
  inn : ∀ f, started main f tr → f = w.cur ∨ w.call f ≠ none
  out : ∀ f, ¬ started main f tr → w.call f = none ∧ w.state f = .created
  run : ∀ f, started main f tr → ¬ ended f tr → w.state f = .running
  stop : ∀ f, ended f tr → started main f tr ∧ w.state f = .stopped

theorem Life.next {main : Nat} {w : Sys} {tr : List Item} (ih : Life main w tr) {c : Call} {w1 : Sys} {r : Sys × Item}
    (hs : ∀ f, w1.state f = if c = .stop ∧ f = w.cur then .stopped else w.state f) (hcall : w1.call = w.call) (hcur : w1.cur = w.cur)
    (shape : (∃ st, r = (w1, ⟨w.cur, c, .fail st⟩)) ∨ ∃ f q e, r = ((switch { setCall w1 w.cur c with runq := q } f e).1,
      ⟨w.cur, c, (switch { setCall w1 w.cur c with runq := q } f e).2⟩)) : Life main r.1 (tr ++ [r.2]) := by
  obtain ⟨i1, i2, i3, i4, i5⟩ := ih
  have st : ∀ f, started main f tr → ¬ (ended f tr ∨ w.cur = f ∧ c = .stop) → w1.state f = .running := by
    intro f h1 h2
    rw [hs, if_neg (fun e => h2 (Or.inr ⟨e.2.symm, e.1⟩))]
    exact i4 f h1 fun e => h2 (Or.inl e)
  have sp : ∀ f, (ended f tr ∨ w.cur = f ∧ c = .stop) → started main f tr ∧ w1.state f = .stopped := by
    rintro f (h | ⟨h1, h2⟩)
    · refine ⟨(i5 f h).1, ?_⟩
      rw [hs]; split
      · rfl
      · exact (i5 f h).2
    · refine ⟨h1 ▸ i1, ?_⟩
      rw [hs, if_pos ⟨h2, h1.symm⟩]
  rcases shape with ⟨s, rfl⟩ | ⟨f, q, e, rfl⟩
  · have nost : ∀ g, started main g (tr ++ [⟨w.cur, c, .fail s⟩]) ↔ started main g tr := by
      intro g; rw [started_append]; simp
    refine ⟨?_, ?_, ?_, ?_, ?_⟩
    · rw [nost, hcur]; exact i1
    · intro g hg; rw [hcur, hcall]; exact i2 g ((nost g).1 hg)
    · intro g hg
      have := i3 g (fun x => hg ((nost g).2 x))
      refine ⟨by rw [hcall]; exact this.1, ?_⟩
      rw [hs, if_neg]
      · exact this.2
      · rintro ⟨_, rfl⟩; exact hg ((nost _).2 i1)
    · intro g h1 h2; exact st g ((nost g).1 h1) fun x => h2 (ended_append.2 x)
    · intro g h1
      obtain ⟨a, b⟩ := sp g (ended_append.1 h1)
      exact ⟨(nost g).2 a, b⟩
  · obtain ⟨a, hnext⟩ := switch_after (w1 := w1) (c := c) (f := f) (q := q) (e := e) hcall
    have hnext' := hnext
    have hst : ∀ g, (switch { setCall w1 w.cur c with runq := q } f e).1.state g =
        if inside w c f = none ∧ g = f then .running else w1.state g := by
      intro g
      have hcf : ({ setCall w1 w.cur c with runq := q } : Sys).call = inside w c := by
        unfold inside setCall; simp [hcall]
      unfold switch
      rw [hcf]
      cases hi : inside w c f with
      | some c' => simp [setEv, setCall]
      | none => simp [setEv, setCall]
    generalize switch { setCall w1 w.cur c with runq := q } f e = r at a hnext hst
    cases hi : inside w c f with
    | some c' =>
      rw [hi] at hnext hst
      have nost : ∀ g, started main g (tr ++ [⟨w.cur, c, r.2⟩]) ↔ started main g tr := by
        intro g; rw [started_append, hnext]; simp [nextOf]
      have hf : started main f tr := by
        by_cases hf : f = w.cur
        · rw [hf]; exact i1
        · by_cases hs : started main f tr
          · exact hs
          · have := (i3 f hs).1
            simp [inside, hf, this] at hi
      refine ⟨?_, ?_, ?_, ?_, ?_⟩
      · rw [nost, a.cur]; exact hf
      · intro g hg
        rw [a.cur, a.call]
        by_cases hgf : g = f
        · exact Or.inl hgf
        · right
          show (if g = f then none else inside w c g) ≠ none
          rw [if_neg hgf]
          unfold inside
          split
          · simp
          · next hgc => exact (i2 g ((nost g).1 hg)).resolve_left hgc
      · intro g hg
        have hg' : ¬ started main g tr := fun x => hg ((nost g).2 x)
        have hgc : g ≠ w.cur := fun x => hg' (x ▸ i1)
        refine ⟨?_, ?_⟩
        · rw [a.call]; simp only; split
          · rfl
          · simp [inside, hgc, (i3 g hg').1]
        · rw [hst, if_neg (by simp), hs, if_neg (fun x => hgc x.2)]; exact (i3 g hg').2
      · intro g h1 h2
        rw [hst, if_neg (by simp)]
        exact st g ((nost g).1 h1) fun x => h2 (ended_append.2 x)
      · intro g h1
        obtain ⟨x, y⟩ := sp g (ended_append.1 h1)
        exact ⟨(nost g).2 x, by rw [hst, if_neg (by simp)]; exact y⟩
    | none =>
      rw [hi] at hnext hst
      have hfc : f ≠ w.cur := by
        intro x; simp [inside, x] at hi
      have hnf : ¬ started main f tr := by
        intro x
        rcases i2 f x with x | x
        · exact hfc x
        · simp [inside, hfc] at hi; exact x hi
      have nost : ∀ g, started main g (tr ++ [⟨w.cur, c, r.2⟩]) ↔ started main g tr ∨ g = f := by
        intro g; rw [started_append, hnext]
        simp only [nextOf, Next.start.injEq]
        constructor
        · rintro (x | ⟨_, x, _⟩)
          · exact Or.inl x
          · exact Or.inr x.symm
        · rintro (x | x)
          · exact Or.inl x
          · exact Or.inr ⟨e, x.symm, rfl⟩
      refine ⟨?_, ?_, ?_, ?_, ?_⟩
      · rw [nost, a.cur]; exact Or.inr rfl
      · intro g hg
        rw [a.cur, a.call]
        by_cases hgf : g = f
        · exact Or.inl hgf
        · right
          show (if g = f then none else inside w c g) ≠ none
          rw [if_neg hgf]
          unfold inside
          split
          · simp
          · next hgc => exact (i2 g (((nost g).1 hg).resolve_right hgf)).resolve_left hgc
      · intro g hg
        have hg' : ¬ started main g tr := fun x => hg ((nost g).2 (Or.inl x))
        have hgf : g ≠ f := fun x => hg ((nost g).2 (Or.inr x))
        have hgc : g ≠ w.cur := fun x => hg' (x ▸ i1)
        refine ⟨?_, ?_⟩
        · rw [a.call]; simp only; rw [if_neg hgf]; simp [inside, hgc, (i3 g hg').1]
        · rw [hst, if_neg (fun x => hgf x.2), hs, if_neg (fun x => hgc x.2)]; exact (i3 g hg').2
      · intro g h1 h2
        rw [hst]
        by_cases hgf : g = f
        · simp [hgf]
        · rw [if_neg (fun x => hgf x.2)]
          exact st g (((nost g).1 h1).resolve_right hgf) fun x => h2 (ended_append.2 x)
      · intro g h1
        obtain ⟨x, y⟩ := sp g (ended_append.1 h1)
        have hgf : g ≠ f := fun z => hnf (z ▸ x)
        exact ⟨(nost g).2 (Or.inl x), by rw [hst, if_neg (fun z => hgf z.2)]; exact y⟩

theorem Any.life {main idle : Nat} {w : Sys} {tr : List Item} (h : Any main idle w tr) : Life main w tr := by
  induction h with
  | init =>
    refine ⟨Or.inl rfl, ?_, ?_, ?_, ?_⟩
    · rintro f (rfl | ⟨_, h, _⟩)
      · exact Or.inl rfl
      · cases h
    · intro f h
      exact ⟨rfl, if_neg fun e => h (Or.inl e)⟩
    · rintro f (rfl | ⟨_, h, _⟩) _
      · exact if_pos rfl
      · cases h
    · rintro f ⟨_, h, _⟩; cases h
  | @step w tr c o _ ih =>
    refine ih.next (handler_state w c o) (handler_call w c o) (handler_cur w c o) ?_
    rcases step_shape w c o with h | ⟨_, h⟩
    · exact .inl h
    · exact .inr h

/-- the state field says whether a fiber is alive -/
theorem Any.running {main idle : Nat} {w : Sys} {tr : List Item} (h : Any main idle w tr) (f : Nat) :
    w.state f = .running ↔ alive main f tr := by
  obtain ⟨_, _, i3, i4, i5⟩ := h.life
  constructor
  · intro hr
    refine ⟨Classical.byContradiction fun hs => ?_, fun he => ?_⟩
    · rw [(i3 f hs).2] at hr; cases hr
    · rw [(i5 f he).2] at hr; cases hr
  · intro hl; exact i4 f hl.1 hl.2

/-- a fiber that is alive and does not run is inside a call -/
theorem Any.inside {main idle : Nat} {w : Sys} {tr : List Item} (h : Any main idle w tr) {f : Nat}
    (ha : alive main f tr) (hc : f ≠ w.cur) : ∃ c, pending f tr = some c := by
  have := (h.life.inn f ha.1).resolve_left hc
  rw [h.call f] at this
  exact Option.ne_none_iff_exists'.1 this

theorem Any.tree {main idle : Nat} {w : Sys} {tr : List Item} (h : Any main idle w tr) (f : Nat) :
    (added f tr → f ∈ w.tree) ∧ (f ∈ w.tree → ∃ it ∈ tr, it.call = .add f) := by
  induction h with
  | init => exact ⟨fun ⟨_, h, _⟩ => (by cases h), fun h => (by cases h)⟩
  | @step w tr c o _ ih =>
    have ht : (Fiber.step w c o).1.tree = (handler w c o).1.tree := by
      rcases step_shape w c o with ⟨s, h⟩ | ⟨_, g, q, e, h⟩
      · rw [h]
      · rw [h]; unfold switch; split <;> rfl
    have hcall : (Fiber.step w c o).2.call = c := by
      rcases step_shape w c o with ⟨s, h⟩ | ⟨_, g, q, e, h⟩ <;> rw [h]
    have mono : ∀ x, x ∈ w.tree → x ∈ (handler w c o).1.tree := by
      intro x hx
      by_cases ha : ∃ g, c = .add g
      · obtain ⟨g, rfl⟩ := ha
        rcases (handler_add w g o).2.2.1 with e | e
        · rw [e]; exact hx
        · rw [e]; exact mem_insertFib.2 (Or.inr hx)
      · rw [handler_tree w c o fun g h => ha ⟨g, h⟩]; exact hx
    rw [ht]
    refine ⟨?_, ?_⟩
    · rintro ⟨it, hit, hc, hn⟩
      rcases List.mem_append.1 hit with hit | hit
      · exact mono f (ih.1 ⟨it, hit, hc, hn⟩)
      · simp only [List.mem_singleton] at hit
        subst hit
        rw [hcall] at hc
        subst hc
        rcases step_shape w (.add f) o with ⟨s, h⟩ | ⟨hsu, g, q, e, h⟩
        · exact absurd (by rw [h]) (hn s)
        · rw [(handler_add w f o).2.2.2 hsu]; exact mem_insertFib.2 (Or.inl rfl)
    · intro hf
      by_cases ha : ∃ g, c = .add g
      · obtain ⟨g, rfl⟩ := ha
        have : f = g ∨ f ∈ w.tree := by
          rcases (handler_add w g o).2.2.1 with e | e
          · rw [e] at hf; exact Or.inr hf
          · rw [e] at hf; exact mem_insertFib.1 hf
        rcases this with rfl | this
        · exact ⟨_, by simp, hcall⟩
        · obtain ⟨it, h1, h2⟩ := ih.2 this
          exact ⟨it, by simp [h1], h2⟩
      · rw [handler_tree w c o fun g h => ha ⟨g, h⟩] at hf
        obtain ⟨it, h1, h2⟩ := ih.2 hf
        exact ⟨it, by simp [h1], h2⟩

theorem count_insertFib (f g : Nat) : ∀ l : List Nat, (insertFib f l).count g = l.count g + if f = g then 1 else 0 := by
  intro l
  induction l with
  | nil => simp [insertFib, List.count_cons]
  | cons x l ih =>
    simp only [insertFib]
    split
    · simp [List.count_cons]
    · simp only [List.count_cons, ih]; omega

/-- a fiber is in the tree at most as often as `add` was called for it -/
theorem Any.tree_count {main idle : Nat} {w : Sys} {tr : List Item} (h : Any main idle w tr) (f : Nat) :
    w.tree.count f ≤ (tr.filter fun it => it.call = .add f).length := by
  induction h with
  | init => simp [Fiber.init]
  | @step w tr c o _ ih =>
    have ht : (Fiber.step w c o).1.tree = (handler w c o).1.tree := by
      rcases step_shape w c o with ⟨s, h⟩ | ⟨_, g, q, e, h⟩
      · rw [h]
      · rw [h]; unfold switch; split <;> rfl
    have hcall : (Fiber.step w c o).2.call = c := by
      rcases step_shape w c o with ⟨s, h⟩ | ⟨_, g, q, e, h⟩ <;> rw [h]
    rw [ht, List.filter_append, List.length_append]
    by_cases ha : ∃ g, c = .add g
    · obtain ⟨g, rfl⟩ := ha
      rcases (handler_add w g o).2.2.1 with e | e
      · rw [e]; omega
      · rw [e, count_insertFib]
        split
        · next hg => subst hg; simp [hcall]; exact ih
        · omega
    · rw [handler_tree w c o fun g h => ha ⟨g, h⟩]; omega

/-! ### Requests to all -/

/-- queue the fibers of a list with a request, in order -/
def rqs (code : Nat) (w : Sys) (l : List Nat) : Sys := l.foldl (fun w f => bk w f ⟨.mgmt, code, 0⟩) w

theorem rqs_fields (code : Nat) : ∀ (l : List Nat) (w : Sys), (rqs code w l).runq = w.runq ++ l ∧
    (∀ g, (rqs code w l).ev g = if g ∈ l then ⟨.mgmt, code, 0⟩ else w.ev g) ∧ (rqs code w l).call = w.call ∧
    (rqs code w l).cur = w.cur ∧ (rqs code w l).idle = w.idle ∧ (rqs code w l).mgmt = w.mgmt ∧
    (rqs code w l).state = w.state := by
  intro l
  induction l with
  | nil => intro w; simp [rqs]
  | cons f l ih =>
    intro w
    obtain ⟨h1, h2, h3, h4, h5, h6, h7⟩ := ih (bk w f ⟨.mgmt, code, 0⟩)
    refine ⟨?_, ?_, h3, h4, h5, h6, h7⟩
    · show (rqs code (bk w f ⟨.mgmt, code, 0⟩) l).runq = _
      rw [h1]; simp [bk]
    · intro g
      show (rqs code (bk w f ⟨.mgmt, code, 0⟩) l).ev g = _
      rw [h2]
      by_cases hg : g ∈ l
      · simp [hg]
      · by_cases hf : g = f
        · simp [hf, bk, setEv]
        · simp [hg, hf, bk, setEv]

/-- the fibers a request to all goes to -/
def targets (w : Sys) (y : Nat) (l : List Nat) : List Nat :=
  l.filter fun f => y ≠ f ∧ w.mgmt ≠ f ∧ w.state f = .running

theorem requestLoop_ok {code y : Nat} {o : Oracle} (ho : ∀ k, o.q k = SUCCESS) : ∀ (l : List Nat) (k : Nat) (w : Sys),
    ∃ n, requestLoop code y o l k w = (rqs code w (targets w y l), SUCCESS, n) := by
  intro l
  induction l with
  | nil => intro k w; exact ⟨k, rfl⟩
  | cons f l ih =>
    intro k w
    simp only [requestLoop, back_ok (ho k)]
    split
    · next h =>
      obtain ⟨n, hn⟩ := ih (k + 1) (bk w f ⟨.mgmt, code, 0⟩)
      refine ⟨n, ?_⟩
      rw [if_neg (by simp), hn]
      have : targets w y (f :: l) = f :: targets w y l := by
        simp only [targets]; rw [List.filter_cons_of_pos (by simpa using h)]
      rw [this]; rfl
    · next h =>
      obtain ⟨n, hn⟩ := ih k w
      refine ⟨n, ?_⟩
      rw [hn]
      have : targets w y (f :: l) = targets w y l := by
        simp only [targets]; rw [List.filter_cons_of_neg (by simpa using h)]
      rw [this]

end Rcpr.Fiber
