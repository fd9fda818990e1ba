import Verif.FiberProof

/-! Lemmas about histories: messages and waiters. -/
namespace Rcpr.Fiber

open Rcpr

theorem statusOf_toNat (st : Status) : statusOf st.toNat = st := by simp [statusOf]

theorem hf_cons {w1 : Sys} {f g : Nat} {q q' : List Nat} {e : Ev} (h : w1.runq = g :: q')
    (hf : w1.runq = f :: q ∧ e = w1.ev f ∨
      w1.runq = [] ∧ q = [] ∧ f = w1.idle ∧ f ≠ 0 ∧ e = ⟨.internal, RESUME_IDLE, 0⟩) :
    f = g ∧ q = q' ∧ e = w1.ev g := by
  rcases hf with ⟨h1, h2⟩ | ⟨h1, _⟩
  · rw [h] at h1; cases h1; exact ⟨rfl, rfl, h2⟩
  · rw [h] at h1; cases h1

theorem fr_ev (w : Sys) (f : Nat) (e : Ev) : (fr w f e).ev f = e := by simp [fr, setEv]

/-- what one item adds to the history of a mailbox -/
def sent1 (a : Nat) (i : Item) : List Nat :=
  match i.call with
  | .send a' m => if a' = a ∧ i.refused = false then [m] else []
  | _ => []

theorem sent_append (a : Nat) (tr : List Item) (i : Item) : sent a (tr ++ [i]) = sent a tr ++ sent1 a i := by
  unfold sent sent1
  rw [List.filterMap_append]
  congr 1
  cases hc : i.call <;> simp [hc]
  split <;> simp_all

theorem recvd_append (a : Nat) (tr : List Item) (i : Item) :
    recvd a (tr ++ [i]) = recvd a tr ++ (i.recvd a).toList := by
  unfold recvd
  rw [List.filterMap_append]
  cases h : i.recvd a <;> simp [h]

theorem created_append (tr : List Item) (i : Item) : created (tr ++ [i]) = created tr ++ i.created.toList := by
  unfold created
  rw [List.filterMap_append]
  cases h : i.created <;> simp [h]

theorem woken_append (h : Nat) (tr : List Item) (i : Item) :
    woken h (tr ++ [i]) = woken h tr ++ (i.woken h).toList := by
  unfold woken
  rw [List.filterMap_append]
  cases h : i.woken h <;> simp [h]

def waited1 (h : Nat) (i : Item) : List Nat := if i.call = .wait h ∧ i.refused = false then [i.who] else []

theorem waited_append (h : Nat) (tr : List Item) (i : Item) : waited h (tr ++ [i]) = waited h tr ++ waited1 h i := by
  unfold waited waited1
  rw [List.filterMap_append]
  congr 1
  split <;> simp_all

/-- a fiber that is not inside a receive gets no message -/
theorem recvd_none {a : Nat} {y f : Nat} {c : Call} {c' : Option Call} {e : Ev} (h : ∀ a, c' ≠ some (.receive a)) :
    (Item.mk y c (nextOf c' f e)).recvd a = none := by
  cases c' with
  | none => rfl
  | some c' =>
    cases c' <;> first | rfl | exact absurd rfl (h _)

theorem created_none {y f : Nat} {c : Call} {c' : Option Call} {e : Ev} (h : c' ≠ some .boxCreate) :
    (Item.mk y c (nextOf c' f e)).created = none := by
  cases c' with
  | none => rfl
  | some c' =>
    cases c' <;> first | rfl | exact absurd rfl h

theorem Tight.noRecv {c : Option Call} {e : Ev} (h : Tight c e) : (∀ a, c ≠ some (.receive a)) ∧ c ≠ some .boxCreate := by
  constructor
  · intro a hc; subst hc; exact h
  · intro hc; subst hc; exact h

/-- the fiber switched to is not inside a receive or create if the queue has none -/
theorem quiet {w w1 : Sys} {c : Call} {f : Nat} {q : List Nat} {e : Ev} (m : Mid w1 (inside w c))
    (hq : ∀ g ∈ w1.runq, (∀ a, inside w c g ≠ some (.receive a)) ∧ inside w c g ≠ some .boxCreate)
    (hf : w1.runq = f :: q ∧ e = w1.ev f ∨
      w1.runq = [] ∧ q = [] ∧ f = w1.idle ∧ f ≠ 0 ∧ e = ⟨.internal, RESUME_IDLE, 0⟩) :
    (∀ a, inside w c f ≠ some (.receive a)) ∧ inside w c f ≠ some .boxCreate := by
  rcases hf with ⟨h1, h2⟩ | ⟨h1, h2, h3, h4, h5⟩
  · exact hq f (by simp [h1])
  · subst h3
    rcases m.j.idle h4 with h | h <;> rw [h] <;> simp

/-- The effect of one call on mailbox `a`. -/
structure BoxStep (w w2 : Sys) (it : Item) (a : Nat) : Prop where
  some : ∀ b2, w2.boxes a = some b2 →
    (∃ b, w.boxes a = Option.some b ∧ b.msgs ++ sent1 a it = (it.recvd a).toList ++ b2.msgs) ∨
    (w.mindex < a ∧ b2.msgs = [] ∧ sent1 a it = [] ∧ it.recvd a = Option.none)
  none : w2.boxes a = Option.none → sent1 a it = [] ∧ it.recvd a = Option.none
  keep : w.boxes a ≠ Option.none → it.call ≠ .boxClose a → w2.boxes a ≠ Option.none
  back : w.boxes a = Option.none → w2.boxes a ≠ Option.none → w.mindex < a
  closed : it.call = .boxClose a → it.refused = false → w2.boxes a = Option.none
  refused : w.boxes a = Option.none → (it.call = .receive a ∨ it.call = .boxClose a ∨ ∃ m, it.call = .send a m) →
    it.refused = true

theorem BoxStep.of_same {w w2 : Sys} {it : Item} {a : Nat} (hb : w2.boxes a = w.boxes a) (hs : sent1 a it = [])
    (hr : it.recvd a = Option.none) (hc : it.call = .boxClose a → it.refused = true)
    (hn : w.boxes a = Option.none → (it.call = .receive a ∨ it.call = .boxClose a ∨ ∃ m, it.call = .send a m) →
      it.refused = true) : BoxStep w w2 it a := by
  refine ⟨?_, fun _ => ⟨hs, hr⟩, fun h _ => by rwa [hb], fun h h' => absurd (hb.trans h) h',
    fun h1 h2 => absurd (hc h1) (by simp [h2]), hn⟩
  intro b2 h2
  left
  exact ⟨b2, by rw [← hb, h2], by simp [hs, hr]⟩

theorem bks_boxes (w : Sys) (l : List Nat) : (bks w l).boxes = w.boxes := (bks_fields l w).1

set_option hygiene false in
/-- the cases in which the running fiber is resumed at once from another call than receive -/
local macro "frontcase" : tactic => `(tactic|
  (obtain ⟨rfl, rfl, rfl⟩ := hf_cons rfl hf
   rw [inside_cur]
   refine BoxStep.of_same (congrFun af.boxes a) (by simp [sent1]) (recvd_none (by simp)) (by simp) (by simp)))

set_option hygiene false in
local macro "tailcase" : tactic => `(tactic|
  (refine BoxStep.of_same (congrFun af.boxes a) (by simp [sent1]) (recvd_none (quiet m ?_ hf).1) (by simp) (by simp)
   intro g hg))

theorem box_step {w w2 : Sys} {c : Call} {o : Oracle} {it : Item} (i : Inv w) (lg : Legal w c o)
    (h : Out w c w2 it) (a : Nat) : BoxStep w w2 it a := by
  obtain ⟨j, t⟩ := i.before (c := c) lg.idle
  obtain ⟨w1, f, q, e, hs, m, af, rfl, hf⟩ := h.out
  cases hs with
  | run h =>
    tailcase
    rcases List.mem_append.1 hg with hg | hg
    · exact (t g hg).noRecv
    · simp only [List.mem_singleton] at hg; subst hg; rw [inside_cur]; simp
  | idle h => tailcase; exact (t g hg).noRecv
  | add x tr hm => frontcase
  | addM x tr hm =>
    obtain ⟨rfl, rfl, rfl⟩ := hf_cons rfl hf
    rw [(j.mgmt hm).2]
    exact BoxStep.of_same (congrFun af.boxes a) (by simp [sent1]) (recvd_none (by simp)) (by simp) (by simp)
  | stop s hm => tailcase; exact (t g hg).noRecv
  | stopM s hm =>
    obtain ⟨rfl, rfl, rfl⟩ := hf_cons rfl hf
    rw [(j.mgmt hm).2]
    exact BoxStep.of_same (congrFun af.boxes a) (by simp [sent1]) (recvd_none (by simp)) (by simp) (by simp)
  | release => frontcase
  | mgmtReceive => tailcase; exact (t g hg).noRecv
  | boxCreateFail st => frontcase
  | boxCreate =>
    obtain ⟨rfl, rfl, rfl⟩ := hf_cons rfl hf
    rw [inside_cur]
    by_cases ha : a = w.mindex + 1
    · have hb : w2.boxes a = some ⟨0, []⟩ := by
        rw [af.boxes]; simp [fr, setBox, setEv, ha]
      have hb0 : w.boxes a = none := by
        cases hx : w.boxes a with
        | none => rfl
        | some b => have := (j.bidx a (by simp [hx])).2; omega
      refine ⟨?_, ?_, ?_, ?_, ?_, ?_⟩
      · intro b2 h2
        rw [hb] at h2; cases h2
        exact Or.inr ⟨by omega, rfl, rfl, rfl⟩
      · intro h; rw [hb] at h; cases h
      · intro h; exact absurd hb0 h
      · intro _ _; omega
      · intro h; cases h
      · intro _ h; simp at h
    · refine BoxStep.of_same ?_ (by simp [sent1]) (recvd_none (by simp)) (by simp) (by simp)
      rw [af.boxes]; simp [fr, setBox, setEv, ha]
  | boxCloseFail x st hb hst =>
    obtain ⟨rfl, rfl, rfl⟩ := hf_cons rfl hf
    rw [inside_cur, fr_ev]
    have hr : (Item.mk w.cur (.boxClose x) (nextOf (some (.boxClose x)) w.cur ⟨.msg, MSG_CLOSE, st.toNat⟩)).refused = true := by
      simp [nextOf, Item.refused, result, statusOf_toNat, hst]
    exact BoxStep.of_same (congrFun af.boxes a) (by simp [sent1]) (recvd_none (by simp)) (fun _ => hr) (fun _ _ => hr)
  | boxClose x b st hb =>
    obtain ⟨rfl, rfl, rfl⟩ := hf_cons rfl hf
    rw [inside_cur]
    by_cases ha : a = x
    · subst ha
      have hb2 : w2.boxes a = none := by rw [af.boxes]; simp [fr, setBox, setEv]
      refine ⟨?_, ?_, ?_, ?_, ?_, ?_⟩
      · intro b2 h; rw [hb2] at h; cases h
      · intro _; exact ⟨rfl, rfl⟩
      · intro _ h; exact absurd rfl h
      · intro _ h; exact absurd hb2 h
      · intro _ _; exact hb2
      · intro h; rw [hb] at h; cases h
    · refine BoxStep.of_same ?_ (by simp [sent1]) (recvd_none (by simp)) ?_ ?_
      · rw [af.boxes]; simp [fr, setBox, setEv, ha]
      · intro h; simp only [Call.boxClose.injEq] at h; exact absurd h.symm ha
      · intro _ h
        simp only [Call.boxClose.injEq, reduceCtorEq, false_or, exists_const, or_false] at h
        exact absurd h.symm ha
  | sendFail x n st hst =>
    obtain ⟨rfl, rfl, rfl⟩ := hf_cons rfl hf
    rw [inside_cur, fr_ev]
    have hr : (Item.mk w.cur (.send x n) (nextOf (some (.send x n)) w.cur ⟨.msg, MSG_SEND_FAILURE, st.toNat⟩)).refused = true := by
      simp [nextOf, Item.refused, result, statusOf_toNat, hst]
    exact BoxStep.of_same (congrFun af.boxes a) (by simp only [sent1, hr]; simp) (recvd_none (by simp)) (fun _ => hr) (fun _ _ => hr)
  | send x n b hb hbl =>
    obtain ⟨rfl, rfl, rfl⟩ := hf_cons rfl hf
    rw [inside_cur, fr_ev]
    have hr : (Item.mk w.cur (.send x n) (nextOf (some (.send x n)) w.cur ⟨.msg, MSG_SEND_SUCCESS, 0⟩)).refused = false := by
      simp [nextOf, Item.refused, result, MSG_SEND_SUCCESS, MSG_SEND_FAILURE]
    by_cases ha : a = x
    · subst ha
      have hb2 : w2.boxes a = some ⟨0, b.msgs ++ [n]⟩ := by rw [af.boxes]; simp [fr, setBox, setEv]
      refine ⟨?_, ?_, ?_, ?_, ?_, ?_⟩
      · intro b2 h; rw [hb2] at h; cases h
        exact Or.inl ⟨b, hb, by simp only [sent1, hr]; simp [nextOf, Item.recvd]⟩
      · intro h; rw [hb2] at h; cases h
      · intro _ _; simp [hb2]
      · intro h; rw [hb] at h; cases h
      · intro h; cases h
      · intro h; rw [hb] at h; cases h
    · refine BoxStep.of_same ?_ ?_ (recvd_none (by simp)) (by simp) ?_
      · rw [af.boxes]; simp [fr, setBox, setEv, ha]
      · simp [sent1, Ne.symm ha]
      · intro _ h
        simp only [Call.send.injEq, reduceCtorEq, false_or] at h
        obtain ⟨_, h, _⟩ := h
        exact absurd h.symm ha
  | sendWake x n n' ms b hb hbl hms =>
    obtain ⟨b1, b2, b3⟩ := j.box x b hb hbl
    obtain ⟨rfl, rfl, rfl⟩ := hf_cons rfl hf
    rw [b2, fr_ev]
    have hby : b.blocked ≠ w.cur := fun h => b1 (by simp [h])
    have hr : (Item.mk w.cur (.send x n) (nextOf (some (.receive x)) b.blocked ⟨.msg, MSG_RECEIVE_SUCCESS, n'⟩)).refused = false := by
      simp [nextOf, Item.refused, hby]
    rw [b3] at hms
    simp only [List.nil_append, List.cons.injEq] at hms
    obtain ⟨rfl, rfl⟩ := hms
    by_cases ha : a = x
    · subst ha
      have hb2 : w2.boxes a = some ⟨0, []⟩ := by rw [af.boxes]; simp [fr, setBox, setEv]
      refine ⟨?_, ?_, ?_, ?_, ?_, ?_⟩
      · intro b2 h; rw [hb2] at h; cases h
        refine Or.inl ⟨b, hb, ?_⟩
        simp only [sent1, hr]
        simp [nextOf, Item.recvd, b3, result, MSG_RECEIVE_SUCCESS, MSG_RECEIVE_FAILURE]
      · intro h; rw [hb2] at h; cases h
      · intro _ _; simp [hb2]
      · intro h; rw [hb] at h; cases h
      · intro h; cases h
      · intro h; rw [hb] at h; cases h
    · refine BoxStep.of_same ?_ ?_ ?_ (by simp) ?_
      · rw [af.boxes]; simp [fr, setBox, setEv, ha]
      · simp [sent1, Ne.symm ha]
      · simp [nextOf, Item.recvd, Ne.symm ha]
      · intro _ h
        simp only [Call.send.injEq, reduceCtorEq, false_or] at h
        obtain ⟨_, h, _⟩ := h
        exact absurd h.symm ha
  | receiveFail x st hst =>
    obtain ⟨rfl, rfl, rfl⟩ := hf_cons rfl hf
    rw [inside_cur, fr_ev]
    have hr : (Item.mk w.cur (.receive x) (nextOf (some (.receive x)) w.cur ⟨.msg, MSG_RECEIVE_FAILURE, st.toNat⟩)).refused = true := by
      simp [nextOf, Item.refused, result, statusOf_toNat, hst]
    refine BoxStep.of_same (congrFun af.boxes a) (by simp [sent1]) ?_ (fun _ => hr) (fun _ _ => hr)
    simp [nextOf, Item.recvd, result, statusOf_toNat]
  | receiveBlock x hb =>
    have hquiet := quiet m (fun g hg => (t g hg).noRecv) hf
    have hr : (Item.mk w.cur (.receive x) (nextOf (inside w (.receive x) f) f e)).recvd a = none :=
      recvd_none hquiet.1
    by_cases ha : a = x
    · subst ha
      have hb2 : w2.boxes a = some ⟨w.cur, []⟩ := by rw [af.boxes]; simp [setBox]
      refine ⟨?_, ?_, ?_, ?_, ?_, ?_⟩
      · intro b2 h; rw [hb2] at h; cases h
        exact Or.inl ⟨_, hb, by simp [sent1, hr]⟩
      · intro h; rw [hb2] at h; cases h
      · intro _ _; simp [hb2]
      · intro h; rw [hb] at h; cases h
      · intro h; cases h
      · intro h; rw [hb] at h; cases h
    · refine BoxStep.of_same ?_ (by simp [sent1]) hr (by simp) ?_
      · rw [af.boxes]; simp [setBox, ha]
      · intro _ h
        simp only [Call.receive.injEq, reduceCtorEq, false_or, exists_const, or_false] at h
        exact absurd h.symm ha
  | receive x n bl ms hb =>
    obtain ⟨rfl, rfl, rfl⟩ := hf_cons rfl hf
    rw [inside_cur, fr_ev]
    by_cases ha : a = x
    · subst ha
      have hb2 : w2.boxes a = some ⟨bl, ms⟩ := by rw [af.boxes]; simp [fr, setBox, setEv]
      refine ⟨?_, ?_, ?_, ?_, ?_, ?_⟩
      · intro b2 h; rw [hb2] at h; cases h
        refine Or.inl ⟨_, hb, ?_⟩
        simp [sent1, nextOf, Item.recvd, result, MSG_RECEIVE_SUCCESS, MSG_RECEIVE_FAILURE]
      · intro h; rw [hb2] at h; cases h
      · intro _ _; simp [hb2]
      · intro h; rw [hb] at h; cases h
      · intro h; cases h
      · intro h; rw [hb] at h; cases h
    · refine BoxStep.of_same ?_ (by simp [sent1]) ?_ (by simp) ?_
      · rw [af.boxes]; simp [fr, setBox, setEv, ha]
      · simp [nextOf, Item.recvd, Ne.symm ha]
      · intro _ h
        simp only [Call.receive.injEq, reduceCtorEq, false_or, exists_const, or_false] at h
        exact absurd h.symm ha
  | condCreateFail st => frontcase
  | condCreate => frontcase
  | condCloseFail x st hb hst => frontcase
  | condClose x l e hl he => frontcase
  | waitFail x st hst => frontcase
  | wait x l hl => tailcase; exact (t g hg).noRecv
  | notifyOneFail x hl =>
    tailcase
    rcases List.mem_append.1 hg with hg | hg
    · exact (t g hg).noRecv
    · simp only [List.mem_singleton] at hg; subst hg; rw [inside_cur]; simp
  | notifyOneNone x hl =>
    tailcase
    rcases List.mem_append.1 hg with hg | hg
    · exact (t g hg).noRecv
    · simp only [List.mem_singleton] at hg; subst hg; rw [inside_cur]; simp
  | notifyOne x y l hl =>
    tailcase
    have hg : g ∈ (w.runq ++ [y]) ++ [w.cur] := hg
    rcases List.mem_append.1 hg with hg | hg
    · rcases List.mem_append.1 hg with hg | hg
      · exact (t g hg).noRecv
      · simp only [List.mem_singleton] at hg; subst hg
        rw [((j.cond x _ hl).2 g (by simp)).2.2]; simp
    · simp only [List.mem_singleton] at hg; subst hg; rw [inside_cur]; simp
  | notifyAllFail x hl =>
    tailcase
    rcases List.mem_append.1 hg with hg | hg
    · exact (t g hg).noRecv
    · simp only [List.mem_singleton] at hg; subst hg; rw [inside_cur]; simp
  | notifyAll x l hl =>
    have hq : (bk (bks (setCond w x (some [])) l) w.cur ⟨.cond, COND_NOTIFY_SUCCESS, 0⟩).runq = w.runq ++ l ++ [w.cur] := by
      simp only [bk, (bks_fields l _).2.2.2.2.2.2.1]; rfl
    refine BoxStep.of_same ?_ (by simp [sent1]) (recvd_none (quiet m ?_ hf).1) (by simp) (by simp)
    · rw [af.boxes]; show (bks _ l).boxes a = _; rw [bks_boxes]; rfl
    intro g hg
    rw [hq] at hg
    rcases List.mem_append.1 hg with hg | hg
    · rcases List.mem_append.1 hg with hg | hg
      · exact (t g hg).noRecv
      · rw [((j.cond x _ hl).2 g hg).2.2]; simp
    · simp only [List.mem_singleton] at hg; subst hg; rw [inside_cur]; simp

/-! ### Addresses -/

/-- where the fibers of the run queue come from -/
theorem runq_mem {w w1 : Sys} {c : Call} {o : Oracle} (i : Inv w) (lg : Legal w c o) (h : HStep w c w1) {g : Nat}
    (hg : g ∈ w1.runq) : g = w.cur ∨ g ∈ w.runq ∨ inside w c g = none ∨ inside w c g = some .mgmtReceive ∨
      (∃ a, inside w c g = some (.receive a)) ∨ ∃ x, inside w c g = some (.wait x) := by
  obtain ⟨j, t⟩ := i.before (c := c) lg.idle
  have frc : ∀ {l : List Nat}, g ∈ w.cur :: l → g = w.cur ∨ g ∈ l := fun h => List.mem_cons.1 h
  have bkc : ∀ {l : List Nat} {y : Nat}, g ∈ l ++ [y] → g ∈ l ∨ g = y := fun h => by simpa using h
  cases h with
  | add f tr hm =>
    obtain ⟨f0, fq, fc⟩ := lg.fresh f rfl
    rcases frc hg with h | h
    · exact Or.inl h
    · rcases bkc h with h | h
      · exact Or.inr (Or.inl h)
      · by_cases hy : g = w.cur
        · exact Or.inl hy
        · right; right; left; subst h; simp [inside, hy, fc]
  | addM f tr hm =>
    obtain ⟨f0, fq, fc⟩ := lg.fresh f rfl
    rcases List.mem_cons.1 hg with h | hg
    · right; right; right; left; rw [h]; exact (j.mgmt hm).2
    · rcases frc hg with h | h
      · exact Or.inl h
      · rcases bkc h with h | h
        · exact Or.inr (Or.inl h)
        · by_cases hy : g = w.cur
          · exact Or.inl hy
          · right; right; left; subst h; simp [inside, hy, fc]
  | stopM s hm =>
    rcases List.mem_cons.1 hg with h | hg
    · right; right; right; left; rw [h]; exact (j.mgmt hm).2
    · exact Or.inr (Or.inl hg)
  | sendWake a m m' ms b hb hbl hms =>
    rcases List.mem_cons.1 hg with h | hg
    · right; right; right; right; left; rw [h]; exact ⟨a, (j.box a b hb hbl).2.1⟩
    · rcases frc hg with h | h
      · exact Or.inl h
      · exact Or.inr (Or.inl h)
  | notifyOne x f l hl =>
    rcases bkc (l := w.runq ++ [f]) hg with h | h
    · rcases bkc h with h | h
      · exact Or.inr (Or.inl h)
      · right; right; right; right; right
        rw [h]; exact ⟨x, ((j.cond x _ hl).2 f (by simp)).2.2⟩
    · exact Or.inl h
  | notifyAll x l hl =>
    have hq : (bk (bks (setCond w x (some [])) l) w.cur ⟨.cond, COND_NOTIFY_SUCCESS, 0⟩).runq = w.runq ++ l ++ [w.cur] := by
      simp only [bk, (bks_fields l _).2.2.2.2.2.2.1]; rfl
    rw [hq] at hg
    rcases bkc hg with h | h
    · rcases List.mem_append.1 h with h | h
      · exact Or.inr (Or.inl h)
      · right; right; right; right; right
        exact ⟨x, ((j.cond x _ hl).2 g h).2.2⟩
    · exact Or.inl h
  | _ =>
    first
    | exact Or.inr (Or.inl hg)
    | (have hg' := frc (l := w.runq) hg
       exact hg'.elim Or.inl fun h => Or.inr (Or.inl h))
    | (have hg' := bkc (l := w.runq) (y := w.cur) hg
       exact hg'.elim (fun h => Or.inr (Or.inl h)) Or.inl)

theorem hstep_mindex {w w1 : Sys} {c : Call} (h : HStep w c w1) :
    w1.mindex = w.mindex ∨ (c = .boxCreate ∧ w1.mindex = w.mindex + 1) := by
  cases h <;>
    first
    | exact Or.inl rfl
    | exact Or.inr ⟨rfl, rfl⟩
    | exact Or.inl (bks_fields _ _).2.2.2.2.1

theorem create_step {w w2 : Sys} {c : Call} {o : Oracle} {it : Item} (i : Inv w) (lg : Legal w c o)
    (h : Out w c w2 it) : (w2.mindex = w.mindex ∧ it.created = none) ∨
      (w2.mindex = w.mindex + 1 ∧ it.created = some (w.mindex + 1) ∧ w2.boxes (w.mindex + 1) ≠ none) := by
  obtain ⟨j, t⟩ := i.before (c := c) lg.idle
  obtain ⟨w1, f, q, e, hs, m, af, rfl, hf⟩ := h.out
  rw [af.mindex]
  by_cases hc : c = .boxCreate
  · subst hc
    cases hs with
    | boxCreateFail st =>
      obtain ⟨rfl, rfl, rfl⟩ := hf_cons rfl hf
      refine Or.inl ⟨rfl, ?_⟩
      rw [inside_cur, fr_ev]
      simp [nextOf, Item.created, result]
    | boxCreate =>
      obtain ⟨rfl, rfl, rfl⟩ := hf_cons rfl hf
      refine Or.inr ⟨rfl, ?_, ?_⟩
      · rw [inside_cur, fr_ev]
        simp [nextOf, Item.created, result, MSG_CREATE_SUCCESS, MSG_CREATE_FAILURE]
      · rw [af.boxes]; simp [fr, setBox, setEv]
  · have hmi : w1.mindex = w.mindex := by
      rcases hstep_mindex hs with h | h
      · exact h
      · exact absurd h.1 hc
    refine Or.inl ⟨hmi, created_none ?_⟩
    rcases hf with ⟨h1, h2⟩ | ⟨h1, h2, h3, h4, h5⟩
    · rcases runq_mem i lg hs (g := f) (by simp [h1]) with h | h | h | h | ⟨_, h⟩ | ⟨_, h⟩
      · rw [h, inside_cur]; simpa using hc
      · exact (t f h).noRecv.2
      all_goals rw [h]; simp
    · subst h3
      rcases m.j.idle h4 with h | h <;> rw [h] <;> simp

/-! ### Conditions -/

/-- the fibers of the run queue whose wait on `h` is over -/
def due (w : Sys) (h : Nat) : List Nat := w.runq.filter fun g => decide (w.call g = some (.wait h))

def wk (call : Nat → Option Call) (ev : Nat → Ev) (h : Nat) (l : List Nat) : List Nat :=
  l.filter fun g => decide (call g = some (.wait h) ∧ (result (.wait h) (ev g)).1 = SUCCESS)

theorem tight_wait {h : Nat} {e : Ev} (t : Tight (some (.wait h)) e) : (result (.wait h) e).1 = SUCCESS := by
  replace t : e = _ := t
  subst t; simp [result, COND_WAIT_SUCCESS, COND_WAIT_FAILURE]

theorem wk_after {w w1 w2 : Sys} {c : Call} {f : Nat} {q : List Nat} {e : Ev} {h : Nat} (m : Mid w1 (inside w c))
    (af : After w1 (inside w c) f q w2)
    (hf : w1.runq = f :: q ∧ e = w1.ev f ∨
      w1.runq = [] ∧ q = [] ∧ f = w1.idle ∧ f ≠ 0 ∧ e = ⟨.internal, RESUME_IDLE, 0⟩) :
    ((Item.mk w.cur c (nextOf (inside w c f) f e)).woken h).toList ++ due w2 h = wk (inside w c) w1.ev h w1.runq := by
  have hdue : ∀ l : List Nat, f ∉ l → (∀ g ∈ l, Tight (inside w c g) (w1.ev g)) →
      l.filter (fun g => decide (w2.call g = some (.wait h))) = wk (inside w c) w1.ev h l := by
    intro l hfl ht
    unfold wk
    apply List.filter_congr
    intro g hg
    have hgf : g ≠ f := by intro hh; subst hh; exact hfl hg
    rw [af.call]
    simp only [if_neg hgf]
    by_cases hc : inside w c g = some (.wait h)
    · have ht := ht g hg
      rw [hc] at ht
      simp [hc, tight_wait ht]
    · simp [hc]
  rcases hf with ⟨h1, h2⟩ | ⟨h1, h2, h3, h4, h5⟩
  · have hn := m.j.nodup
    rw [h1] at hn
    unfold due
    rw [af.runq, hdue q (List.nodup_cons.1 hn).1 (m.head f q h1).2, h1]
    show _ = List.filter _ (f :: q)
    rw [List.filter_cons]
    subst h2
    cases hc : inside w c f with
    | none => simp [nextOf, Item.woken, wk]
    | some c' =>
      cases c' with
      | wait x =>
        by_cases hx : x = h
        · subst hx
          simp only [nextOf, Item.woken, true_and, decide_eq_true_eq]
          split <;> simp [wk]
        · simp [nextOf, Item.woken, wk, hx]
      | _ => simp [nextOf, Item.woken, wk]
  · subst h2 h3
    unfold due
    rw [af.runq, h1]
    rcases m.j.idle h4 with h | h <;> rw [h] <;> simp [nextOf, Item.woken, wk]

theorem wk_runq {w : Sys} {c : Call} {ev : Nat → Ev} {h : Nat} (i : Inv w)
    (he : ∀ g ∈ w.runq, ev g = w.ev g) : wk (inside w c) ev h w.runq = due w h := by
  unfold wk due
  apply List.filter_congr
  intro g hg
  have hgc : g ≠ w.cur := by intro hh; subst hh; exact (List.nodup_cons.1 i.j.nodup).1 hg
  have : inside w c g = w.call g := by simp [inside, hgc]
  rw [this, he g hg]
  by_cases hc : w.call g = some (.wait h)
  · have ht := i.tight g hg
    rw [hc] at ht
    simp [hc, tight_wait ht]
  · simp [hc]

/-- The effect of one call on condition `h`. -/
structure CondStep (w w2 : Sys) (it : Item) (h : Nat) : Prop where
  some : ∀ l2, w2.conds h = some l2 →
    (∃ l, w.conds h = Option.some l ∧ due w h ++ l ++ waited1 h it = (it.woken h).toList ++ due w2 h ++ l2) ∨
    (w.cindex < h ∧ l2 = [] ∧ waited1 h it = [] ∧ due w h = (it.woken h).toList ++ due w2 h)
  none : w2.conds h = Option.none → waited1 h it = [] ∧ due w h = (it.woken h).toList ++ due w2 h

theorem CondStep.of_same {w w2 : Sys} {it : Item} {h : Nat} (hc : w2.conds h = w.conds h) (hw : waited1 h it = [])
    (hd : (it.woken h).toList ++ due w2 h = due w h) : CondStep w w2 it h := by
  refine ⟨?_, fun _ => ⟨hw, hd.symm⟩⟩
  intro l2 h2
  left
  exact ⟨l2, by rw [← hc, h2], by rw [hw, ← hd]; simp⟩

theorem wk_append (call : Nat → Option Call) (ev : Nat → Ev) (h : Nat) (l l' : List Nat) :
    wk call ev h (l ++ l') = wk call ev h l ++ wk call ev h l' := by simp [wk]

theorem wk_cons_no {call : Nat → Option Call} {ev : Nat → Ev} {h g : Nat} {l : List Nat}
    (hg : call g = some (.wait h) → (result (.wait h) (ev g)).1 ≠ SUCCESS) :
    wk call ev h (g :: l) = wk call ev h l := by
  unfold wk
  rw [List.filter_cons, if_neg]
  simp only [decide_eq_true_eq]
  exact fun hh => hg hh.1 hh.2

theorem wk_other {call : Nat → Option Call} {ev : Nat → Ev} {h : Nat} {l : List Nat}
    (hl : ∀ g ∈ l, call g ≠ some (.wait h)) : wk call ev h l = [] := by
  unfold wk
  rw [List.filter_eq_nil_iff]
  intro g hg; simp [hl g hg]

theorem wk_all {call : Nat → Option Call} {ev : Nat → Ev} {h : Nat} {l : List Nat}
    (hl : ∀ g ∈ l, call g = some (.wait h) ∧ ev g = ⟨.cond, COND_WAIT_SUCCESS, 0⟩) : wk call ev h l = l := by
  unfold wk
  rw [List.filter_eq_self]
  intro g hg
  obtain ⟨h1, h2⟩ := hl g hg
  simp [h1, h2, result, COND_WAIT_SUCCESS, COND_WAIT_FAILURE]

set_option hygiene false in
/-- the running fiber is put in front or at the back, from another call than wait -/
local macro "simplecase" : tactic => `(tactic|
  (refine CondStep.of_same (congrFun af.conds h) (by simp [waited1]) ?_
   rw [wk_after m af hf]
   first
   | exact wk_runq i (fun g hg => rfl)
   | (refine (wk_cons_no (l := w.runq) (by rw [inside_cur]; simp)).trans (wk_runq i fun g hg => ?_)
      have hgc : g ≠ w.cur := fun hh => hyq (hh ▸ hg)
      simp [fr, setEv, setBox, setCond, hgc])
   | (refine (wk_append _ _ _ w.runq [w.cur]).trans ?_
      rw [wk_other (l := [w.cur]) (fun g hg => by
        simp only [List.mem_singleton] at hg; subst hg; rw [inside_cur]; simp), List.append_nil]
      refine wk_runq i fun g hg => ?_
      have hgc : g ≠ w.cur := fun hh => hyq (hh ▸ hg)
      simp [bk, setEv, hgc])))

theorem cond_notify {w w2 : Sys} {c : Call} {f : Nat} {q : List Nat} {e : Ev} {x : Nat} {l l' : List Nat}
    (i : Inv w) (j : J w (inside w c) (w.cur :: w.runq)) (hl : w.conds x = some (l ++ l'))
    (hc : c = .notifyOne x ∨ c = .notifyAll x)
    (m : Mid (bk (bks (setCond w x (some l')) l) w.cur ⟨.cond, COND_NOTIFY_SUCCESS, 0⟩) (inside w c))
    (af : After (bk (bks (setCond w x (some l')) l) w.cur ⟨.cond, COND_NOTIFY_SUCCESS, 0⟩) (inside w c) f q w2)
    (hf : (bk (bks (setCond w x (some l')) l) w.cur ⟨.cond, COND_NOTIFY_SUCCESS, 0⟩).runq = f :: q ∧
        e = (bk (bks (setCond w x (some l')) l) w.cur ⟨.cond, COND_NOTIFY_SUCCESS, 0⟩).ev f ∨
      (bk (bks (setCond w x (some l')) l) w.cur ⟨.cond, COND_NOTIFY_SUCCESS, 0⟩).runq = [] ∧ q = [] ∧
        f = (bk (bks (setCond w x (some l')) l) w.cur ⟨.cond, COND_NOTIFY_SUCCESS, 0⟩).idle ∧ f ≠ 0 ∧
        e = ⟨.internal, RESUME_IDLE, 0⟩) (h : Nat) :
    CondStep w w2 ⟨w.cur, c, nextOf (inside w c f) f e⟩ h := by
  obtain ⟨h1, h2, h3, h4, h5, h6, h7, h8, h9, h10, h11⟩ := bks_fields l (setCond w x (some l'))
  have hyq : w.cur ∉ w.runq := (List.nodup_cons.1 i.j.nodup).1
  have hin := (j.cond x _ hl).2
  have hq : (bk (bks (setCond w x (some l')) l) w.cur ⟨.cond, COND_NOTIFY_SUCCESS, 0⟩).runq
      = w.runq ++ (l ++ [w.cur]) := by simp only [bk, h7]; simp [setCond]
  have hev : ∀ g, g ≠ w.cur → (bk (bks (setCond w x (some l')) l) w.cur ⟨.cond, COND_NOTIFY_SUCCESS, 0⟩).ev g
      = (bks (setCond w x (some l')) l).ev g := by intro g hg; simp [bk, setEv, hg]
  have hrun : wk (inside w c) (bk (bks (setCond w x (some l')) l) w.cur ⟨.cond, COND_NOTIFY_SUCCESS, 0⟩).ev h w.runq
      = due w h := by
    refine wk_runq i fun g hg => ?_
    rw [hev g (fun hh => hyq (hh ▸ hg)), h10 g]
    · rfl
    · intro hgl; exact (hin g (by simp [hgl])).2.1 (List.mem_cons_of_mem _ hg)
  have hcur : wk (inside w c) (bk (bks (setCond w x (some l')) l) w.cur ⟨.cond, COND_NOTIFY_SUCCESS, 0⟩).ev h [w.cur] = [] := by
    refine wk_other ?_
    intro g hg; simp only [List.mem_singleton] at hg; subst hg; rw [inside_cur]
    rcases hc with rfl | rfl <;> simp
  have hw : waited1 h ⟨w.cur, c, nextOf (inside w c f) f e⟩ = [] := by
    rcases hc with rfl | rfl <;> simp [waited1]
  have hconds : w2.conds h = if h = x then some l' else w.conds h := by
    rw [af.conds]; show (bks _ l).conds h = _; rw [h2]; rfl
  have ha := wk_after (h := h) m af hf
  rw [hq, wk_append, wk_append, hrun, hcur, List.append_nil] at ha
  by_cases hx : h = x
  · subst hx
    rw [wk_all (l := l) (fun g hg => ⟨(hin g (by simp [hg])).2.2, by
      rw [hev g (fun hh => (hin g (by simp [hg])).2.1 (by simp [hh])), h11 g hg]⟩)] at ha
    rw [if_pos rfl] at hconds
    refine ⟨?_, fun hh => by rw [hconds] at hh; cases hh⟩
    intro l2 h2
    rw [hconds] at h2; cases h2
    exact Or.inl ⟨_, hl, by rw [hw, ha]; simp⟩
  · rw [if_neg hx] at hconds
    refine CondStep.of_same hconds hw ?_
    rw [ha, wk_other (l := l), List.append_nil]
    intro g hg hh
    rw [(hin g (by simp [hg])).2.2] at hh
    cases hh; exact hx rfl

theorem cond_step {w w2 : Sys} {c : Call} {o : Oracle} {it : Item} (i : Inv w) (lg : Legal w c o)
    (hh : Out w c w2 it) (h : Nat) : CondStep w w2 it h := by
  obtain ⟨j, t⟩ := i.before (c := c) lg.idle
  obtain ⟨w1, f, q, e, hs, m, af, rfl, hf⟩ := hh.out
  have hyq : w.cur ∉ w.runq := (List.nodup_cons.1 i.j.nodup).1
  cases hs with
  | add x tr hm =>
    obtain ⟨f0, fq, fc⟩ := lg.fresh x rfl
    refine CondStep.of_same (congrFun af.conds h) (by simp [waited1]) ?_
    rw [wk_after m af hf]
    refine (wk_cons_no (l := w.runq ++ [x]) (by rw [inside_cur]; simp)).trans ?_
    rw [wk_append, wk_other (l := [x]), List.append_nil]
    · refine wk_runq i fun g hg => ?_
      have hgc : g ≠ w.cur := fun hh => hyq (hh ▸ hg)
      have hgx : g ≠ x := fun hh => fq (List.mem_cons_of_mem _ (hh ▸ hg))
      simp [fr, bk, setEv, hgc, hgx]
    · intro g hg; simp only [List.mem_singleton] at hg; subst hg
      have hne : g ≠ w.cur := fun h => fq (by simp [h])
      simp [inside, hne, fc]
  | addM x tr hm =>
    obtain ⟨f0, fq, fc⟩ := lg.fresh x rfl
    obtain ⟨m1, m2⟩ := j.mgmt hm
    refine CondStep.of_same (congrFun af.conds h) (by simp [waited1]) ?_
    rw [wk_after m af hf]
    refine (wk_cons_no (l := w.cur :: (w.runq ++ [x])) (by rw [m2]; simp)).trans ?_
    refine (wk_cons_no (l := w.runq ++ [x]) (by rw [inside_cur]; simp)).trans ?_
    rw [wk_append, wk_other (l := [x]), List.append_nil]
    · refine wk_runq i fun g hg => ?_
      have hgc : g ≠ w.cur := fun hh => hyq (hh ▸ hg)
      have hgx : g ≠ x := fun hh => fq (List.mem_cons_of_mem _ (hh ▸ hg))
      have hgm : g ≠ w.mgmt := fun hh => m1 (List.mem_cons_of_mem _ (hh ▸ hg))
      simp [fr, bk, setEv, hgc, hgx, hgm]
    · intro g hg; simp only [List.mem_singleton] at hg; subst hg
      have hne : g ≠ w.cur := fun h => fq (by simp [h])
      simp [inside, hne, fc]
  | stopM s hm =>
    obtain ⟨m1, m2⟩ := j.mgmt hm
    refine CondStep.of_same (congrFun af.conds h) (by simp [waited1]) ?_
    rw [wk_after m af hf]
    refine (wk_cons_no (l := w.runq) (by rw [m2]; simp)).trans (wk_runq i fun g hg => ?_)
    have hgm : g ≠ w.mgmt := fun hh => m1 (List.mem_cons_of_mem _ (hh ▸ hg))
    simp [fr, setEv, hgm]
  | sendWake a n n' ms b hb hbl hms =>
    obtain ⟨b1, b2, b3⟩ := j.box a b hb hbl
    refine CondStep.of_same (congrFun af.conds h) (by simp [waited1]) ?_
    rw [wk_after m af hf]
    refine (wk_cons_no (l := w.cur :: w.runq) (by rw [b2]; simp)).trans ?_
    refine (wk_cons_no (l := w.runq) (by rw [inside_cur]; simp)).trans (wk_runq i fun g hg => ?_)
    have hgc : g ≠ w.cur := fun hh => hyq (hh ▸ hg)
    have hgm : g ≠ b.blocked := fun hh => b1 (List.mem_cons_of_mem _ (hh ▸ hg))
    simp [fr, setEv, setBox, hgm, hgc]
  | condCreate =>
    have hd : (Item.woken h ⟨w.cur, .condCreate, nextOf (inside w .condCreate f) f e⟩).toList ++ due w2 h = due w h := by
      rw [wk_after m af hf]
      refine (wk_cons_no (l := w.runq) (by rw [inside_cur]; simp)).trans (wk_runq i fun g hg => ?_)
      have hgc : g ≠ w.cur := fun hh => hyq (hh ▸ hg)
      simp [fr, setEv, setCond, hgc]
    by_cases hx : h = w.cindex + 1
    · have hc2 : w2.conds h = some [] := by rw [af.conds]; simp [fr, setCond, setEv, hx]
      refine ⟨?_, fun hh => by rw [hc2] at hh; cases hh⟩
      intro l2 h2
      rw [hc2] at h2; cases h2
      exact Or.inr ⟨by omega, rfl, by simp [waited1], hd.symm⟩
    · refine CondStep.of_same ?_ (by simp [waited1]) hd
      rw [af.conds]; simp [fr, setCond, setEv, hx]
  | condClose x l e' hl he =>
    have hd : (Item.woken h ⟨w.cur, .condClose x, nextOf (inside w (.condClose x) f) f e⟩).toList ++ due w2 h = due w h := by
      rw [wk_after m af hf]
      refine (wk_cons_no (l := w.runq) (by rw [inside_cur]; simp)).trans (wk_runq i fun g hg => ?_)
      have hgc : g ≠ w.cur := fun hh => hyq (hh ▸ hg)
      simp [fr, setEv, setCond, hgc]
    by_cases hx : h = x
    · have hc2 : w2.conds h = none := by rw [af.conds]; simp [fr, setCond, setEv, hx]
      exact ⟨fun l2 hh => absurd (hc2.symm.trans hh) (by simp), fun _ => ⟨by simp [waited1], hd.symm⟩⟩
    · refine CondStep.of_same ?_ (by simp [waited1]) hd
      rw [af.conds]; simp [fr, setCond, setEv, hx]
  | waitFail x st hst =>
    refine CondStep.of_same (congrFun af.conds h) ?_ ?_
    · obtain ⟨rfl, rfl, rfl⟩ := hf_cons rfl hf
      rw [inside_cur, fr_ev]
      have hr : (Item.mk w.cur (.wait x) (nextOf (some (.wait x)) w.cur ⟨.cond, COND_WAIT_FAILURE, st.toNat⟩)).refused = true := by
        simp [nextOf, Item.refused, result, statusOf_toNat, hst]
      simp [waited1, hr]
    · rw [wk_after m af hf]
      refine (wk_cons_no (l := w.runq) ?_).trans (wk_runq i fun g hg => ?_)
      · intro _; rw [fr_ev]; simp [result, statusOf_toNat, hst]
      · have hgc : g ≠ w.cur := fun hh => hyq (hh ▸ hg)
        simp [fr, setEv, hgc]
  | wait x l hl =>
    have hd : (Item.woken h ⟨w.cur, .wait x, nextOf (inside w (.wait x) f) f e⟩).toList ++ due w2 h = due w h := by
      rw [wk_after m af hf]
      exact wk_runq i fun g hg => rfl
    by_cases hx : h = x
    · subst hx
      have hfc : f ≠ w.cur := by
        rcases hf with ⟨h1, h2⟩ | ⟨h1, h2, h3, h4, h5⟩
        · intro hh; subst hh
          have h1 : w.runq = w.cur :: q := h1
          exact hyq (by rw [h1]; simp)
        · intro hh
          have := lg.idle (hh.symm.trans h3)
          cases this
      have hr : (Item.mk w.cur (.wait h) (nextOf (inside w (.wait h) f) f e)).refused = false := by
        cases hi : inside w (.wait h) f <;> simp [nextOf, Item.refused, hfc]
      have hc2 : w2.conds h = some (l ++ [w.cur]) := by rw [af.conds]; simp [setCond]
      refine ⟨?_, fun hh => by rw [hc2] at hh; cases hh⟩
      intro l2 h2
      rw [hc2] at h2; cases h2
      refine Or.inl ⟨l, hl, ?_⟩
      rw [hd]; simp [waited1, hr]
    · refine CondStep.of_same ?_ ?_ hd
      · rw [af.conds]; simp [setCond, hx]
      · simp [waited1, Ne.symm hx]
  | notifyOne x y l hl => exact cond_notify (l := [y]) (l' := l) i j hl (Or.inl rfl) m af hf h
  | notifyAll x l hl => exact cond_notify (l := l) (l' := []) i j (by simpa using hl) (Or.inr rfl) m af hf h
  | _ => simplecase

/-! ### Fibers that nobody knows of -/

/-- `f` is inside a call, does not run, and is registered nowhere -/
structure Lost (w : Sys) (f : Nat) : Prop where
  runs : f ∉ w.cur :: w.runq
  call : w.call f ≠ none
  box : ∀ a b, w.boxes a = some b → b.blocked ≠ f
  cond : ∀ h l, w.conds h = some l → f ∉ l
  mgmt : w.mgmt ≠ f
  idle : w.idle ≠ f
  nz : f ≠ 0

theorem lost_hstep {w w1 : Sys} {c : Call} {o : Oracle} {f : Nat} (lo : Lost w f) (lg : Legal w c o)
    (h : HStep w c w1) : f ∉ w1.runq ∧ (∀ a b, w1.boxes a = some b → b.blocked ≠ f) ∧
      (∀ h l, w1.conds h = some l → f ∉ l) ∧ w1.mgmt ≠ f := by
  have hy : f ≠ w.cur := fun h => lo.runs (by simp [h])
  have hq : f ∉ w.runq := fun h => lo.runs (by simp [h])
  have boxc : ∀ (x : Nat) (ob : Option Box), (∀ b, ob = some b → b.blocked ≠ f) →
      ∀ a b, (setBox w x ob).boxes a = some b → b.blocked ≠ f := by
    intro x ob hob a b hb
    replace hb : (if a = x then ob else w.boxes a) = some b := hb
    split at hb
    · exact hob b hb
    · exact lo.box a b hb
  have condc : ∀ (x : Nat) (ol : Option (List Nat)), (∀ l, ol = some l → f ∉ l) →
      ∀ h l, (setCond w x ol).conds h = some l → f ∉ l := by
    intro x ol hol a l hl
    replace hl : (if a = x then ol else w.conds a) = some l := hl
    split at hl
    · exact hol l hl
    · exact lo.cond a l hl
  cases h with
  | add x tr hm =>
    have hx : f ≠ x := fun h => lo.call (by rw [h]; exact (lg.fresh x rfl).2.2)
    exact ⟨by simp [fr, bk, setEv, hy, hq, hx], lo.box, lo.cond, lo.mgmt⟩
  | addM x tr hm =>
    have hx : f ≠ x := fun h => lo.call (by rw [h]; exact (lg.fresh x rfl).2.2)
    exact ⟨by simp [fr, bk, setEv, hy, hq, hx, Ne.symm lo.mgmt], lo.box, lo.cond, lo.nz.symm⟩
  | stopM s hm =>
    exact ⟨by simp [fr, setEv, hq, Ne.symm lo.mgmt], lo.box, lo.cond, lo.nz.symm⟩
  | mgmtReceive => exact ⟨hq, lo.box, lo.cond, hy.symm⟩
  | boxCreate =>
    exact ⟨by simp [fr, hy, setEv, setBox, hq], boxc _ _ (by rintro b ⟨⟩; exact lo.nz.symm), lo.cond, lo.mgmt⟩
  | boxClose a b st hb => exact ⟨by simp [fr, hy, setEv, setBox, hq], boxc _ _ (by simp), lo.cond, lo.mgmt⟩
  | send a m b hb hbl =>
    exact ⟨by simp [fr, hy, setEv, setBox, hq], boxc _ _ (by rintro b ⟨⟩; exact lo.nz.symm), lo.cond, lo.mgmt⟩
  | sendWake a m m' ms b hb hbl hms =>
    have hbf := lo.box a b hb
    refine ⟨by simp [fr, setEv, setBox, hy, hq, Ne.symm hbf], ?_, lo.cond, lo.mgmt⟩
    intro x b' hb'
    have hb' : (if x = a then some ⟨0, ms⟩ else if x = a then some ⟨b.blocked, m' :: ms⟩ else w.boxes x) = some b' := hb'
    split at hb'
    · cases hb'; exact lo.nz.symm
    · exact lo.box x b' hb'
  | receiveBlock a hb => exact ⟨hq, boxc _ _ (by rintro b ⟨⟩; exact hy.symm), lo.cond, lo.mgmt⟩
  | receive a m x ms hb =>
    exact ⟨by simp [fr, hy, setEv, setBox, hq], boxc _ _ (by rintro b ⟨⟩; exact lo.box a ⟨x, m :: ms⟩ hb), lo.cond, lo.mgmt⟩
  | condCreate => exact ⟨by simp [fr, hy, setEv, setCond, hq], lo.box, condc _ _ (by rintro b ⟨⟩; simp), lo.mgmt⟩
  | condClose h l e hl he => exact ⟨by simp [fr, hy, setEv, setCond, hq], lo.box, condc _ _ (by simp), lo.mgmt⟩
  | wait h l hl =>
    exact ⟨hq, lo.box, condc _ _ (by rintro b ⟨⟩; simp [lo.cond h l hl, hy]), lo.mgmt⟩
  | notifyOne h g l hl =>
    have := lo.cond h _ hl
    simp only [List.mem_cons, not_or] at this
    refine ⟨by simp [bk, bks, setEv, setCond, hq, hy, this.1], lo.box, condc _ _ (by rintro b ⟨⟩; exact this.2), lo.mgmt⟩
  | notifyAll h l hl =>
    obtain ⟨h1, h2, h3, h4, h5, h6, h7, h8, h9, h10, h11⟩ := bks_fields l (setCond w h (some []))
    refine ⟨?_, ?_, ?_, ?_⟩
    · simp only [bk, h7]
      simp [setCond, hq, hy, lo.cond h l hl]
    · show ∀ a b, (bks _ l).boxes a = some b → _
      rw [h1]; exact lo.box
    · show ∀ a b, (bks _ l).conds a = some b → _
      rw [h2]; exact condc _ _ (by rintro b ⟨⟩; simp)
    · show (bks _ l).mgmt ≠ f
      rw [h3]; exact lo.mgmt
  | _ =>
    first
    | exact ⟨hq, lo.box, lo.cond, lo.mgmt⟩
    | exact ⟨by simp [fr, setEv, hy, hq], lo.box, lo.cond, lo.mgmt⟩
    | exact ⟨by simp [bk, setEv, hy, hq], lo.box, lo.cond, lo.mgmt⟩

theorem lost_after {w w1 w2 : Sys} {c : Call} {f g : Nat} {q : List Nat} {e : Ev} (hy : f ≠ w.cur)
    (hc : w.call f ≠ none) (h0 : f ≠ 0) (hi : w.idle ≠ f) (hs : HStep w c w1) (l1 : f ∉ w1.runq)
    (l2 : ∀ a b, w1.boxes a = some b → b.blocked ≠ f) (l3 : ∀ h l, w1.conds h = some l → f ∉ l) (l4 : w1.mgmt ≠ f)
    (a : After w1 (inside w c) g q w2)
    (hf : w1.runq = g :: q ∧ e = w1.ev g ∨
      w1.runq = [] ∧ q = [] ∧ g = w1.idle ∧ g ≠ 0 ∧ e = ⟨.internal, RESUME_IDLE, 0⟩) : Lost w2 f := by
  have hi : w1.idle ≠ f := by rw [(hstep_frame hs).2.1]; exact hi
  have hgf : f ≠ g := by
    rcases hf with ⟨h1, h2⟩ | ⟨h1, h2, h3, h4, h5⟩
    · rw [h1] at l1; exact fun h => l1 (by simp [h])
    · rw [h3]; exact hi.symm
  refine ⟨?_, ?_, ?_, ?_, ?_, ?_, h0⟩
  · rw [a.cur, a.runq]
    rcases hf with ⟨h1, h2⟩ | ⟨h1, h2, h3, h4, h5⟩
    · rw [← h1]; exact l1
    · subst h2; simpa using hgf
  · rw [a.call]; simp only [if_neg hgf]; simpa [inside, hy] using hc
  · rw [a.boxes]; exact l2
  · rw [a.conds]; exact l3
  · rw [a.mgmt]; exact l4
  · rw [a.idle]; exact hi

theorem lost_step {w : Sys} {c : Call} {o : Oracle} {f : Nat} (i : Inv w) (lo : Lost w f) (lg : Legal w c o) :
    Lost (step w c o).1 f := by
  rcases step_ok i lg with ⟨_, _, h⟩ | h
  · rw [h]; exact lo
  · obtain ⟨w1, g, q, e, hs, m, a, _, hf⟩ := h.out
    obtain ⟨l1, l2, l3, l4⟩ := lost_hstep lo lg hs
    exact lost_after (fun h => lo.runs (by simp [h])) lo.call lo.nz lo.idle hs l1 l2 l3 l4 a hf

/-- the receiver blocked on a mailbox that is closed -/
theorem close_lost {w : Sys} {o : Oracle} {f a : Nat} {b : Box} (i : Inv w) (hb : w.boxes a = some b)
    (hbf : b.blocked = f) (hf0 : f ≠ 0) (lg : Legal w (.boxClose a) o) : Lost (step w (.boxClose a) o).1 f := by
  subst hbf
  obtain ⟨b1, b2, b3⟩ := i.j.box a b hb hf0
  have hy : b.blocked ≠ w.cur := fun h => b1 (by simp [h])
  have hq : b.blocked ∉ w.runq := fun h => b1 (by simp [h])
  have hidle : w.idle ≠ b.blocked := by
    intro h
    rcases i.j.idle (by rw [h]; exact hf0) with h' | h' <;> rw [h, b2] at h' <;> cases h'
  rcases step_ok i lg with ⟨_, h, _⟩ | h
  · cases h
  · obtain ⟨w1, g, q, e, hs, m, af, _, hf⟩ := h.out
    have : ∃ e, w1 = fr (setBox w a none) w.cur e := by
      cases hs with
      | boxCloseFail _ st hn => rw [hb] at hn; cases hn
      | boxClose => exact ⟨_, rfl⟩
    obtain ⟨e', rfl⟩ := this
    refine lost_after hy (by simp [b2]) hf0 hidle hs (by simp [fr, setBox, hy, hq, setEv]) ?_ ?_ ?_ af hf
    · intro x b' hb' hbl
      replace hb' : (if x = a then none else w.boxes x) = some b' := hb'
      split at hb'
      · cases hb'
      · next hne =>
        have := (i.j.box x b' hb' (by rw [hbl]; exact hf0)).2.1
        rw [hbl, b2] at this; cases this; exact hne rfl
    · intro x l hl hm
      have := ((i.j.cond x l hl).2 _ hm).2.2
      rw [b2] at this; cases this
    · intro hm
      replace hm : w.mgmt = b.blocked := hm
      have := (i.j.mgmt (by rw [hm]; exact hf0)).2
      rw [hm, b2] at this; cases this

/-- the waiters of a condition that is closed -/
theorem condClose_lost {w : Sys} {o : Oracle} {f h : Nat} {l : List Nat} (i : Inv w) (hl : w.conds h = some l)
    (hfl : f ∈ l) (lg : Legal w (.condClose h) o) : Lost (step w (.condClose h) o).1 f := by
  obtain ⟨hf0, b1, b2⟩ := (i.j.cond h l hl).2 f hfl
  have hy : f ≠ w.cur := fun h => b1 (by simp [h])
  have hq : f ∉ w.runq := fun h => b1 (by simp [h])
  have hidle : w.idle ≠ f := by
    intro h
    rcases i.j.idle (by rw [h]; exact hf0) with h' | h' <;> rw [h, b2] at h' <;> cases h'
  rcases step_ok i lg with ⟨_, h, _⟩ | hout
  · cases h
  · obtain ⟨w1, g, q, e, hs, m, af, _, hf⟩ := hout.out
    have : ∃ e, w1 = fr (setCond w h none) w.cur e := by
      cases hs with
      | condCloseFail _ st hn => rw [hl] at hn; cases hn
      | condClose => exact ⟨_, rfl⟩
    obtain ⟨e', rfl⟩ := this
    refine lost_after hy (by simp [b2]) hf0 hidle hs (by simp [fr, setCond, hy, hq, setEv]) ?_ ?_ ?_ af hf
    · intro x b' hb' hbl
      have := (i.j.box x b' hb' (by rw [hbl]; exact hf0)).2.1
      rw [hbl, b2] at this; cases this
    · intro x l' hl' hm
      replace hl' : (if x = h then none else w.conds x) = some l' := hl'
      split at hl'
      · cases hl'
      · next hne =>
        have := ((i.j.cond x l' hl').2 _ hm).2.2
        rw [b2] at this; cases this; exact hne rfl
    · intro hm
      replace hm : w.mgmt = f := hm
      have := (i.j.mgmt (by rw [hm]; exact hf0)).2
      rw [hm, b2] at this; cases this

/-! ### Blocked receivers are known to their mailbox -/

/-- a fiber inside a receive is the one its mailbox has recorded -/
def Known (w : Sys) (call : Nat → Option Call) (f : Nat) : Prop :=
  ∀ a, call f = some (.receive a) → f ≠ 0 ∧ a ≤ w.mindex ∧ ∀ b, w.boxes a = some b → b.blocked = f

theorem known_hstep {w w1 : Sys} {c : Call} (i : Inv w) (k : ∀ f, Known w w.call f) (h : HStep w c w1) {f : Nat}
    (hf : f ∉ w1.runq) : Known w1 (inside w c) f := by
  intro a hc
  have hy0 : w.cur ≠ 0 := i.j.nz _ (by simp)
  have hin : f ≠ w.cur → w.call f = some (.receive a) := fun h => by simpa [inside, h] using hc
  have other : (∀ a, c ≠ .receive a) → f ≠ w.cur := by
    intro h1 h2; subst h2; rw [inside_cur] at hc; cases hc; exact h1 _ rfl
  have keep : f ≠ w.cur → f ≠ 0 ∧ a ≤ w.mindex ∧ ∀ b, w.boxes a = some b → b.blocked = f :=
    fun h => k f a (hin h)
  have boxc : ∀ (x : Nat) (ob : Option Box), f ≠ w.cur → (∀ b, x = a → ob = some b → b.blocked = f) →
      f ≠ 0 ∧ a ≤ w.mindex ∧ ∀ b, (setBox w x ob).boxes a = some b → b.blocked = f := by
    intro x ob hy hob
    obtain ⟨k1, k2, k3⟩ := keep hy
    refine ⟨k1, k2, ?_⟩
    intro b hb
    replace hb : (if a = x then ob else w.boxes a) = some b := hb
    split at hb
    · next ha => exact hob b ha.symm hb
    · exact k3 b hb
  cases h with
  | boxCreate =>
    have hy := other (by simp)
    obtain ⟨k1, k2, k3⟩ := keep hy
    refine ⟨k1, Nat.le_succ_of_le k2, ?_⟩
    intro b hb
    replace hb : (if a = w.mindex + 1 then some ⟨0, []⟩ else w.boxes a) = some b := hb
    rw [if_neg (by omega)] at hb
    exact k3 b hb
  | boxClose x b st hb => exact boxc x none (other (by simp)) (by simp)
  | send x m b hb hbl =>
    have hy := other (by simp)
    refine boxc x _ hy ?_
    intro b' hx hb'; subst hx; cases hb'
    exact hbl.symm.trans ((keep hy).2.2 b hb)
  | sendWake x m m' ms b hb hbl hms =>
    have hy := other (by simp)
    obtain ⟨k1, k2, k3⟩ := keep hy
    refine ⟨k1, k2, ?_⟩
    intro b' hb'
    have hb' : (if a = x then some ⟨0, ms⟩ else if a = x then some ⟨b.blocked, m' :: ms⟩ else w.boxes a) = some b' := hb'
    split at hb'
    · next ha =>
      subst ha
      exact absurd (by simp [fr, k3 b hb]) hf
    · exact k3 b' (by simpa [*] using hb')
  | receiveFail x st hst =>
    by_cases hy : f = w.cur
    · exact absurd (by simp [fr, hy]) hf
    · exact keep hy
  | receiveBlock x hb =>
    by_cases hy : f = w.cur
    · subst hy
      rw [inside_cur] at hc; cases hc
      refine ⟨hy0, (i.j.bidx a (by simp [hb])).2, ?_⟩
      intro b hb'
      replace hb' : (if a = a then some ⟨w.cur, []⟩ else w.boxes a) = some b := hb'
      rw [if_pos rfl] at hb'; cases hb'; rfl
    · refine boxc x _ hy ?_
      intro b' hx hb'; subst hx
      obtain ⟨k1, k2, k3⟩ := keep hy
      exact absurd (k3 _ hb).symm k1
  | receive x m y ms hb =>
    by_cases hy : f = w.cur
    · exact absurd (by simp [fr, hy]) hf
    · refine boxc x _ hy ?_
      intro b' hx hb'; subst hx; cases hb'
      exact (keep hy).2.2 ⟨y, m :: ms⟩ hb
  | notifyAll h l hl =>
    obtain ⟨h1, h2, h3, h4, h5, h6, h7, h8, h9, h10, h11⟩ := bks_fields l (setCond w h (some []))
    obtain ⟨k1, k2, k3⟩ := keep (other (by simp))
    refine ⟨k1, ?_, ?_⟩
    · show a ≤ (bks _ l).mindex
      rw [h5]; exact k2
    · show ∀ b, (bks _ l).boxes a = some b → _
      rw [h1]; exact k3
  | _ => exact keep (other (by simp))

theorem Hist.known {main idle : Nat} {w : Sys} {tr : List Item} (h : Hist main idle w tr) : ∀ f, Known w w.call f := by
  induction h with
  | init => intro f a h; cases h
  | @step w tr c o hh lg ih =>
    rcases step_ok hh.inv lg with ⟨_, _, h⟩ | h
    · rw [h]; exact ih
    · obtain ⟨w1, g, q, e, hs, m, af, _, hf⟩ := h.out
      intro f a hc
      rw [af.call] at hc
      by_cases hfg : f = g
      · simp [hfg] at hc
      · simp only [if_neg hfg] at hc
        have hfr : f ∉ w1.runq := by
          rcases hf with ⟨h1, h2⟩ | ⟨h1, h2, h3, h4, h5⟩
          · rw [h1]
            intro hm
            rcases List.mem_cons.1 hm with hm | hm
            · exact hfg hm
            · have := (m.head g q h1).2 f hm
              rw [hc] at this; exact this
          · rw [h1]; simp
        have := known_hstep hh.inv ih hs hfr a hc
        rw [af.mindex, af.boxes]; exact this

/-- a fiber inside a wait is due, or in the list of its condition -/
def Listed (w : Sys) (call : Nat → Option Call) (f : Nat) : Prop :=
  ∀ h, call f = some (.wait h) → h ≤ w.cindex ∧ (f ∈ w.runq ∨ ∀ l, w.conds h = some l → f ∈ l)

theorem listed_hstep {w w1 : Sys} {c : Call} (i : Inv w) (k : ∀ f, Listed w w.call f) (h : HStep w c w1) {f : Nat}
    (hne : ∀ g q, w1.runq = g :: q → f ≠ g) : Listed w1 (inside w c) f := by
  intro x hc
  have hin : f ≠ w.cur → w.call f = some (.wait x) := fun h => by simpa [inside, h] using hc
  have other : (∀ a, c ≠ .wait a) → f ≠ w.cur := by
    intro h1 h2; subst h2; rw [inside_cur] at hc; cases hc; exact h1 _ rfl
  have keep : f ≠ w.cur → x ≤ w.cindex ∧ (f ∈ w.runq ∨ ∀ l, w.conds x = some l → f ∈ l) :=
    fun h => k f x (hin h)
  have easy : f ≠ w.cur → ∀ q' : List Nat, (∀ g ∈ w.runq, g ∈ q') →
      x ≤ w.cindex ∧ (f ∈ q' ∨ ∀ l, w.conds x = some l → f ∈ l) := by
    intro hy q' hq'
    obtain ⟨k1, k2⟩ := keep hy
    exact ⟨k1, k2.imp (hq' f) id⟩
  have fronts : ∀ {y : Nat}, ∀ g ∈ w.runq, g ∈ y :: w.runq := fun g hg => List.mem_cons_of_mem _ hg
  have backs : ∀ {y : Nat}, ∀ g ∈ w.runq, g ∈ w.runq ++ [y] := fun g hg => List.mem_append_left _ hg
  cases h with
  | add y tr hm => exact easy (other (by simp)) (w.cur :: (w.runq ++ [y])) (fun g hg => by simp [hg])
  | addM y tr hm => exact easy (other (by simp)) (w.mgmt :: w.cur :: (w.runq ++ [y])) (fun g hg => by simp [hg])
  | sendWake a m m' ms b hb hbl hms =>
    exact easy (other (by simp)) (b.blocked :: w.cur :: w.runq) (fun g hg => by simp [hg])
  | condCreate =>
    obtain ⟨k1, k2⟩ := keep (other (by simp))
    refine ⟨Nat.le_succ_of_le k1, k2.imp (fun h => List.mem_cons_of_mem _ h) ?_⟩
    intro h l hl
    replace hl : (if x = w.cindex + 1 then some [] else w.conds x) = some l := hl
    rw [if_neg (by omega)] at hl
    exact h l hl
  | condClose y l e hl he =>
    obtain ⟨k1, k2⟩ := keep (other (by simp))
    refine ⟨k1, k2.imp (fun h => List.mem_cons_of_mem _ h) ?_⟩
    intro h l' hl'
    replace hl' : (if x = y then none else w.conds x) = some l' := hl'
    split at hl'
    · cases hl'
    · exact h l' hl'
  | waitFail y st hst =>
    by_cases hy : f = w.cur
    · exact absurd hy (hne _ _ rfl)
    · exact easy hy _ fronts
  | wait y l hl =>
    by_cases hy : f = w.cur
    · subst hy
      rw [inside_cur] at hc; cases hc
      refine ⟨(i.j.cidx x (by simp [hl])).2, Or.inr ?_⟩
      intro l' hl'
      replace hl' : (if x = x then some (l ++ [w.cur]) else w.conds x) = some l' := hl'
      rw [if_pos rfl] at hl'; cases hl'; simp
    · obtain ⟨k1, k2⟩ := keep hy
      refine ⟨k1, k2.imp id ?_⟩
      intro h l' hl'
      replace hl' : (if x = y then some (l ++ [w.cur]) else w.conds x) = some l' := hl'
      split at hl'
      · next hx => subst hx; cases hl'; exact List.mem_append_left _ (h l hl)
      · exact h l' hl'
  | notifyOne y g l hl =>
    obtain ⟨k1, k2⟩ := keep (other (by simp))
    refine ⟨k1, ?_⟩
    show f ∈ (w.runq ++ [g]) ++ [w.cur] ∨ ∀ l', (if x = y then some l else w.conds x) = some l' → f ∈ l'
    rcases k2 with h | h
    · left; simp [h]
    · by_cases hx : x = y
      · subst hx
        have := h _ hl
        rcases List.mem_cons.1 this with h | h
        · left; simp [h]
        · right; intro l' hl'; simp only [if_pos] at hl'; cases hl'; exact h
      · right; simpa [hx] using h
  | notifyAll y l hl =>
    obtain ⟨h1, h2, h3, h4, h5, h6, h7, h8, h9, h10, h11⟩ := bks_fields l (setCond w y (some []))
    obtain ⟨k1, k2⟩ := keep (other (by simp))
    refine ⟨?_, ?_⟩
    · show x ≤ (bks _ l).cindex
      rw [h6]; exact k1
    · show f ∈ (bks _ l).runq ++ [w.cur] ∨ ∀ l', (bks _ l).conds x = some l' → f ∈ l'
      rw [h7, h2]
      show f ∈ (w.runq ++ l) ++ [w.cur] ∨ ∀ l', (if x = y then some [] else w.conds x) = some l' → f ∈ l'
      rcases k2 with h | h
      · left; simp [h]
      · by_cases hx : x = y
        · subst hx
          left; simp [h _ hl]
        · right; simpa [hx] using h
  | _ =>
    first
    | exact keep (other (by simp))
    | exact easy (other (by simp)) _ fronts
    | exact easy (other (by simp)) _ backs

theorem Hist.listed {main idle : Nat} {w : Sys} {tr : List Item} (h : Hist main idle w tr) : ∀ f, Listed w w.call f := by
  induction h with
  | init => intro f a h; cases h
  | @step w tr c o hh lg ih =>
    rcases step_ok hh.inv lg with ⟨_, _, h⟩ | h
    · rw [h]; exact ih
    · obtain ⟨w1, g, q, e, hs, m, af, _, hf⟩ := h.out
      intro f x hc
      rw [af.call] at hc
      by_cases hfg : f = g
      · simp [hfg] at hc
      · simp only [if_neg hfg] at hc
        have := listed_hstep hh.inv ih hs (f := f) (by
          intro g' q' h
          rcases hf with ⟨h1, h2⟩ | ⟨h1, _⟩
          · rw [h1] at h; cases h; exact hfg
          · rw [h1] at h; cases h) x hc
        rw [af.cindex, af.conds, af.runq]
        refine ⟨this.1, this.2.imp ?_ id⟩
        intro h
        rcases hf with ⟨h1, h2⟩ | ⟨h1, _⟩
        · rw [h1] at h
          rcases List.mem_cons.1 h with h | h
          · exact absurd h hfg
          · exact h
        · rw [h1] at h; cases h

end Rcpr.Fiber
