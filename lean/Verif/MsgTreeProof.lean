import Verif.MsgTree
import Verif.RBStack
import Verif.FiberAny

/-! The trees of mailboxes and barriers as finite maps: lemmas for `Verif.Props.MsgTree`. -/
namespace Rcpr.MsgTree

open Rcpr Fiber RB.Spec

instance : Std.TransCmp byAddr.cmp := inferInstanceAs (Std.TransCmp (compare : Nat → Nat → Ordering))

theorem match_iff {k v : Nat} : Match byAddr k v ↔ v = k := by
  show compare k v = .eq ↔ _
  rw [Nat.compare_eq_eq]; exact eq_comm

theorem mem_insert {u b : Nat} : ∀ {l : List Nat}, b ∈ RB.Spec.insert byAddr u l ↔ b = u ∨ b ∈ l
  | [] => by simp [RB.Spec.insert]
  | x :: l => by
    unfold RB.Spec.insert
    split
    · simp
    · simp only [List.mem_cons, mem_insert (l := l)]
      exact ⟨fun h => by rcases h with h | h | h <;> simp [h], fun h => by rcases h with h | h | h <;> simp [h]⟩

theorem nodup_insert {u : Nat} : ∀ {l : List Nat}, l.Nodup → u ∉ l → (RB.Spec.insert byAddr u l).Nodup
  | [], _, _ => by simp [RB.Spec.insert]
  | x :: l, h, hu => by
    unfold RB.Spec.insert
    rw [List.nodup_cons] at h
    simp only [List.mem_cons, not_or] at hu
    split
    · rw [List.nodup_cons, List.nodup_cons]
      exact ⟨by simp [hu.1, hu.2], h⟩
    · rw [List.nodup_cons]
      refine ⟨fun hm => ?_, nodup_insert h.2 hu.2⟩
      rcases mem_insert.1 hm with e | e
      · exact hu.1 e.symm
      · exact h.1 e

/-- Used as `P` allows, the tree answers like a list; `G` is what is known of its state. -/
structure Safe (P : Use) (G : Log → RB.St → View → Prop) : Prop where
  init : ∀ N, G [] (RB.create N) ⟨[], []⟩
  log : ∀ {h s v}, G h s v → s.released = v.released
  count : ∀ {h s v}, G h s v → s.tree.count = v.items.length
  here : ∀ {h s v}, G h s v → ∃ X, RB.Inv byAddr s X v ∧ RB.Clean s
  step : ∀ {h s v op} (e : RB.Env), G h s v → RB.Legal s op → P h s op →
    ∃ out s' v', RB.call byAddr e s op = some (out, s') ∧ Step byAddr e v op out v' ∧ G (h ++ [(op, out)]) s' v'

/-- The structures for which `dom` holds are the ones in the tree; `n` is the last number given out. -/
def Tied (G : Log → RB.St → View → Prop) (log : Log) (s : RB.St) (dom : Nat → Prop) (n : Nat) : Prop :=
  ∃ v, G log s v ∧ (∀ a, dom a ↔ a ∈ v.items) ∧ v.items.Nodup ∧ ∀ a ∈ v.items, 0 < a ∧ a ≤ n

section
variable {P : Use} {G : Log → RB.St → View → Prop}

theorem Tied.congr {log : Log} {s : RB.St} {dom dom' : Nat → Prop} {n : Nat} (h : Tied G log s dom n) (hd : ∀ a, dom' a ↔ dom a) :
    Tied G log s dom' n := by
  obtain ⟨v, h1, h2, h3, h4⟩ := h
  exact ⟨v, h1, fun a => (hd a).trans (h2 a), h3, h4⟩

theorem Tied.find (S : Safe P G) {e : RB.Env} {log : Log} {s : RB.St} {dom : Nat → Prop} {n a : Nat} (t : Tied G log s dom n)
    (hP : P log s (.find a)) :
    ∃ out s', RB.call byAddr e s (.find a) = some (out, s') ∧
      ((dom a ∧ out = (SUCCESS, a)) ∨ (¬ dom a ∧ out = (ERROR_RBTREE_NOT_FOUND, 0))) ∧ Tied G (log ++ [(.find a, out)]) s' dom n := by
  obtain ⟨v, h1, h2, h3, h4⟩ := t
  obtain ⟨out, s', v', e1, e2, e3⟩ := S.step e h1 (op := .find a) trivial hP
  refine ⟨out, s', e1, ?_, ?_⟩
  · cases e2 with
    | find hm he => rw [match_iff] at he; subst he; exact .inl ⟨(h2 _).2 hm, rfl⟩
    | findNone hn => exact .inr ⟨fun hd => hn a ((h2 a).1 hd) (match_iff.2 rfl), rfl⟩
  · cases e2 <;> exact ⟨v, e3, h2, h3, h4⟩

theorem Tied.delete (S : Safe P G) {e : RB.Env} {log : Log} {s : RB.St} {dom : Nat → Prop} {n a : Nat} (t : Tied G log s dom n)
    (hP : P log s (.delete a false)) :
    ∃ out s', RB.call byAddr e s (.delete a false) = some (out, s') ∧
      ((dom a ∧ s'.released = s.released ++ [a] ∧ Tied G (log ++ [(.delete a false, out)]) s' (fun b => dom b ∧ b ≠ a) n) ∨
       (¬ dom a ∧ out.1 = ERROR_RBTREE_NOT_FOUND ∧ s'.released = s.released ∧ Tied G (log ++ [(.delete a false, out)]) s' dom n)) := by
  obtain ⟨v, h1, h2, h3, h4⟩ := t
  obtain ⟨out, s', v', e1, e2, e3⟩ := S.step e h1 (op := .delete a false) trivial hP
  refine ⟨out, s', e1, ?_⟩
  cases e2 with
  | @delete A B lg _ u b hm =>
    rw [match_iff] at hm; subst hm
    have hl := S.log e3
    have hl0 := S.log h1
    refine .inl ⟨(h2 _).2 (by simp), ?_, ⟨A ++ B, lg ++ [u]⟩, e3, fun b => ?_, ?_, fun b hb => h4 b (by simp at hb ⊢; rcases hb with h | h <;> simp [h])⟩
    · rw [hl, hl0]
    · show dom b ∧ b ≠ u ↔ b ∈ A ++ B
      rw [h2 b]
      rw [List.nodup_append, List.nodup_cons] at h3
      obtain ⟨d1, ⟨d2, d3⟩, d4⟩ := h3
      simp only [List.mem_append, List.mem_cons]
      refine ⟨fun ⟨h, hne⟩ => ?_, fun h => ⟨?_, fun hb => ?_⟩⟩
      · rcases h with h | h | h
        · exact .inl h
        · exact absurd h hne
        · exact .inr h
      · rcases h with h | h
        · exact .inl h
        · exact .inr (.inr h)
      · subst hb
        rcases h with h | h
        · exact d4 b h b (by simp) rfl
        · exact d2 h
    · rw [List.nodup_append, List.nodup_cons] at h3
      obtain ⟨d1, ⟨d2, d3⟩, d4⟩ := h3
      exact List.nodup_append.2 ⟨d1, d3, fun x hx y hy => d4 x hx y (List.mem_cons_of_mem _ hy)⟩
  | deleteNone hn =>
    exact .inr ⟨fun hd => hn a ((h2 a).1 hd) (match_iff.2 rfl), rfl, by rw [S.log e3, S.log h1], ⟨v, e3, h2, h3, h4⟩⟩

theorem Tied.insert (S : Safe P G) {e : RB.Env} {log : Log} {s : RB.St} {dom : Nat → Prop} {n node : Nat} {st : Status} (t : Tied G log s dom n)
    (hf : st = SUCCESS → s.heap node = none) (hP : P log s (.insert (n + 1) node st)) :
    ∃ s', RB.call byAddr e s (.insert (n + 1) node st) = some ((st, 0), s') ∧
      (st = SUCCESS → Tied G (log ++ [(.insert (n + 1) node st, (st, 0))]) s' (fun b => dom b ∨ b = n + 1) (n + 1)) ∧
      (st ≠ SUCCESS → Tied G (log ++ [(.insert (n + 1) node st, (st, 0))]) s' dom n) := by
  obtain ⟨v, h1, h2, h3, h4⟩ := t
  obtain ⟨out, s', v', e1, e2, e3⟩ := S.step e h1 (op := .insert (n + 1) node st) ⟨by omega, hf⟩ hP
  cases e2 with
  | insert =>
    refine ⟨s', e1, fun _ => ⟨_, e3, fun b => ?_, nodup_insert h3 (fun h => ?_), fun b hb => ?_⟩, fun h => absurd rfl h⟩
    · show dom b ∨ b = n + 1 ↔ _
      rw [h2 b]; exact ⟨fun h => mem_insert.2 (h.elim .inr .inl), fun h => (mem_insert.1 h).elim .inr .inl⟩
    · have := h4 _ h; omega
    · rcases mem_insert.1 hb with rfl | hb
      · omega
      · have := h4 b hb; omega
  | insertFail hne => exact ⟨s', e1, fun h => absurd h hne, fun _ => ⟨v, e3, h2, h3, h4⟩⟩

/-- Both trees agree with what exists. -/
structure J (G : Log → RB.St → View → Prop) (w : World) : Prop where
  mail : Tied G w.mlog w.mail (fun a => w.sys.boxes a ≠ none) w.sys.mindex
  cond : Tied G w.clog w.cond (fun a => w.sys.conds a ≠ none) w.sys.cindex

theorem init_J (S : Safe P G) {main idle N M : Nat} : J G (initT main idle N M) :=
  ⟨⟨_, S.init N, by simp [initT, init], by simp, by simp⟩, ⟨_, S.init M, by simp [initT, init], by simp, by simp⟩⟩

/-- The same structures exist. -/
structure Same (w w1 : Sys) : Prop where
  boxes : ∀ a, w1.boxes a ≠ none ↔ w.boxes a ≠ none
  conds : ∀ a, w1.conds a ≠ none ↔ w.conds a ≠ none
  mindex : w1.mindex = w.mindex
  cindex : w1.cindex = w.cindex

theorem Same.of_eq {w w1 : Sys} (h : w1.boxes = w.boxes ∧ w1.conds = w.conds ∧ w1.mindex = w.mindex ∧ w1.cindex = w.cindex) : Same w w1 :=
  ⟨fun a => by rw [h.1], fun a => by rw [h.2.1], h.2.2.1, h.2.2.2⟩

theorem Same.refl (w : Sys) : Same w w := .of_eq ⟨rfl, rfl, rfl, rfl⟩

theorem Same.trans {w w1 w2 : Sys} (h : Same w w1) (h' : Same w1 w2) : Same w w2 :=
  ⟨fun a => (h'.boxes a).trans (h.boxes a), fun a => (h'.conds a).trans (h.conds a), h'.mindex.trans h.mindex, h'.cindex.trans h.cindex⟩

theorem front_same (w : Sys) (f : Nat) (e : Ev) (st : Status) : (front w f e st).1.boxes = w.boxes ∧ (front w f e st).1.conds = w.conds ∧
    (front w f e st).1.mindex = w.mindex ∧ (front w f e st).1.cindex = w.cindex := by
  unfold front; split <;> exact ⟨rfl, rfl, rfl, rfl⟩

theorem back_same (w : Sys) (f : Nat) (e : Ev) (st : Status) : (back w f e st).1.boxes = w.boxes ∧ (back w f e st).1.conds = w.conds ∧
    (back w f e st).1.mindex = w.mindex ∧ (back w f e st).1.cindex = w.cindex := by
  unfold back; split <;> exact ⟨rfl, rfl, rfl, rfl⟩

theorem Same.front {w w1 : Sys} (h : Same w w1) (f : Nat) (e : Ev) (st : Status) : Same w (Fiber.front w1 f e st).1 :=
  h.trans (.of_eq (front_same w1 f e st))

theorem Same.back {w w1 : Sys} (h : Same w w1) (f : Nat) (e : Ev) (st : Status) : Same w (Fiber.back w1 f e st).1 :=
  h.trans (.of_eq (back_same w1 f e st))

theorem Same.setBox {w w1 : Sys} (h : Same w w1) {a : Nat} {b : Box} (hb : w.boxes a ≠ none) : Same w (Fiber.setBox w1 a (some b)) := by
  refine ⟨fun x => ?_, h.conds, h.mindex, h.cindex⟩
  show (if x = a then some b else w1.boxes x) ≠ none ↔ _
  by_cases hx : x = a
  · rw [if_pos hx, hx]; exact ⟨fun _ => hb, fun _ => by simp⟩
  · rw [if_neg hx]; exact h.boxes x

theorem Same.setCond {w w1 : Sys} (h : Same w w1) {a : Nat} {l : List Nat} (hb : w.conds a ≠ none) : Same w (Fiber.setCond w1 a (some l)) := by
  refine ⟨h.boxes, fun x => ?_, h.mindex, h.cindex⟩
  show (if x = a then some l else w1.conds x) ≠ none ↔ _
  by_cases hx : x = a
  · rw [if_pos hx, hx]; exact ⟨fun _ => hb, fun _ => by simp⟩
  · rw [if_neg hx]; exact h.conds x

theorem requestLoop_same (code y : Nat) (o : Oracle) : ∀ (l : List Nat) (k : Nat) (w : Sys), Same w (requestLoop code y o l k w).1
  | [], k, w => .refl w
  | f :: l, k, w => by
    unfold requestLoop
    split
    · simp only
      split
      · exact (Same.refl w).back _ _ _
      · exact ((Same.refl w).back _ _ _).trans (requestLoop_same code y o l (k + 1) _)
    · exact requestLoop_same code y o l k w

theorem notifyLoop_same (o : Oracle) : ∀ (l : List Nat) (k : Nat) (st : Status) (w : Sys), Same w (notifyLoop o l k st w).1
  | [], _, _, w => .refl w
  | f :: l, k, st, w => by
    unfold notifyLoop
    exact ((Same.refl w).back _ _ _).trans (notifyLoop_same o l (k + 1) _ _)

/-- Calls that neither create nor close. -/
def steady : Call → Bool
  | .boxCreate | .boxClose _ | .condCreate | .condClose _ => false
  | _ => true

theorem handler_same (w : Sys) (c : Call) (o : Oracle) (hc : steady c = true) : Same w (handler w c o).1 := by
  cases c with
  | run =>
    simp only [handler, runH]
    split
    · exact .refl w
    · exact (Same.refl w).back _ _ _
  | add f =>
    simp only [handler, addH]
    split
    · exact .refl w
    · have h1 : Same w (back { w with tree := insertFib f w.tree } f ⟨.internal, RESUME_ADD_FIBER, 0⟩ (o.q 0)).1 :=
        (Same.of_eq (w := w) (w1 := { w with tree := insertFib f w.tree }) ⟨rfl, rfl, rfl, rfl⟩).back _ _ _
      split
      · exact ⟨h1.boxes, h1.conds, h1.mindex, h1.cindex⟩
      · have h2 := h1.front w.cur ⟨.internal, RESUME_ADD_FIBER, 0⟩ (o.q 1)
        split
        · exact h2
        · split
          · have h3 := h2.front w.mgmt ⟨.mgmt, MGMT_FIBER_ADD, f⟩ (o.q 2)
            split
            · exact h3
            · exact ⟨h3.boxes, h3.conds, h3.mindex, h3.cindex⟩
          · exact h2
  | stop =>
    simp only [handler, stopH]
    split
    · have h3 := (Same.of_eq (w := w) (w1 := { w with state := fun g => if g = w.cur then .stopped else w.state g }) ⟨rfl, rfl, rfl, rfl⟩).front
        w.mgmt ⟨.mgmt, MGMT_FIBER_STOP, w.cur⟩ (o.q 0)
      split
      · exact h3
      · exact ⟨h3.boxes, h3.conds, h3.mindex, h3.cindex⟩
    · exact .of_eq ⟨rfl, rfl, rfl, rfl⟩
  | release => exact (Same.refl w).front _ _ _
  | mgmtReceive => exact .of_eq ⟨rfl, rfl, rfl, rfl⟩
  | quiesce f =>
    simp only [handler, requestH]
    split
    · exact (Same.refl w).front _ _ _
    · split
      · exact (Same.refl w).front _ _ _
      · exact ((Same.refl w).front _ _ _).front _ _ _
  | terminate f =>
    simp only [handler, requestH]
    split
    · exact (Same.refl w).front _ _ _
    · split
      · exact (Same.refl w).front _ _ _
      · exact ((Same.refl w).front _ _ _).front _ _ _
  | quiesceAll =>
    simp only [handler, requestAllH]
    split
    · exact requestLoop_same _ _ _ _ _ _
    · exact (requestLoop_same _ _ _ _ _ _).back _ _ _
  | terminateAll =>
    simp only [handler, requestAllH]
    split
    · exact requestLoop_same _ _ _ _ _ _
    · exact (requestLoop_same _ _ _ _ _ _).back _ _ _
  | boxCreate => cases hc
  | boxClose a => cases hc
  | condCreate => cases hc
  | condClose a => cases hc
  | send a m =>
    simp only [handler, sendH]
    split
    · exact (Same.refl w).front _ _ _
    · next b hb =>
      have hb : w.boxes a ≠ none := by simp [hb]
      split
      · exact (Same.refl w).front _ _ _
      · split
        · exact ((Same.refl w).setBox hb).front _ _ _
        · split
          · split
            · exact (((Same.refl w).setBox hb).front _ _ _).setBox hb
            · exact ((((Same.refl w).setBox hb).front _ _ _).setBox hb).front _ _ _
          · exact ((Same.refl w).setBox hb).front _ _ _
  | receive a =>
    simp only [handler, receiveH]
    split
    · exact (Same.refl w).front _ _ _
    · next b hb =>
      have hb : w.boxes a ≠ none := by simp [hb]
      split
      · split
        · exact (Same.refl w).front _ _ _
        · exact (Same.refl w).setBox hb
      · exact ((Same.refl w).setBox hb).front _ _ _
  | wait h =>
    simp only [handler, waitH]
    split
    · exact (Same.refl w).front _ _ _
    · next l hb =>
      have hb : w.conds h ≠ none := by simp [hb]
      split
      · exact (Same.refl w).front _ _ _
      · exact (Same.refl w).setCond hb
  | notifyOne h =>
    simp only [handler, notifyOneH]
    split
    · exact (Same.refl w).back _ _ _
    · exact (Same.refl w).back _ _ _
    · next f l hb =>
      have hb : w.conds h ≠ none := by simp [hb]
      exact (((Same.refl w).setCond hb).back _ _ _).back _ _ _
  | notifyAll h =>
    simp only [handler, notifyAllH]
    split
    · exact (Same.refl w).back _ _ _
    · next l hb =>
      have hb : w.conds h ≠ none := by simp [hb]
      exact (((Same.refl w).setCond hb).trans (notifyLoop_same _ _ _ _ _)).back _ _ _

theorem J.same {w : World} {s1 : Sys} (j : J G w) (h : Same w.sys s1) : J G { w with sys := s1 } :=
  ⟨by have := j.mail.congr h.boxes; rw [← h.mindex] at this; exact this, by have := j.cond.congr h.conds; rw [← h.cindex] at this; exact this⟩

/-- The handler does what the handler with finite maps does, with some answers. -/
theorem handlerT_ok (S : Safe P G) {w : World} {c : Call} {x : Ans} (j : J G w) (hf : Fresh w c x) (hk : Keeps P w c x) :
    ∃ w1 st o', handlerT w c x = some (w1, st) ∧ handler w.sys c o' = (w1.sys, st) ∧ J G w1 ∧ o'.q = x.o.q ∧
      ((∀ a, c ≠ .boxClose a ∧ c ≠ .condClose a) → o' = x.o) := by
  have other : steady c = true → (∀ op, mailOp w c x ≠ some op) → (∀ op, condOp w c x ≠ some op) →
      handlerT w c x = some (w.put (handler w.sys c x.o)) →
      ∃ w1 st o', handlerT w c x = some (w1, st) ∧ handler w.sys c o' = (w1.sys, st) ∧ J G w1 ∧ o'.q = x.o.q ∧
      ((∀ a, c ≠ .boxClose a ∧ c ≠ .condClose a) → o' = x.o) := fun hs _ _ h =>
    ⟨_, _, x.o, h, rfl, j.same (handler_same w.sys c x.o hs), rfl, fun _ => rfl⟩
  cases c with
  | boxCreate =>
    show ∃ w1 st o', boxCreateT w w.sys.cur x = _ ∧ boxCreateH w.sys w.sys.cur o' = _ ∧ _
    unfold boxCreateT
    by_cases hst : boxResource (x.o.a 0) (x.o.a 1) (x.o.a 2) = SUCCESS
    · obtain ⟨s', e1, e2, e3⟩ := j.mail.insert S (e := x.env) (st := x.o.a 3) (node := x.node) (hf.1 rfl) (hk.1 _ (by simp [mailOp, hst]))
      simp only [hst, World.askMail, e1]
      simp only [ne_eq, not_true_eq_false, if_false, Option.map_some]
      by_cases h3 : x.o.a 3 = SUCCESS
      · rw [if_neg (fun h => h h3)]
        refine ⟨_, _, x.o, rfl, ?_, ?_, rfl, fun _ => rfl⟩
        · unfold boxCreateH; simp [hst, h3]
        · refine ⟨?_, ?_⟩
          · have := (e2 h3).congr (dom' := fun a => (setBox w.sys (w.sys.mindex + 1) (some ⟨0, []⟩)).boxes a ≠ none) fun a => by
              show (if a = w.sys.mindex + 1 then _ else _) ≠ none ↔ _
              by_cases ha : a = w.sys.mindex + 1
              · rw [if_pos ha]; simp [ha]
              · rw [if_neg ha]; simp [ha]
            simp only [(front_same _ _ _ _).1, (front_same _ _ _ _).2.2.1]
            exact this
          · simp only [(front_same _ _ _ _).2.1, (front_same _ _ _ _).2.2.2]
            exact j.cond
      · rw [if_pos h3]
        refine ⟨_, _, x.o, rfl, ?_, ?_, rfl, fun _ => rfl⟩
        · unfold boxCreateH; simp [hst, h3]
        · refine ⟨?_, ?_⟩
          · simp only [(front_same _ _ _ _).1, (front_same _ _ _ _).2.2.1]
            exact e3 h3
          · simp only [(front_same _ _ _ _).2.1, (front_same _ _ _ _).2.2.2]
            exact j.cond
    · simp only [ne_eq, hst, not_false_eq_true, if_true]
      exact ⟨_, _, x.o, rfl, by unfold boxCreateH; simp [hst], j.same ((Same.refl _).front _ _ _), rfl, fun _ => rfl⟩
  | boxClose a =>
    show ∃ w1 st o', boxCloseT w w.sys.cur a x = _ ∧ boxCloseH w.sys w.sys.cur a o' = _ ∧ _
    obtain ⟨out, s', e1, e2⟩ := j.mail.delete S (e := x.env) (a := a) (hk.1 _ rfl)
    unfold boxCloseT
    simp only [World.askMail, e1, Option.map_some]
    refine ⟨_, _, ⟨x.o.q, fun _ => out.1⟩, rfl, ?_, ?_, rfl, fun h => absurd rfl (h a).1⟩
    · rcases e2 with ⟨h1, h2, -⟩ | ⟨h1, h2, h3, -⟩
      · unfold boxCloseH
        cases hb : w.sys.boxes a with
        | none => exact absurd hb h1
        | some b => simp [h2, dropBoxes]
      · unfold boxCloseH
        have hb : w.sys.boxes a = none := Classical.byContradiction fun h => h1 h
        simp [hb, h3, dropBoxes, h2]
    · rcases e2 with ⟨h1, h2, h3⟩ | ⟨h1, h2, h3, h4⟩
      · refine ⟨?_, ?_⟩
        · simp only [(front_same _ _ _ _).1, (front_same _ _ _ _).2.2.1, h2, List.drop_left, dropBoxes, List.foldl_cons, List.foldl_nil]
          refine h3.congr fun b => ?_
          show (if b = a then none else w.sys.boxes b) ≠ none ↔ _
          by_cases hb : b = a
          · rw [if_pos hb]; simp [hb]
          · rw [if_neg hb]; simp [hb]
        · simp only [(front_same _ _ _ _).2.1, (front_same _ _ _ _).2.2.2, h2, List.drop_left, dropBoxes, List.foldl_cons, List.foldl_nil]
          exact j.cond
      · refine ⟨?_, ?_⟩
        · simp only [(front_same _ _ _ _).1, (front_same _ _ _ _).2.2.1, h3, List.drop_length, dropBoxes, List.foldl_nil]
          exact h4
        · simp only [(front_same _ _ _ _).2.1, (front_same _ _ _ _).2.2.2, h3, List.drop_length, dropBoxes, List.foldl_nil]
          exact j.cond
  | send a m =>
    show ∃ w1 st o', sendT w w.sys.cur a m x = _ ∧ sendH w.sys w.sys.cur a m o' = _ ∧ _
    obtain ⟨out, s', e1, e2, e3⟩ := j.mail.find S (e := x.env) (a := a) (hk.1 _ rfl)
    unfold sendT
    simp only [World.askMail, e1, Option.map_some, Option.bind_some]
    have j' : J G { w with mail := s', mlog := w.mlog ++ [(.find a, out)] } := ⟨e3, j.cond⟩
    rcases e2 with ⟨h1, rfl⟩ | ⟨h1, rfl⟩
    · simp only [ne_eq, not_true_eq_false, if_false, if_neg h1]
      exact ⟨_, _, x.o, rfl, rfl, j'.same (handler_same w.sys (.send a m) x.o rfl), rfl, fun _ => rfl⟩
    · rw [if_pos (by decide)]
      have hb : w.sys.boxes a = none := Classical.byContradiction fun h => h1 h
      exact ⟨_, _, x.o, rfl, by simp [sendH, hb], j'.same ((Same.refl _).front _ _ _), rfl, fun _ => rfl⟩
  | receive a =>
    show ∃ w1 st o', receiveT w w.sys.cur a x = _ ∧ receiveH w.sys w.sys.cur a o' = _ ∧ _
    obtain ⟨out, s', e1, e2, e3⟩ := j.mail.find S (e := x.env) (a := a) (hk.1 _ rfl)
    unfold receiveT
    simp only [World.askMail, e1, Option.map_some, Option.bind_some]
    have j' : J G { w with mail := s', mlog := w.mlog ++ [(.find a, out)] } := ⟨e3, j.cond⟩
    rcases e2 with ⟨h1, rfl⟩ | ⟨h1, rfl⟩
    · simp only [ne_eq, not_true_eq_false, if_false, if_neg h1]
      exact ⟨_, _, x.o, rfl, rfl, j'.same (handler_same w.sys (.receive a) x.o rfl), rfl, fun _ => rfl⟩
    · rw [if_pos (by decide)]
      have hb : w.sys.boxes a = none := Classical.byContradiction fun h => h1 h
      exact ⟨_, _, x.o, rfl, by simp [receiveH, hb], j'.same ((Same.refl _).front _ _ _), rfl, fun _ => rfl⟩
  | condCreate =>
    show ∃ w1 st o', condCreateT w w.sys.cur x = _ ∧ condCreateH w.sys w.sys.cur o' = _ ∧ _
    unfold condCreateT
    by_cases hst : boxResource (x.o.a 0) (x.o.a 1) (x.o.a 2) = SUCCESS
    · obtain ⟨s', e1, e2, e3⟩ := j.cond.insert S (e := x.env) (st := x.o.a 3) (node := x.node) (hf.2 rfl) (hk.2 _ (by simp [condOp, hst]))
      simp only [hst, World.askCond, e1]
      simp only [ne_eq, not_true_eq_false, if_false, Option.map_some]
      by_cases h3 : x.o.a 3 = SUCCESS
      · rw [if_neg (fun h => h h3)]
        refine ⟨_, _, x.o, rfl, ?_, ?_, rfl, fun _ => rfl⟩
        · unfold condCreateH; simp [hst, h3]
        · refine ⟨?_, ?_⟩
          · simp only [(front_same _ _ _ _).1, (front_same _ _ _ _).2.2.1]
            exact j.mail
          · have := (e2 h3).congr (dom' := fun a => (setCond w.sys (w.sys.cindex + 1) (some [])).conds a ≠ none) fun a => by
              show (if a = w.sys.cindex + 1 then _ else _) ≠ none ↔ _
              by_cases ha : a = w.sys.cindex + 1
              · rw [if_pos ha]; simp [ha]
              · rw [if_neg ha]; simp [ha]
            simp only [(front_same _ _ _ _).2.1, (front_same _ _ _ _).2.2.2]
            exact this
      · rw [if_pos h3]
        refine ⟨_, _, x.o, rfl, ?_, ?_, rfl, fun _ => rfl⟩
        · unfold condCreateH; simp [hst, h3]
        · refine ⟨?_, ?_⟩
          · simp only [(front_same _ _ _ _).1, (front_same _ _ _ _).2.2.1]
            exact j.mail
          · simp only [(front_same _ _ _ _).2.1, (front_same _ _ _ _).2.2.2]
            exact e3 h3
    · simp only [ne_eq, hst, not_false_eq_true, if_true]
      exact ⟨_, _, x.o, rfl, by unfold condCreateH; simp [hst], j.same ((Same.refl _).front _ _ _), rfl, fun _ => rfl⟩
  | condClose a =>
    show ∃ w1 st o', condCloseT w w.sys.cur a x = _ ∧ condCloseH w.sys w.sys.cur a o' = _ ∧ _
    obtain ⟨out, s', e1, e2⟩ := j.cond.delete S (e := x.env) (a := a) (hk.2 _ rfl)
    unfold condCloseT
    simp only [World.askCond, e1, Option.map_some]
    have key : ∀ s1 (r : Sys × Status), r.1.boxes = (dropConds w.sys (s'.released.drop w.cond.released.length)).boxes →
        r.1.conds = (dropConds w.sys (s'.released.drop w.cond.released.length)).conds →
        r.1.mindex = (dropConds w.sys (s'.released.drop w.cond.released.length)).mindex →
        r.1.cindex = (dropConds w.sys (s'.released.drop w.cond.released.length)).cindex → s1 = r.1 →
        J G { w with sys := s1, cond := s', clog := w.clog ++ [(.delete a false, out)] } := by
      rintro s1 r q1 q2 q3 q4 rfl
      rcases e2 with ⟨h1, h2, h3⟩ | ⟨h1, h2, h3, h4⟩
      · simp only [h2, List.drop_left, dropConds, List.foldl_cons, List.foldl_nil] at q1 q2 q3 q4
        refine ⟨?_, ?_⟩
        · simp only [q1, q3]; exact j.mail
        · simp only [q2, q4]
          refine h3.congr fun b => ?_
          show (if b = a then none else w.sys.conds b) ≠ none ↔ _
          by_cases hb : b = a
          · rw [if_pos hb]; simp [hb]
          · rw [if_neg hb]; simp [hb]
      · simp only [h3, List.drop_length, dropConds, List.foldl_nil] at q1 q2 q3 q4
        refine ⟨?_, ?_⟩
        · simp only [q1, q3]; exact j.mail
        · simp only [q2, q4]; exact h4
    by_cases ho : out.1 = SUCCESS
    · rw [if_neg (fun h => h ho)]
      refine ⟨_, _, ⟨x.o.q, fun _ => out.1⟩, rfl, ?_, ?_, rfl, fun h => absurd rfl (h a).2⟩
      · rcases e2 with ⟨h1, h2, -⟩ | ⟨h1, h2, h3, -⟩
        · unfold condCloseH
          cases hb : w.sys.conds a with
          | none => exact absurd hb h1
          | some b => simp [h2, dropConds, ho]
        · rw [ho] at h2; cases h2
      · exact key _ _ (front_same _ _ _ _).1 (front_same _ _ _ _).2.1 (front_same _ _ _ _).2.2.1 (front_same _ _ _ _).2.2.2 rfl
    · rw [if_pos ho]
      refine ⟨_, _, ⟨x.o.q, fun _ => out.1⟩, rfl, ?_, ?_, rfl, fun h => absurd rfl (h a).2⟩
      · rcases e2 with ⟨h1, h2, -⟩ | ⟨h1, h2, h3, -⟩
        · unfold condCloseH
          cases hb : w.sys.conds a with
          | none => exact absurd hb h1
          | some b => simp [h2, dropConds, ho]
        · unfold condCloseH
          have hb : w.sys.conds a = none := Classical.byContradiction fun h => h1 h
          simp [hb, h3, dropConds, h2]
      · exact key _ _ (front_same _ _ _ _).1 (front_same _ _ _ _).2.1 (front_same _ _ _ _).2.2.1 (front_same _ _ _ _).2.2.2 rfl
  | wait a =>
    show ∃ w1 st o', waitT w w.sys.cur a x = _ ∧ waitH w.sys w.sys.cur a o' = _ ∧ _
    obtain ⟨out, s', e1, e2, e3⟩ := j.cond.find S (e := x.env) (a := a) (hk.2 _ rfl)
    unfold waitT
    simp only [World.askCond, e1, Option.map_some, Option.bind_some]
    have j' : J G { w with cond := s', clog := w.clog ++ [(.find a, out)] } := ⟨j.mail, e3⟩
    rcases e2 with ⟨h1, rfl⟩ | ⟨h1, rfl⟩
    · simp only [ne_eq, not_true_eq_false, if_false, if_neg h1]
      exact ⟨_, _, x.o, rfl, rfl, j'.same (handler_same w.sys (.wait a) x.o rfl), rfl, fun _ => rfl⟩
    · rw [if_pos (by decide)]
      have hb : w.sys.conds a = none := Classical.byContradiction fun h => h1 h
      exact ⟨_, _, x.o, rfl, by simp [waitH, hb], j'.same ((Same.refl _).front _ _ _), rfl, fun _ => rfl⟩
  | notifyOne a =>
    show ∃ w1 st o', notifyOneT w w.sys.cur a x = _ ∧ notifyOneH w.sys w.sys.cur a o' = _ ∧ _
    obtain ⟨out, s', e1, e2, e3⟩ := j.cond.find S (e := x.env) (a := a) (hk.2 _ rfl)
    unfold notifyOneT
    simp only [World.askCond, e1, Option.map_some, Option.bind_some]
    have j' : J G { w with cond := s', clog := w.clog ++ [(.find a, out)] } := ⟨j.mail, e3⟩
    rcases e2 with ⟨h1, rfl⟩ | ⟨h1, rfl⟩
    · simp only [ne_eq, not_true_eq_false, if_false, if_neg h1]
      exact ⟨_, _, x.o, rfl, rfl, j'.same (handler_same w.sys (.notifyOne a) x.o rfl), rfl, fun _ => rfl⟩
    · rw [if_pos (by decide)]
      have hb : w.sys.conds a = none := Classical.byContradiction fun h => h1 h
      exact ⟨_, _, x.o, rfl, by simp [notifyOneH, hb], j'.same ((Same.refl _).back _ _ _), rfl, fun _ => rfl⟩
  | notifyAll a =>
    show ∃ w1 st o', notifyAllT w w.sys.cur a x = _ ∧ notifyAllH w.sys w.sys.cur a o' = _ ∧ _
    obtain ⟨out, s', e1, e2, e3⟩ := j.cond.find S (e := x.env) (a := a) (hk.2 _ rfl)
    unfold notifyAllT
    simp only [World.askCond, e1, Option.map_some, Option.bind_some]
    have j' : J G { w with cond := s', clog := w.clog ++ [(.find a, out)] } := ⟨j.mail, e3⟩
    rcases e2 with ⟨h1, rfl⟩ | ⟨h1, rfl⟩
    · simp only [ne_eq, not_true_eq_false, if_false, if_neg h1]
      exact ⟨_, _, x.o, rfl, rfl, j'.same (handler_same w.sys (.notifyAll a) x.o rfl), rfl, fun _ => rfl⟩
    · rw [if_pos (by decide)]
      have hb : w.sys.conds a = none := Classical.byContradiction fun h => h1 h
      exact ⟨_, _, x.o, rfl, by simp [notifyAllH, hb], j'.same ((Same.refl _).back _ _ _), rfl, fun _ => rfl⟩
  | _ => exact other rfl (by simp [mailOp]) (by simp [condOp]) rfl

theorem step_finish (w : Sys) (c : Call) (o : Oracle) : step w c o = finish w.cur c (handler w c o) := rfl

theorem switch_same (w : Sys) (f : Nat) (e : Ev) : Same w (switch w f e).1 := by
  unfold switch
  split <;> exact .of_eq ⟨rfl, rfl, rfl, rfl⟩

theorem finish_same (y : Nat) (c : Call) (r : Sys × Status) : Same r.1 (finish y c r).1 := by
  unfold finish
  split
  · exact .refl _
  · split
    · next f q _ =>
      exact Same.trans (w1 := { setCall r.1 y c with runq := q }) (.of_eq ⟨rfl, rfl, rfl, rfl⟩) (switch_same _ _ _)
    · split
      · exact Same.trans (w1 := setCall r.1 y c) (.of_eq ⟨rfl, rfl, rfl, rfl⟩) (switch_same _ _ _)
      · exact .refl _

/-- One call: defined, and a step of the model with finite maps. -/
theorem stepT_ok (S : Safe P G) {w : World} {c : Call} {x : Ans} (j : J G w) (hf : Fresh w c x) (hk : Keeps P w c x) :
    ∃ w' o', stepT w c x = some (w', (step w.sys c o').2) ∧ w'.sys = (step w.sys c o').1 ∧ J G w' ∧ o'.q = x.o.q ∧
      ((∀ a, c ≠ .boxClose a ∧ c ≠ .condClose a) → o' = x.o) := by
  obtain ⟨w1, st, o', e1, e2, e3, e4, e5⟩ := handlerT_ok S j hf hk
  refine ⟨{ w1 with sys := (step w.sys c o').1 }, o', ?_, rfl, ?_, e4, e5⟩
  · rw [step_finish, e2]; simp [stepT, e1]
  · rw [step_finish, e2]; exact e3.same (finish_same w.sys.cur c (w1.sys, st))

/-- Histories are histories of the model with finite maps. -/
theorem HistT.any (S : Safe P G) {L : Sys → Call → Oracle → Prop} {main idle N M : Nat} {w : World} {tr : List Item}
    (h : HistT P L main idle N M w tr) : J G w ∧ Any main idle w.sys tr := by
  induction h with
  | init h1 h2 => exact ⟨init_J S, .init h1 h2⟩
  | step c x _ _ hf hk hs ih =>
    obtain ⟨w', o', e1, e2, e3, -, -⟩ := stepT_ok S ih.1 hf hk
    rw [hs] at e1
    obtain ⟨rfl, rfl⟩ := Prod.mk.inj (Option.some.inj e1)
    exact ⟨e3, by rw [e2]; exact .step c o' ih.2⟩

theorem legal_congr {w : Sys} {c : Call} {o o' : Oracle} (h : o'.q = o.q) (l : Legal w c o) : Legal w c o' :=
  ⟨by rw [h]; exact l.alloc, l.request, l.fresh, l.idle, l.more⟩

/-- Legal histories are legal histories. -/
theorem HistT.hist (S : Safe P G) {main idle N M : Nat} {w : World} {tr : List Item} (h : HistT P Legal main idle N M w tr) :
    J G w ∧ Hist main idle w.sys tr := by
  induction h with
  | init h1 h2 => exact ⟨init_J S, .init h1 h2⟩
  | step c x _ hl hf hk hs ih =>
    obtain ⟨w', o', e1, e2, e3, e4, -⟩ := stepT_ok S ih.1 hf hk
    rw [hs] at e1
    obtain ⟨rfl, rfl⟩ := Prod.mk.inj (Option.some.inj e1)
    exact ⟨e3, by rw [e2]; exact .step c o' ih.2 (legal_congr e4 hl)⟩

/-- The number of structures among the first `n`. -/
def number (f : Nat → Bool) (n : Nat) : Nat := ((List.range (n + 1)).filter f).length

theorem Tied.number (S : Safe P G) {α : Type} {f : Nat → Option α} {log : Log} {s : RB.St} {n : Nat}
    (t : Tied G log s (fun a => f a ≠ none) n) : s.tree.count = MsgTree.number (fun a => (f a).isSome) n := by
  obtain ⟨v, h1, h2, h3, h4⟩ := t
  rw [S.count h1]
  refine List.Perm.length_eq ((List.perm_ext_iff_of_nodup h3 (List.nodup_range.sublist List.filter_sublist)).2 fun a => ?_)
  rw [← h2 a, List.mem_filter, List.mem_range, Option.isSome_iff_ne_none]
  exact ⟨fun h => ⟨by have := h4 a ((h2 a).1 h); omega, h⟩, fun h => h.2⟩

end

/-! ### Uses of a tree that are safe -/

theorem safe_four : Safe (RB.AtMost 4) fun _ s v => ∃ X, RB.Inv byAddr s X v ∧ RB.Clean s ∧ X.shape ∈ RB.smallShapes where
  init N := ⟨.nil, RB.create_inv _, ⟨0, by simp [RB.create, RB.nilNode]⟩, by decide⟩
  log := fun ⟨_, i, _⟩ => i.log
  count := fun ⟨X, i, _⟩ => by rw [i.holds.count, ← RB.io_length, ← i.items, List.length_map]
  here := fun ⟨X, i, c, _⟩ => ⟨X, i, c⟩
  step := fun e ⟨X, i, c, hs⟩ hL hP => by
    obtain ⟨out, s', X', v', e1, e2, e3, e4, e5⟩ := RB.call_small byAddr (e := e) i c hs hL fun _ _ => hP
    exact ⟨out, s', v', e1, e2, X', e3, e4, e5⟩

theorem create_clean (N : Nat) : RB.Clean (RB.create N) := ⟨0, by simp [RB.create, RB.nilNode]⟩

theorem safe_first : Safe (RB.First byAddr) fun _ s v => ∃ X, RB.Inv byAddr s X v ∧ RB.Clean s ∧ RB.Rises X where
  init N := ⟨.nil, RB.create_inv _, create_clean N, by simp [RB.Rises, RB.T.lv]⟩
  log := fun ⟨_, i, _⟩ => i.log
  count := fun ⟨X, i, _⟩ => by rw [i.holds.count, ← RB.io_length, ← i.items, List.length_map]
  here := fun ⟨X, i, c, _⟩ => ⟨X, i, c⟩
  step := fun e ⟨X, i, c, hr⟩ hL hP => by
    obtain ⟨out, s', X', v', e1, e2, e3, e4, e5⟩ := RB.call_min byAddr (e := e) i c hr hL hP
    exact ⟨out, s', v', e1, e2, X', e3, e4, e5⟩

theorem safe_stack : Safe (RB.Stack byAddr) fun _ s v => ∃ X, RB.Inv byAddr s X v ∧ RB.Clean s ∧ X.stacked where
  init N := ⟨.nil, RB.create_inv _, create_clean N, trivial⟩
  log := fun ⟨_, i, _⟩ => i.log
  count := fun ⟨X, i, _⟩ => by rw [i.holds.count, ← RB.io_length, ← i.items, List.length_map]
  here := fun ⟨X, i, c, _⟩ => ⟨X, i, c⟩
  step := fun e ⟨X, i, c, hr⟩ hL hP => by
    obtain ⟨out, s', X', v', e1, e2, e3, e4, e5⟩ := RB.call_stack byAddr (e := e) i c hr hL hP
    exact ⟨out, s', v', e1, e2, X', e3, e4, e5⟩

theorem safe_quiet : Safe RB.Quiet fun _ s v => ∃ X, RB.Inv byAddr s X v ∧ RB.Clean s where
  init N := ⟨.nil, RB.create_inv _, create_clean N⟩
  log := fun ⟨_, i, _⟩ => i.log
  count := fun ⟨X, i, _⟩ => by rw [i.holds.count, ← RB.io_length, ← i.items, List.length_map]
  here := fun h => h
  step := fun {h s v op} e ⟨X, i, c⟩ hL hP => by
    obtain ⟨n, hn, hr⟩ := i.holds.nil
    have hroot : s.tree.root = X.root s.tree.nil := i.holds.here.root
    obtain ⟨out, s', X', v', e1, e2, e3, -, -, e4⟩ := RB.call_ok byAddr (e := e) i hL fun hd =>
      RB.oneRed_of (hP hd) hn hr i.holds.here fun hX => by
        rw [← hroot]; exact .root (by rw [hroot]; exact RB.root_ne i.holds.here hX)
    exact ⟨out, s', v', e1, e2, X', e3, e4 c⟩

theorem safe_once : Safe RB.OneDelete fun h s v =>
    ∃ X, RB.Inv byAddr s X v ∧ RB.Clean s ∧ (RB.pending h = false → ∃ b, RB.Bal b X) where
  init N := ⟨.nil, RB.create_inv _, create_clean N, fun _ => ⟨0, rfl⟩⟩
  log := fun ⟨_, i, _⟩ => i.log
  count := fun ⟨X, i, _⟩ => by rw [i.holds.count, ← RB.io_length, ← i.items, List.length_map]
  here := fun ⟨X, i, c, _⟩ => ⟨X, i, c⟩
  step := fun {h s v op} e ⟨X, i, c, hb⟩ hL hP => by
    obtain ⟨out, s', X', v', e1, e2, e3, e5, e6, e4⟩ := RB.call_ok byAddr (e := e) i hL fun hd => by
      obtain ⟨b, h⟩ := hb (hP hd); exact RB.bal_oneRed h
    refine ⟨out, s', v', e1, e2, X', e3, e4 c, fun hp => ?_⟩
    have hp' : (if RB.isDelete op then true else if RB.isClear op then false else RB.pending h) = false := by simpa [RB.pending] using hp
    cases hd : RB.isDelete op with
    | true => rw [hd] at hp'; cases hp'
    | false =>
      cases hcl : RB.isClear op with
      | true => exact e6 hcl
      | false =>
        rw [hd, hcl] at hp'
        exact e5 hd (hb hp')

/-! ### What was created first is closed first -/

theorem mem_items {s : RB.St} {X : RB.T} {v : View} (i : RB.Inv byAddr s X v) {a : Nat} {n : RB.Node} (h : InTree s a) (hn : s.heap a = some n) :
    (a, n.value) ∈ X.io := by
  obtain ⟨k, c, l, u, r, rfl⟩ := RB.inTree_split i.holds.here h
  have w' := RB.at_plug.2 i.holds.here
  rw [List.append_nil] at w'
  have := w'.sub.1
  rw [hn] at this
  obtain rfl := Option.some.inj this
  rw [RB.plug_io]; simp [RB.T.io]

/-- A node with the key and another node. -/
theorem Tied.others {P : Use} {G : Log → RB.St → View → Prop} (S : Safe P G) {α : Type} {f : Nat → Option α} {log : Log} {s : RB.St} {n k : Nat}
    (j : Tied G log s (fun a => f a ≠ none) n) {a b : Nat} {na nb : RB.Node} (ha : InTree s a) (hna : s.heap a = some na) (hm : Match byAddr k na.value)
    (hb : InTree s b) (hnb : s.heap b = some nb) (hne : b ≠ a) : f k ≠ none ∧ f nb.value ≠ none ∧ nb.value ≠ k := by
  obtain ⟨v, g, h2, h3, -⟩ := j
  obtain ⟨X, i, -⟩ := S.here g
  have ma := mem_items i ha hna
  have mb := mem_items i hb hnb
  have hk := match_iff.1 hm
  have ia : na.value ∈ v.items := by rw [← i.items]; exact List.mem_map_of_mem ma
  have ib : nb.value ∈ v.items := by rw [← i.items]; exact List.mem_map_of_mem mb
  rw [hk] at ia
  refine ⟨(h2 _).2 ia, (h2 _).2 ib, fun e => hne ?_⟩
  -- one value is in one place
  have hd : (X.io.map Prod.snd).Nodup := by rw [i.items]; exact h3
  have key : ∀ {l : List (Nat × Nat)}, (l.map Prod.snd).Nodup → ∀ {x y}, x ∈ l → y ∈ l → x.2 = y.2 → x = y := by
    intro l hl x y hx hy hxy
    induction l with
    | nil => cases hx
    | cons z l ih =>
      rw [List.map_cons, List.nodup_cons] at hl
      rcases List.mem_cons.1 hx with rfl | hx <;> rcases List.mem_cons.1 hy with rfl | hy
      · rfl
      · exact absurd (hxy ▸ List.mem_map_of_mem hy) hl.1
      · exact absurd (hxy ▸ List.mem_map_of_mem (f := Prod.snd) (l := l) (by assumption)) hl.1
      · exact ih hl.2 hx hy
  have := key hd mb ma (Eq.trans e hk.symm)
  exact (Prod.mk.inj this).1

theorem Tied.first {P : Use} {G : Log → RB.St → View → Prop} (S : Safe P G) {α : Type} {f : Nat → Option α} {log : Log} {s : RB.St} {n k : Nat} {t : Bool}
    (j : Tied G log s (fun a => f a ≠ none) n) (h : f k ≠ none → ∀ b, f b ≠ none → b ≠ k → k < b) : RB.First byAddr log s (.delete k t) := by
  intro a b na nb ha hna hm hb hnb hne
  obtain ⟨h1, h2, h3⟩ := j.others S ha hna hm hb hnb hne
  exact Nat.compare_eq_lt.2 (h h1 _ h2 h3)

theorem Tied.last {P : Use} {G : Log → RB.St → View → Prop} (S : Safe P G) {α : Type} {f : Nat → Option α} {log : Log} {s : RB.St} {n k : Nat} {t : Bool}
    (j : Tied G log s (fun a => f a ≠ none) n) (h : f k ≠ none → ∀ b, f b ≠ none → b ≠ k → b < k) : RB.Stack byAddr log s (.delete k t) := by
  intro a b na nb ha hna hm hb hnb hne
  obtain ⟨h1, h2, h3⟩ := j.others S ha hna hm hb hnb hne
  exact Nat.compare_eq_gt.2 (h h1 _ h2 h3)

/-- A new address is greater than all in use. -/
theorem Tied.next {P : Use} {G : Log → RB.St → View → Prop} (S : Safe P G) {dom : Nat → Prop} {log : Log} {s : RB.St} {n a : Nat} {st : Status}
    (j : Tied G log s dom n) : RB.Stack byAddr log s (.insert (n + 1) a st) := by
  obtain ⟨v, g, -, -, h4⟩ := j
  obtain ⟨X, i, -⟩ := S.here g
  intro b m hb hm
  have := (h4 m.value (by rw [← i.items]; exact List.mem_map_of_mem (mem_items i hb hm))).2
  intro e
  have := Nat.compare_eq_lt.1 (show compare (n + 1) m.value = .lt from e)
  omega

theorem keeps_oldest {P : Use} {G : Log → RB.St → View → Prop} (S : Safe P G) {w : World} {c : Call} {x : Ans} (j : J G w) (h : Oldest w.sys c) :
    Keeps (RB.First byAddr) w c x := by
  refine ⟨fun op ho => ?_, fun op ho => ?_⟩
  · unfold mailOp at ho
    split at ho
    · split at ho
      · cases ho
      · cases ho; trivial
    · cases ho; exact j.mail.first (t := false) S h
    · cases ho; trivial
    · cases ho; trivial
    · cases ho
  · unfold condOp at ho
    split at ho
    · split at ho
      · cases ho
      · cases ho; trivial
    · cases ho; exact j.cond.first (t := false) S h
    · cases ho; trivial
    · cases ho; trivial
    · cases ho; trivial
    · cases ho

theorem HistT.oldest {P : Use} {L : Sys → Call → Oracle → Prop} {main idle N M : Nat} {w : World} {tr : List Item}
    (h : HistT P (fun s c o => L s c o ∧ Oldest s c) main idle N M w tr) : HistT (RB.First byAddr) L main idle N M w tr := by
  induction h with
  | init h1 h2 => exact .init h1 h2
  | step c x _ hl hf hk hs ih => exact .step c x ih hl.1 hf (keeps_oldest safe_first (ih.any safe_first).1 hl.2) hs

/-! ### What was created last is closed first -/

theorem keeps_newest {P : Use} {G : Log → RB.St → View → Prop} (S : Safe P G) {w : World} {c : Call} {x : Ans} (j : J G w) (h : Newest w.sys c) :
    Keeps (RB.Stack byAddr) w c x := by
  refine ⟨fun op ho => ?_, fun op ho => ?_⟩
  · unfold mailOp at ho
    split at ho
    · split at ho
      · cases ho
      · cases ho; exact j.mail.next (a := x.node) (st := x.o.a 3) S
    · cases ho; exact j.mail.last (t := false) S h
    · cases ho; trivial
    · cases ho; trivial
    · cases ho
  · unfold condOp at ho
    split at ho
    · split at ho
      · cases ho
      · cases ho; exact j.cond.next (a := x.node) (st := x.o.a 3) S
    · cases ho; exact j.cond.last (t := false) S h
    · cases ho; trivial
    · cases ho; trivial
    · cases ho; trivial
    · cases ho

theorem HistT.newest {P : Use} {L : Sys → Call → Oracle → Prop} {main idle N M : Nat} {w : World} {tr : List Item}
    (h : HistT P (fun s c o => L s c o ∧ Newest s c) main idle N M w tr) : HistT (RB.Stack byAddr) L main idle N M w tr := by
  induction h with
  | init h1 h2 => exact .init h1 h2
  | step c x _ hl hf hk hs ih => exact .step c x ih hl.1 hf (keeps_newest safe_stack (ih.any safe_stack).1 hl.2) hs

end Rcpr.MsgTree
