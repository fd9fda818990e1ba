import Verif.FibTreeSpec
import Verif.MsgTreeProof
import Verif.RBUse
import Verif.FiberReq

/-! The tree of fibers holds the fibers that are owned: lemmas for `Verif.Props.FibTree`. -/
namespace Rcpr.FibTree

open Rcpr Fiber RB.Spec
open Rcpr.MsgTree (byAddr Log Ans Use finish Safe match_iff mem_insert nodup_insert)

/-! ### What can be seen -/

theorem items_append (tr tr' : List Seen) : items (tr ++ tr') = items tr ++ items tr' := by
  induction tr with
  | nil => rfl
  | cons s tr ih => cases s <;> simp [items, ih]

theorem owned_append {f : Nat} {tr : List Seen} {s : Seen} :
    Owned f (tr ++ [s]) ↔ Gains f s ∨ Owned f tr ∧ s ≠ .remove f SUCCESS := by
  constructor
  · rintro ⟨A, s', B, e, h1, h2⟩
    rcases List.eq_nil_or_concat B with rfl | ⟨B', b, rfl⟩
    · obtain ⟨-, e⟩ := List.append_inj' e rfl
      obtain rfl : s = s' := by simpa using e
      exact .inl h1
    · rw [List.concat_eq_append] at e h2
      rw [← List.cons_append, ← List.append_assoc] at e
      obtain ⟨e0, e'⟩ := List.append_inj' e rfl
      obtain rfl : s = b := by simpa using e'
      rw [List.mem_append, not_or] at h2
      exact .inr ⟨⟨A, s', B', e0, h1, h2.1⟩, fun h => h2.2 (by simp [h])⟩
  · rintro (h | ⟨⟨A, s', B, rfl, h1, h2⟩, h⟩)
    · exact ⟨tr, s, [], rfl, h, by simp⟩
    · refine ⟨A, s', B ++ [s], by simp, h1, fun hm => ?_⟩
      rcases List.mem_append.1 hm with hm | hm
      · exact h2 hm
      · exact h (List.mem_singleton.1 hm).symm

theorem not_gains_remove {f g : Nat} {st : Status} : ¬ Gains f (.remove g st) := by
  rintro ⟨_, h, _⟩; cases h

theorem not_gains_call {f : Nat} {it : Item} (h : it.call ≠ .add f) : ¬ Gains f (.call it) := by
  rintro ⟨_, e, h', _⟩; cases e; exact h h'

/-! ### The tree -/

section
variable {P : Use} {G : Log → RB.St → View → Prop}

theorem ask_insert (S : Safe P G) {w : World} {env : RB.Env} {v : View} {f node : Nat} {st : Status} (hv : G w.flog w.fibs v)
    (hd : v.items.Nodup) (h0 : f ≠ 0) (hn : f ∉ v.items) (hf : st = SUCCESS → w.fibs.heap node = none)
    (hP : P w.flog w.fibs (.insert f node st)) :
    ∃ w1, w.ask env (.insert f node st) = some ((st, 0), w1) ∧ w1.sys = w.sys ∧
      ∃ v', G w1.flog w1.fibs v' ∧ v'.items.Nodup ∧ ∀ g, g ∈ v'.items ↔ g ∈ v.items ∨ st = SUCCESS ∧ g = f := by
  obtain ⟨out, s', v', e1, e2, e3⟩ := S.step env hv (op := .insert f node st) ⟨h0, hf⟩ hP
  cases e2 with
  | insert =>
    refine ⟨{ w with fibs := s', flog := w.flog ++ [(.insert f node SUCCESS, (SUCCESS, 0))] }, by simp [World.ask, e1], rfl, _, e3, nodup_insert hd hn, fun g => ?_⟩
    rw [mem_insert]; simp [or_comm]
  | insertFail hne =>
    exact ⟨{ w with fibs := s', flog := w.flog ++ [(.insert f node st, (st, 0))] }, by simp [World.ask, e1], rfl, _, e3, hd, fun g => by simp [hne]⟩

theorem ask_take (S : Safe P G) {w : World} {env : RB.Env} {v : View} {f : Nat} (hv : G w.flog w.fibs v) (hd : v.items.Nodup)
    (hP : P w.flog w.fibs (.delete f true)) :
    ∃ out w1, w.ask env (.delete f true) = some (out, w1) ∧ w1.sys = w.sys ∧
      ((f ∈ v.items ∧ ∃ a, out = (env.reclaim a, f)) ∨ (f ∉ v.items ∧ out = (ERROR_RBTREE_NOT_FOUND, 0))) ∧
      ∃ v', G w1.flog w1.fibs v' ∧ v'.items.Nodup ∧ ∀ g, g ∈ v'.items ↔ g ∈ v.items ∧ g ≠ f := by
  obtain ⟨out, s', v', e1, e2, e3⟩ := S.step env hv (op := .delete f true) trivial hP
  refine ⟨out, { w with fibs := s', flog := w.flog ++ [(.delete f true, out)] }, by simp only [World.ask, e1, Option.map_some], rfl, ?_, v', e3, ?_⟩
  · cases e2 with
    | take hm => rw [match_iff] at hm; subst hm; exact .inl ⟨by simp, _, rfl⟩
    | deleteNone hn => exact .inr ⟨fun h => hn f h (match_iff.2 rfl), rfl⟩
  · cases e2 with
    | @take A B lg _ u a hm =>
      rw [match_iff] at hm; subst hm
      simp only at hd ⊢
      rw [List.nodup_append, List.nodup_cons] at hd
      obtain ⟨d1, ⟨d2, d3⟩, d4⟩ := hd
      refine ⟨List.nodup_append.2 ⟨d1, d3, fun x hx y hy => d4 x hx y (List.mem_cons_of_mem _ hy)⟩, fun g => ?_⟩
      simp only [List.mem_append, List.mem_cons]
      constructor
      · intro h
        refine ⟨h.elim .inl fun h => .inr (.inr h), fun hg => ?_⟩
        subst hg
        rcases h with h | h
        · exact d4 _ h _ (by simp) rfl
        · exact d2 h
      · rintro ⟨h | h | h, hne⟩
        · exact .inl h
        · exact absurd h hne
        · exact .inr h
    | deleteNone hn =>
      exact ⟨hd, fun g => ⟨fun h => ⟨h, fun hg => hn g h (match_iff.2 hg)⟩, fun h => h.1⟩⟩

theorem loop_walk (code y : Nat) (o : Oracle) (t : RB.St) : ∀ (n nd k : Nat) (w : Sys) (l : List Nat),
    RB.walk (RB.successor (t.tree.count + 1) t.heap t.tree.nil) t.heap t.tree.nil n nd = some l → (∀ g ∈ l, g ≠ 0) →
    requestLoopF code y o t n nd k w = some (requestLoop code y o l k w) := by
  intro n
  induction n with
  | zero => intro nd k w l h; cases h
  | succ n ih =>
    intro nd k w l h hl
    simp only [RB.walk] at h
    simp only [requestLoopF]
    split at h
    · next hn => rw [if_pos hn]; cases h; rfl
    · next hn =>
      rw [if_neg hn]
      obtain ⟨x, hx, h⟩ := Option.bind_eq_some_iff.1 h
      obtain ⟨m, hm, h⟩ := Option.bind_eq_some_iff.1 h
      obtain ⟨l', h', rfl⟩ := Option.map_eq_some_iff.1 h
      have hx0 : x.value ≠ 0 := hl _ (by simp)
      have ih := fun k w => ih m k w l' h' fun g hg => hl g (by simp [hg])
      simp only [hx, hm, Option.bind_some, ih, requestLoop, hx0, ne_eq, not_false_eq_true, true_and]
      split
      · split <;> rfl
      · rfl

/-- What a request to all makes of the scheduler if the tree is the list `l`. -/
def allOf (code : Nat) (w : Sys) (y : Nat) (o : Oracle) (l : List Nat) : Sys × Status :=
  let r := requestLoop code y o l 0 w
  if r.2.1 ≠ SUCCESS then (r.1, r.2.1) else back r.1 y ⟨.mgmt, MGMT_REQUEST_RESULT, SUCCESS.toNat⟩ (o.q r.2.2)

theorem all_walk (S : Safe P G) {code : Nat} {w : World} {y : Nat} {o : Oracle} {v : View} (hv : G w.flog w.fibs v) :
    requestAllF code w y o = some ({ w with sys := (allOf code w.sys y o v.items).1 }, (allOf code w.sys y o v.items).2) := by
  obtain ⟨X, i, c⟩ := S.here hv
  have hw := (RB.walk_inv byAddr i c).1
  obtain ⟨m, hm, hw⟩ := Option.bind_eq_some_iff.1 hw
  unfold requestAllF
  rw [hm, Option.bind_some, loop_walk code y o w.fibs _ m 0 w.sys _ hw ?_, Option.map_some]
  · unfold allOf
    simp only
    split <;> rfl
  · intro g hg
    rw [← i.items, List.mem_map] at hg
    obtain ⟨x, hx, rfl⟩ := hg
    exact i.values x hx

theorem ascending (S : Safe P G) {log : Log} {s : RB.St} {v : View} (hv : G log s v) (hd : v.items.Nodup) : v.items.Pairwise (· < ·) := by
  obtain ⟨X, i, -⟩ := S.here hv
  refine (List.pairwise_and_iff.2 ⟨i.sorted, hd⟩).imp ?_
  rintro a b ⟨h1, h2⟩
  have h1 : compare a b ≠ .gt := h1
  rw [Nat.compare_ne_gt] at h1
  omega

/-! ### Frames -/

/-- What a handler that is not stop leaves alone. -/
def Still (w w' : Sys) : Prop := w'.state = w.state ∧ w'.call = w.call ∧ w'.cur = w.cur

theorem still_front (w : Sys) (f : Nat) (e : Ev) (st : Status) : Still w (front w f e st).1 := by
  unfold front; split <;> exact ⟨rfl, rfl, rfl⟩

theorem still_back (w : Sys) (f : Nat) (e : Ev) (st : Status) : Still w (back w f e st).1 := by
  unfold back; split <;> exact ⟨rfl, rfl, rfl⟩

theorem Still.trans {a b c : Sys} (h : Still a b) (g : Still b c) : Still a c :=
  ⟨g.1.trans h.1, g.2.1.trans h.2.1, g.2.2.trans h.2.2⟩

theorem still_announce (w : Sys) (y f : Nat) (o : Oracle) : Still w (announce w y f o).1 := by
  unfold announce
  simp only
  split
  · exact still_front _ _ _ _
  · split
    · split
      · exact (still_front _ _ _ _).trans (still_front _ _ _ _)
      · exact (still_front _ _ _ _).trans (still_front _ _ _ _)
    · exact still_front _ _ _ _

theorem still_loop (code y : Nat) (o : Oracle) : ∀ (l : List Nat) (k : Nat) (w : Sys), Still w (requestLoop code y o l k w).1 := by
  intro l
  induction l with
  | nil => intro k w; exact ⟨rfl, rfl, rfl⟩
  | cons f l ih =>
    intro k w
    simp only [requestLoop]
    split
    · split
      · exact still_back _ _ _ _
      · exact (still_back _ _ _ _).trans (ih _ _)
    · exact ih k w

theorem still_all (code : Nat) (w : Sys) (y : Nat) (o : Oracle) (l : List Nat) : Still w (allOf code w y o l).1 := by
  unfold allOf
  simp only
  split
  · exact still_loop _ _ _ _ _ _
  · exact (still_loop _ _ _ _ _ _).trans (still_back _ _ _ _)

theorem finish_shape (y : Nat) (c : Call) (r : Sys × Status) :
    (∃ st, finish y c r = (r.1, ⟨y, c, .fail st⟩)) ∨ ∃ f q e, finish y c r = ((switch { setCall r.1 y c with runq := q } f e).1,
      ⟨y, c, (switch { setCall r.1 y c with runq := q } f e).2⟩) := by
  unfold finish
  split
  · exact .inl ⟨_, rfl⟩
  · split
    · exact .inr ⟨_, _, _, rfl⟩
    · split
      · exact .inr ⟨_, r.1.runq, _, rfl⟩
      · exact .inl ⟨_, rfl⟩

theorem finish_item (y : Nat) (c : Call) (r : Sys × Status) : (finish y c r).2.call = c := by
  rcases finish_shape y c r with ⟨_, h⟩ | ⟨_, _, _, h⟩ <;> rw [h]

theorem finish_fail {y : Nat} {c : Call} {r : Sys × Status} (h : r.2 ≠ SUCCESS) : (finish y c r).2.next = .fail r.2 := by
  unfold finish; rw [if_pos h]

theorem switch_go (w : Sys) (f : Nat) (e : Ev) (st : Status) : (switch w f e).2 ≠ .fail st := by
  unfold switch; split <;> simp

theorem finish_go {y : Nat} {c : Call} {r : Sys × Status} (h : r.2 = SUCCESS) (hq : r.1.runq ≠ []) (st : Status) :
    (finish y c r).2.next ≠ .fail st := by
  unfold finish
  rw [if_neg (by simp [h])]
  split
  · exact switch_go _ _ _ _
  · next e => exact absurd e hq

theorem life_still {main : Nat} {w : Sys} {tr : List Item} (h : Life main w tr) {c : Call} {r : Sys × Status} (hc : c ≠ .stop)
    (hs : Still w r.1) : Life main (finish w.cur c r).1 (tr ++ [(finish w.cur c r).2]) :=
  h.next (w1 := r.1) (fun f => by rw [hs.1, if_neg fun h => hc h.1]) hs.2.1 hs.2.2 (finish_shape _ _ _)

/-! ### The invariant -/

structure K (G : Log → RB.St → View → Prop) (main : Nat) (w : World) (tr : List Seen) (v : View) : Prop where
  tree : G w.flog w.fibs v
  nodup : v.items.Nodup
  owned : ∀ f, f ∈ v.items ↔ Owned f tr
  life : Life main w.sys (items tr)

theorem K.running {main : Nat} {w : World} {tr : List Seen} {v : View} (k : K G main w tr v) (g : Nat) :
    w.sys.state g = .running ↔ alive main g (items tr) := by
  refine ⟨fun hr => ⟨Classical.byContradiction fun hs => ?_, fun he => ?_⟩, fun hr => k.life.run g hr.1 hr.2⟩
  · rw [(k.life.out g hs).2] at hr; cases hr
  · rw [(k.life.stop g he).2] at hr; cases hr

theorem addF_ok (S : Safe P G) {w : World} {v : View} {y f : Nat} {x : Ans} (hv : G w.flog w.fibs v) (hd : v.items.Nodup) (h0 : f ≠ 0)
    (hn : f ∉ v.items) (hf : x.o.a 0 = SUCCESS → w.fibs.heap x.node = none) (hk : Keeps P w (.call (.add f)) x)
    (hr : x.o.q 0 = SUCCESS → x.o.q 1 = SUCCESS ∧ x.o.q 2 = SUCCESS) :
    ∃ w1 st v', addF w y f x = some (w1, st) ∧ Still w.sys w1.sys ∧ G w1.flog w1.fibs v' ∧ v'.items.Nodup ∧
      (∀ g, g ∈ v'.items ↔ g ∈ v.items ∨ st = SUCCESS ∧ g = f) ∧ (st = SUCCESS → w1.sys.runq ≠ []) ∧
      (st = SUCCESS ↔ x.o.a 0 = SUCCESS ∧ x.o.q 0 = SUCCESS) := by
  obtain ⟨w1, e1, e2, v1, g1, g2, g3⟩ := ask_insert S (env := x.env) hv hd h0 hn hf hk.1
  unfold addF
  rw [e1, Option.bind_some]
  simp only
  by_cases ha : x.o.a 0 = SUCCESS
  · rw [if_neg (by simp [ha])]
    by_cases hq : x.o.q 0 = SUCCESS
    · have hb : (back w.sys f ⟨.internal, RESUME_ADD_FIBER, 0⟩ (x.o.q 0)).2 = SUCCESS := by simp [back, hq]
      rw [if_neg (by simp [hb])]
      obtain ⟨q1, q2⟩ := hr hq
      have hst : ∀ s : Sys, (announce s y f x.o).2 = SUCCESS := by
        intro s; unfold announce; simp only [q1, q2, front]; simp; split <;> rfl
      have hrq : ∀ s : Sys, (announce s y f x.o).1.runq ≠ [] := by
        intro s; unfold announce; simp only [q1, q2, front]; simp; split <;> simp
      refine ⟨_, _, v1, rfl, (still_back _ _ _ _).trans (still_announce _ _ _ _), g1, g2, fun g => ?_, fun _ => hrq _, by simp [hst, ha, hq]⟩
      rw [g3]; simp [hst, ha]
    · have hb : (back w.sys f ⟨.internal, RESUME_ADD_FIBER, 0⟩ (x.o.q 0)).2 = x.o.q 0 := by
        unfold back; split
        · rfl
        · next h => exact absurd (Classical.not_not.1 h) hq
      rw [hb, if_pos hq]
      obtain ⟨out, w2, d1, -, d3, v2, d4, d5, d6⟩ := ask_take S (env := x.env) g1 g2 (hk.2 _ e1 ha hq)
      rw [d1, Option.map_some]
      have hne : (if out.1 ≠ SUCCESS then out.1 else x.o.q 0) ≠ SUCCESS := by split <;> assumption
      refine ⟨_, _, v2, rfl, still_back _ _ _ _, d4, d5, fun g => ?_, fun h => absurd h hne, fun h => absurd h hne, fun h => absurd h.2 hq⟩
      rw [d6, g3]
      simp only [hne, false_and, or_false, ha, true_and]
      constructor
      · rintro ⟨h | h, hg⟩
        · exact h
        · exact absurd h hg
      · intro h; exact ⟨.inl h, fun hg => hn (hg ▸ h)⟩
  · rw [if_pos ha]
    exact ⟨w1, _, v1, rfl, by rw [e2]; exact ⟨rfl, rfl, rfl⟩, g1, g2, fun g => by rw [g3], fun h => absurd h ha, by simp [ha]⟩

theorem step_ok (S : Safe P G) {main : Nat} {w : World} {tr : List Seen} {v : View} (k : K G main w tr v) {a : Act} {x : Ans}
    (hl : Lawful w tr a x) (hf : Fresh w a x) (hk : Keeps P w a x) :
    ∃ w' s v', stepF w a x = some (w', s) ∧ K G main w' (tr ++ [s]) v' := by
  have hold : ∀ {c : Call} {r : Sys × Status}, (∀ f, c ≠ .add f) → Life main (finish w.sys.cur c r).1 (items tr ++ [(finish w.sys.cur c r).2]) →
      K G main { w with sys := (finish w.sys.cur c r).1 } (tr ++ [.call (finish w.sys.cur c r).2]) v := by
    intro c r hc hL
    refine ⟨k.tree, k.nodup, fun f => ?_, by rw [items_append]; exact hL⟩
    rw [owned_append, k.owned f]
    have : ¬ Gains f (.call (finish w.sys.cur c r).2) := not_gains_call (by rw [finish_item]; exact hc f)
    simp [this]
  have other : ∀ {c : Call}, (∀ f, c ≠ .add f) → handlerF w c x = some ({ w with sys := (handler w.sys c x.o).1 }, (handler w.sys c x.o).2) →
      ∃ w' s v', stepF w (.call c) x = some (w', s) ∧ K G main w' (tr ++ [s]) v' := by
    intro c hc hh
    refine ⟨_, _, v, by simp only [stepF, hh, Option.map_some]; rfl, hold hc ?_⟩
    exact k.life.next (handler_state w.sys c x.o) (handler_call w.sys c x.o) (handler_cur w.sys c x.o) (finish_shape _ _ _)
  have all : ∀ {c : Call} {code : Nat}, (∀ f, c ≠ .add f) → c ≠ .stop → handlerF w c x = requestAllF code w w.sys.cur x.o →
      ∃ w' s v', stepF w (.call c) x = some (w', s) ∧ K G main w' (tr ++ [s]) v' := by
    intro c code hc hs hh
    rw [all_walk S k.tree] at hh
    refine ⟨_, _, v, by simp only [stepF, hh, Option.map_some]; rfl, hold hc ?_⟩
    exact life_still k.life hs (still_all _ _ _ _ _)
  cases a with
  | remove f =>
    obtain ⟨out, w1, e1, e2, e3, v', e4, e5, e6⟩ := ask_take S (env := x.env) k.tree k.nodup hk
    refine ⟨w1, .remove f out.1, v', by simp only [stepF, e1, Option.map_some], e4, e5, fun g => ?_, by rw [items_append, e2]; simpa [items] using k.life⟩
    rw [e6, owned_append, k.owned g]
    simp only [not_gains_remove, false_or, ne_eq, Seen.remove.injEq, not_and]
    refine and_congr_right fun hg => ⟨fun h h' => absurd h'.symm h, fun h hgf => ?_⟩
    rcases e3 with ⟨-, a, rfl⟩ | ⟨h1, -⟩
    · exact h hgf.symm (hl a)
    · exact h1 ((k.owned f).2 (hgf ▸ hg))
  | call c =>
    cases c
    case add f =>
      obtain ⟨h0, hno, hr⟩ := hl
      have hn : f ∉ v.items := fun h => hno ((k.owned f).1 h)
      obtain ⟨w1, st, v', e1, e2, e3, e4, e5, e6, -⟩ := addF_ok (y := w.sys.cur) S k.tree k.nodup h0 hn (hf f rfl) hk hr
      refine ⟨{ w1 with sys := (finish w.sys.cur (.add f) (w1.sys, st)).1 }, .call (finish w.sys.cur (.add f) (w1.sys, st)).2, v',
        by simp only [stepF, handlerF, e1, Option.map_some], e3, e4, fun g => ?_, ?_⟩
      · rw [e5, owned_append, k.owned g]
        have hg : Gains g (.call (finish w.sys.cur (.add f) (w1.sys, st)).2) ↔ st = SUCCESS ∧ g = f := by
          constructor
          · rintro ⟨_, e, hc, hx⟩
            cases e
            rw [finish_item] at hc
            refine ⟨Classical.byContradiction fun hst => ?_, by cases hc; rfl⟩
            exact hx _ (finish_fail (r := (w1.sys, st)) hst)
          · rintro ⟨rfl, rfl⟩
            exact ⟨_, rfl, finish_item _ _ _, finish_go rfl (e6 rfl)⟩
        rw [hg]; simp [or_comm]
      · rw [items_append]
        exact life_still k.life (by simp) e2
    case quiesceAll => exact all (code := MGMT_QUIESCE_REQUEST) (by simp) (by simp) rfl
    case terminateAll => exact all (code := MGMT_TERMINATION_REQUEST) (by simp) (by simp) rfl
    all_goals exact other (by simp) rfl

theorem HistF.keep (S : Safe P G) {main idle N : Nat} {w : World} {tr : List Seen} (h : HistF P Lawful main idle N w tr) :
    ∃ v, K G main w tr v := by
  induction h with
  | init h1 h2 =>
    refine ⟨⟨[], []⟩, S.init N, by simp, fun f => ?_, (Any.init (main := main) (idle := idle) h1 h2).life⟩
    simp only [List.not_mem_nil, false_iff]
    rintro ⟨A, s, B, e, -⟩
    simp at e
  | step a x _ hl hf hk hs ih =>
    obtain ⟨v, k⟩ := ih
    obtain ⟨w', s, v', e1, e2⟩ := step_ok S k hl hf hk
    rw [hs] at e1
    obtain ⟨rfl, rfl⟩ := Prod.mk.inj (Option.some.inj e1)
    exact ⟨v', e2⟩

end

end Rcpr.FibTree
