import Verif.FibMemBox

/-! The callbacks of the condition discipline. -/
namespace Rcpr.FibMem

open Rcpr Fiber
open Rcpr.SList (Addr okEnv Unused)

variable {w : World} {R : List Nat} {B : Nat → Option Box} {K : Nat → Option (List Nat)} {x : Ans}

theorem dropAll_mir {L Q : Own → Option Addr} {o : Own} {l : Addr} (hl : L o = some l) :
    ∀ (cs : List Nat) (m : Queue.Mem) (c : Own → Option (List Nat)) (f : Nat), Mir L Q m c → c o = some cs → cs.length < f →
      ∃ sl, dropAll x l f m.sl SUCCESS = some (sl, SUCCESS) ∧ sl.released = m.sl.released ∧
        Mir L Q { m with sl := sl } (put c o (some [])) := by
  intro cs
  induction cs with
  | nil =>
    intro m c f h hc hf
    obtain ⟨f, rfl⟩ : ∃ g, f = g + 1 := ⟨f - 1, by simp at hf; omega⟩
    obtain ⟨n, n1, n2⟩ := h.lcount hl hc
    refine ⟨m.sl, by simp [dropAll, n1, (count_zero n2).2 rfl], rfl, h.congr (fun _ => rfl) (fun _ => rfl) (put_self hc)⟩
  | cons d cs ih =>
    intro m c f h hc hf
    obtain ⟨f, rfl⟩ : ∃ g, f = g + 1 := ⟨f - 1, by simp at hf; omega⟩
    obtain ⟨n, n1, n2⟩ := h.lcount hl hc
    obtain ⟨sl, p1, p2, p3, p4⟩ := h.lpop hl hc x.junk
    have hn : n ≠ 0#64 := fun e => by cases (count_zero n2).1 e
    obtain ⟨sl', e1, e2, e3⟩ := ih _ _ f p4 (put_same _ _ _) (by simp at hf; omega)
    refine ⟨sl', ?_, e2.trans p2, e3.congr (fun _ => rfl) (fun _ => rfl) fun p => (put_put _ _ _ _ p).symm⟩
    simp only [dropAll, n1, Option.bind_some, hn, if_false, p1, ne_eq, not_true_eq_false]
    exact e1

theorem Mir.freeW {L Q : Own → Option Addr} {m : Queue.Mem} {c : Own → Option (List Nat)} (h : Mir L Q m c) {o : Own} {l : Addr}
    {cs : List Nat} (hl : L o = some l) (hq : Q o = none) (hc : c o = some cs) :
    ∃ sl, freeWaiters x m.sl l = some (SUCCESS, sl) ∧ sl.released = m.sl.released ∧
      Mir (put L o none) Q { m with sl := sl } (put c o none) := by
  obtain ⟨n, n1, n2⟩ := h.lcount hl hc
  obtain ⟨sl, e1, e2, e3⟩ := dropAll_mir (x := x) hl cs m c (n.toNat + 1) h hc (by omega)
  obtain ⟨k, k1, k2⟩ := e3.lcount hl (put_same _ _ _)
  obtain ⟨sl', r1, r2, r3⟩ := e3.lrelease hl hq (put_same _ _ _) (f := k.toNat + 1) (by simp)
  refine ⟨sl', ?_, by rw [r2, e2]; simp, r3.congr (fun _ => rfl) (fun _ => rfl) fun p => (put_put _ _ _ _ p).symm⟩
  have k1' : SList.count sl l = some k := k1
  have r1' : SList.release okEnv (k.toNat + 1) sl l = some (SUCCESS, sl') := r1
  simp [freeWaiters, n1, e1, k1', r1']

theorem Rel.cond_some (h : Rel w R B K) {a : Nat} {l : Addr} (hb : w.conds a = some l) :
    ∃ fs, K a = some fs ∧ cont R B K (.cond a) = some fs := by
  obtain ⟨C, hm, hp, e⟩ := h.mir.ex
  have h1 := e (.cond a)
  have h2 := hp.tot (.cond a) l hb
  rw [show loc w (.cond a) = some l from hb, Option.bind_some] at h1
  cases hK : K a with
  | none => rw [show cont R B K (.cond a) = none from hK] at h1; exact absurd h1.symm h2
  | some fs => exact ⟨fs, rfl, hK⟩

theorem Rel.cond_none (h : Rel w R B K) {a : Nat} (hb : w.conds a = none) : K a = none := by
  obtain ⟨C, hm, hp, e⟩ := h.mir.ex
  have h1 := e (.cond a)
  rw [show loc w (.cond a) = none from hb] at h1
  exact h1

/-- the waiters of one condition change in memory -/
theorem Rel.cond (h : Rel w R B K) {a : Nat} {fs : List Nat} {sl : SList.Mem}
    (hm : Mir (loc w) (qloc w) { w.mem with sl := sl } (put (cont R B K) (.cond a) (some fs))) :
    Rel (w.setSl sl) R B (fun k => if k = a then some fs else K k) := by
  refine ⟨hm.congr (fun o => ?_) (fun o => ?_) fun o => cont_cond o, h.blk, h.cur, h.tree, h.bidx, h.cidx⟩
  · cases o <;> rfl
  · cases o <;> rfl

theorem setCond_over (φ : Sys) (a : Nat) (b : Option (List Nat)) :
    setCond (over φ R B K) a b = over φ R B (fun k => if k = a then b else K k) := rfl

theorem condCreate_sim (h : Rel w R B K) (hx : x.Fair) (hl : w.log = []) :
    Sim x w (condCreateQ w w.fib.cur x) [] (Created x (SList.create w.mem.sl (x.la w.mem)).1)
      fun o => condCreateH (over w.fib R B K) w.fib.cur o := by
  unfold condCreateQ
  by_cases ha : x.alloc = SUCCESS
  case neg =>
    simp only [ne_eq, ha, not_false_eq_true, if_true]
    refine (Sim.front h hx h.cur _ _).pre (t := []) (by simp) (by simp) rfl fun o _ hA => ?_
    rw [hl]
    simp [condCreateH, boxResource, hA.alloc, ha]
  simp only [ne_eq, ha, not_true_eq_false, if_false]
  cases hn : x.la w.mem with
  | none =>
    have e : SList.create w.mem.sl none = (ERROR_GENERAL_OUT_OF_MEMORY, 0, w.mem.sl) := rfl
    have hoom : ERROR_GENERAL_OUT_OF_MEMORY ≠ SUCCESS := by decide
    simp only [e, hoom, not_false_eq_true, if_true]
    refine (Sim.front h hx h.cur _ _).pre (t := []) (by simp) (by simp) rfl fun o _ hA => ?_
    rw [hl]
    simp [condCreateH, boxResource, hA.alloc, hA.queue, hA.reclaim, ha, hoom]
  | some l =>
    have hnb : w.conds (w.fib.cindex + 1) = none := by
      cases e : w.conds (w.fib.cindex + 1) with
      | none => rfl
      | some b => have := h.cidx (w.fib.cindex + 1) (by rw [e]; simp); omega
    have ho : loc w (.cond (w.fib.cindex + 1)) = none := hnb
    obtain ⟨sl, e1, e2, e3⟩ := h.mir.lcreate (o := .cond (w.fib.cindex + 1)) ho rfl (hx.la _ _ hn).1 (hx.la _ _ hn).2
    rw [e1]
    simp only [not_true_eq_false, if_false]
    by_cases hi : x.ins = SUCCESS
    · simp only [hi, not_true_eq_false, if_false]
      have hrel : Rel { putCond (w.setSl sl) (w.fib.cindex + 1) (some l) with fib := { w.fib with cindex := w.fib.cindex + 1 } }
          R B (fun k => if k = w.fib.cindex + 1 then some [] else K k) := by
        refine ⟨Mir.at (w := { putCond (w.setSl sl) (w.fib.cindex + 1) (some l) with fib := { w.fib with cindex := w.fib.cindex + 1 } })
          (e3.congr (fun _ => rfl) (fun _ => rfl) fun o => cont_cond o) ?_ ?_ ?_, h.blk, h.cur, h.tree, h.bidx, ?_⟩
        · intro o; cases o <;> rfl
        · intro k
          by_cases hk : k = w.fib.cindex + 1 <;> simp [put, putCond, World.setSl, hk, loc]
        · intro c hc
          have hc' : w.boxes c = none := hc
          simp [put, loc, hc']
        · intro c hc
          show c ≤ w.fib.cindex + 1
          by_cases hca : c = w.fib.cindex + 1
          · omega
          · simp only [putCond, hca, if_false] at hc
            have := h.cidx c hc; omega
      refine (Sim.front hrel hx h.cur _ _).pre (t := []) (by simp [putCond, World.setSl]) (by simpa [putCond, World.setSl] using e2) rfl fun o _ hA => ?_
      have hlog : (putCond (w.setSl sl) (w.fib.cindex + 1) (some l)).log.length = 0 := by simp [putCond, World.setSl, hl]
      simp only [condCreateH, boxResource, hA.alloc, hA.queue, hA.ins, ha, hi, ne_eq, not_true_eq_false, if_false, hlog]
      rfl
    · simp only [hi, not_false_eq_true, if_true]
      obtain ⟨sl2, f1, f2, f3⟩ := e3.freeW (x := x) (o := .cond (w.fib.cindex + 1)) (l := l) (cs := []) (put_same _ _ _) rfl (put_same _ _ _)
      have f1' : freeWaiters x (w.setSl sl).mem.sl l = some (SUCCESS, sl2) := f1
      rw [f1', Option.bind_some]
      have hrel : Rel ((w.setSl sl).setSl sl2) R B K := by
        refine ⟨Mir.at (w := (w.setSl sl).setSl sl2) (f3.congr (loc' := loc w) (qloc' := qloc w) (cont' := cont R B K) ?_ (fun _ => rfl) ?_) (fun _ => rfl) (fun _ => rfl) ?_,
          h.blk, h.cur, h.tree, h.bidx, h.cidx⟩
        · intro p; rw [put_put, put_self ho]
        · intro p
          rw [put_put, put_self]
          exact h.cond_none hnb
        · intro c hc
          have hc' : w.boxes c = none := hc
          simp [loc, hc']
      refine (Sim.front hrel hx h.cur _ _).pre (t := []) (by simp [World.setSl]) (by simpa [World.setSl] using f2.trans e2) rfl fun o _ hA => ?_
      have hlog : ((w.setSl sl).setSl sl2).log.length = 0 := by simp [World.setSl, hl]
      simp only [condCreateH, boxResource, hA.alloc, hA.queue, hA.ins, hA.release, ha, hi, ne_eq, not_true_eq_false, if_false,
        not_false_eq_true, if_true, hlog]
      rfl

theorem condClose_sim (h : Rel w R B K) (hx : x.Fair) (hl : w.log = []) (a : Nat) :
    Sim x w (condCloseQ w w.fib.cur a x) [] (fun o => o.a 0 = SUCCESS) fun o => condCloseH (over w.fib R B K) w.fib.cur a o := by
  unfold condCloseQ
  cases hb : w.conds a with
  | none =>
    have hK : (over w.fib R B K).conds a = none := h.cond_none hb
    refine (Sim.front h hx h.cur _ _).pre (t := []) (by simp) (by simp) rfl fun o _ hA => ?_
    simp only [condCloseH, hK, hl]
    rfl
  | some l =>
    obtain ⟨fs, hK, hc⟩ := h.cond_some hb
    obtain ⟨sl, f1, f2, f3⟩ := h.mir.freeW (x := x) (o := .cond a) (l := l) hb rfl hc
    simp only [f1, Option.bind_some, ne_eq, not_true_eq_false, if_false]
    have hrel : Rel ((putCond w a none).setSl sl) R B (fun k => if k = a then none else K k) := by
      refine ⟨Mir.at (w := (putCond w a none).setSl sl) (f3.congr (fun _ => rfl) (fun _ => rfl) fun o => cont_cond o) ?_ ?_ ?_,
        h.blk, h.cur, h.tree, h.bidx, ?_⟩
      · intro o; cases o <;> rfl
      · intro k
        by_cases hk : k = a <;> simp [put, putCond, World.setSl, hk, loc]
      · intro c hc
        have hc' : w.boxes c = none := hc
        simp [put, loc, hc']
      · intro c hc
        by_cases hca : c = a
        · simp [putCond, World.setSl, hca] at hc
        · simp only [World.setSl, putCond, hca, if_false] at hc
          exact h.cidx c hc
    refine (Sim.front hrel hx h.cur _ _).pre (t := []) (by simp [putCond, World.setSl]) (by simpa [World.setSl] using f2) rfl fun o _ hA => ?_
    have hK' : (over w.fib R B K).conds a = some fs := hK
    have hlog : ((putCond w a none).setSl sl).log.length = 0 := by simp [putCond, World.setSl, hl]
    simp only [condCloseH, hK', hA, setCond_over, hlog, ne_eq, not_true_eq_false, if_false]
    rfl

theorem wait_sim (h : Rel w R B K) (hx : x.Fair) (hl : w.log = []) (a : Nat) :
    Sim x w (waitQ w w.fib.cur a x) [] (fun o => o.a 0 = nodeSt x w.mem) fun o => waitH (over w.fib R B K) w.fib.cur a o := by
  unfold waitQ
  cases hb : w.conds a with
  | none =>
    have hK : (over w.fib R B K).conds a = none := h.cond_none hb
    refine (Sim.front h hx h.cur _ _).pre (t := []) (by simp) (by simp) rfl fun o _ hA => ?_
    simp only [waitH, hK, hl]
    rfl
  | some l =>
    obtain ⟨fs, hK, hc⟩ := h.cond_some hb
    have hK' : (over w.fib R B K).conds a = some fs := hK
    rcases h.mir.lappend (o := .cond a) (l := l) hb hc h.cur (hx.node w.mem) with ⟨hn, e1⟩ | ⟨sl, hn, e1, e2, e3⟩
    · have hoom : ERROR_GENERAL_OUT_OF_MEMORY ≠ SUCCESS := by decide
      simp only [e1, Option.bind_some, ne_eq, hoom, not_false_eq_true, if_true]
      refine (Sim.front h hx h.cur _ _).pre (t := []) (by simp) (by simp) rfl fun o _ hA => ?_
      rw [nodeSt, if_pos hn] at hA
      simp only [waitH, hK', hA, ne_eq, hoom, not_false_eq_true, if_true, hl]
      rfl
    · simp only [e1, Option.bind_some, ne_eq, not_true_eq_false, if_false]
      refine (Sim.done (st := SUCCESS) (f := fun _ => (over w.fib R B (fun k => if k = a then some (fs ++ [w.fib.cur]) else K k), SUCCESS))
        (h.cond e3) fun _ _ => rfl).pre (t := []) (by simp [World.setSl]) (by simpa [World.setSl] using e2) rfl fun o _ hA => ?_
      rw [nodeSt, if_neg hn] at hA
      simp only [waitH, hK', hA, ne_eq, not_true_eq_false, if_false, setCond_over]

theorem notifyOne_sim (h : Rel w R B K) (hx : x.Fair) (hl : w.log = []) (a : Nat) :
    Sim x w (notifyOneQ w w.fib.cur a x) [] (fun _ => True) fun o => notifyOneH (over w.fib R B K) w.fib.cur a o := by
  unfold notifyOneQ
  cases hb : w.conds a with
  | none =>
    have hK : (over w.fib R B K).conds a = none := h.cond_none hb
    refine (Sim.back h hx h.cur _ _).pre (t := []) (by simp) (by simp) rfl fun o _ hA => ?_
    simp only [notifyOneH, hK, hl]
    rfl
  | some l =>
    obtain ⟨fs, hK, hc⟩ := h.cond_some hb
    obtain ⟨n, n1, n2⟩ := h.mir.lcount (o := .cond a) (l := l) hb hc
    simp only [n1, Option.bind_some, count_zero n2]
    cases fs with
    | nil =>
      have hK' : (over w.fib R B K).conds a = some [] := hK
      simp only [if_true]
      refine (Sim.back h hx h.cur _ _).pre (t := []) (by simp) (by simp) rfl fun o _ hA => ?_
      simp only [notifyOneH, hK', hl]
      rfl
    | cons f fs =>
      have hK' : (over w.fib R B K).conds a = some (f :: fs) := hK
      obtain ⟨sl, p1, p2, p3, p4⟩ := h.mir.lpop (o := .cond a) (l := l) hb hc x.junk
      simp only [p1, Option.bind_some, reduceCtorEq, ne_eq, not_true_eq_false, if_false]
      obtain ⟨w1, R1, s1, g1, q1, b1⟩ := back_sim (h.cond p4) hx p3 ⟨.cond, COND_WAIT_SUCCESS, SUCCESS.toNat⟩
      rw [g1, Option.bind_some]
      have hlog : (w.setSl sl).log.length = 0 := by simp [World.setSl, hl]
      have hs : Sim x (w.setSl sl) (backQ w1 w.fib.cur ⟨.cond, COND_NOTIFY_SUCCESS, s1.toNat⟩ x) [] (fun _ => True) fun o =>
          notifyOneH (over w.fib R B K) w.fib.cur a o := by
        refine Sim.queued q1 (Sim.back q1.rel hx h.cur _ _) fun o ho _ => ?_
        rw [hlog] at ho
        have hl1 : w1.log.length = 1 := by rw [q1.log]; simp [World.setSl, hl]
        have b1' : Fiber.back (over w.fib R B (fun k => if k = a then some fs else K k)) f ⟨.cond, COND_WAIT_SUCCESS, SUCCESS.toNat⟩ s1 = _ := b1
        simp only [notifyOneH, hK', setCond_over, ho, b1', hl1]
      exact hs.pre (t := []) (by simp [World.setSl]) (by simpa [World.setSl] using p2) rfl fun o _ _ => rfl

theorem notifyLoop_sim {a : Nat} {l : Addr} (hx : x.Fair) : ∀ (fs : List Nat) (w : World) (R : List Nat) (K : Nat → Option (List Nat))
    (n : Nat) (st : Status), Rel w R B K → w.conds a = some l → K a = some fs → fs.length < n →
    ∃ w' R' st', notifyLoopQ x l n w st = some (w', st') ∧ (∃ t, w'.log = w.log ++ t) ∧ w'.mem.sl.released = w.mem.sl.released ∧
      w'.runq = w.runq ∧ Rel w' R' B (fun k => if k = a then some [] else K k) ∧ (Honest x w.log → Honest x w'.log) ∧ ∀ o, Agree w'.log o →
        notifyLoop o fs w.log.length st (over w.fib R B (fun k => if k = a then some [] else K k)) =
          (over w'.fib R' B (fun k => if k = a then some [] else K k), st', w'.log.length) := by
  intro fs
  induction fs with
  | nil =>
    intro w R K n st h hb hK hf
    obtain ⟨n, rfl⟩ : ∃ g, n = g + 1 := ⟨n - 1, by simp at hf; omega⟩
    obtain ⟨k, k1, k2⟩ := h.mir.lcount (o := .cond a) (l := l) (cs := []) hb hK
    have hK' : (fun k => if k = a then some [] else K k) = K := by
      funext k; split
      · next e => rw [e, hK]
      · rfl
    refine ⟨w, R, st, by simp [notifyLoopQ, k1, (count_zero k2).2 rfl], ⟨[], by simp⟩, rfl, rfl, by rw [hK']; exact h, id, fun o _ => rfl⟩
  | cons f fs ih =>
    intro w R K n st h hb hK hf
    obtain ⟨n, rfl⟩ : ∃ g, n = g + 1 := ⟨n - 1, by simp at hf; omega⟩
    obtain ⟨k, k1, k2⟩ := h.mir.lcount (o := .cond a) (l := l) (cs := f :: fs) hb hK
    obtain ⟨sl, p1, p2, p3, p4⟩ := h.mir.lpop (o := .cond a) (l := l) (c := f) (cs := fs) hb hK x.junk
    have hk : k ≠ 0#64 := fun e => by cases (count_zero k2).1 e
    obtain ⟨w1, R1, s1, g1, q1, b1⟩ := back_sim (h.cond p4) hx p3 ⟨.cond, COND_WAIT_SUCCESS, SUCCESS.toNat⟩
    obtain ⟨w', R', st', e1, ⟨t, e2⟩, e3, e4, e5, e7, e6⟩ := ih w1 R1 _ n s1 q1.rel (by rw [q1.conds]; exact hb) (if_pos rfl) (by simp at hf; omega)
    have hKK : (fun k => if k = a then some [] else if k = a then some fs else K k) = fun k => if k = a then some [] else K k := by
      funext k; split <;> rfl
    have hlog : (w.setSl sl).log = w.log := rfl
    rw [hKK] at e5 e6
    refine ⟨w', R', st', ?_, ⟨s1 :: t, by rw [e2, q1.log, hlog]; simp⟩, (e3.trans q1.released).trans p2, e4.trans q1.runq, e5, fun hh => e7 (q1.honest hh), fun o ho => ?_⟩
    · simp only [notifyLoopQ, k1, Option.bind_some, hk, if_false, p1, ne_eq, not_true_eq_false, g1]
      exact e1
    · have h1 : o.q w.log.length = s1 := by
        rw [e2, q1.log, hlog, List.append_assoc] at ho
        exact Agree.at ho
      have h2 : Fiber.back (over w.fib R B (fun k => if k = a then some [] else K k)) f ⟨.cond, COND_WAIT_SUCCESS, SUCCESS.toNat⟩ s1 =
          (over w1.fib R1 B (fun k => if k = a then some [] else K k), s1) := by
        rw [q1.fib]
        have b1' : Fiber.back (over w.fib R B (fun k => if k = a then some fs else K k)) f ⟨.cond, COND_WAIT_SUCCESS, SUCCESS.toNat⟩ s1 =
          (over w1.fib R1 B (fun k => if k = a then some fs else K k), s1) := b1
        rw [q1.fib] at b1'
        by_cases hs : s1 = SUCCESS
        · subst hs
          rw [back_over] at b1' ⊢
          have hR : R ++ [f] = R1 := congrArg (fun p : Sys × Status => p.1.runq) b1'
          rw [hR]; rfl
        · rw [back_over_fail _ _ _ hs] at b1' ⊢
          have hR : R = R1 := congrArg (fun p : Sys × Status => p.1.runq) b1'
          rw [hR]; rfl
      conv => lhs; unfold notifyLoop
      rw [h1, h2]
      have := e6 o ho
      rw [q1.log, hlog, List.length_append] at this
      exact this

theorem notifyAll_sim (h : Rel w R B K) (hx : x.Fair) (hl : w.log = []) (a : Nat) :
    Sim x w (notifyAllQ w w.fib.cur a x) [] (fun _ => True) fun o => notifyAllH (over w.fib R B K) w.fib.cur a o := by
  unfold notifyAllQ
  cases hb : w.conds a with
  | none =>
    have hK : (over w.fib R B K).conds a = none := h.cond_none hb
    refine (Sim.back h hx h.cur _ _).pre (t := []) (by simp) (by simp) rfl fun o _ hA => ?_
    simp only [notifyAllH, hK, hl]
    rfl
  | some l =>
    obtain ⟨fs, hK, hc⟩ := h.cond_some hb
    have hK' : (over w.fib R B K).conds a = some fs := hK
    obtain ⟨n, n1, n2⟩ := h.mir.lcount (o := .cond a) (l := l) hb hc
    obtain ⟨w', R', st', e1, ⟨t, e2⟩, e3, e4, e5, e7, e6⟩ := notifyLoop_sim hx fs w R K (n.toNat + 1) SUCCESS h hb hK (by omega)
    simp only [n1, Option.bind_some, e1]
    refine (Sim.back e5 hx h.cur _ _).pre (t := t) (hh := e7) e2 (by simpa using e3) e4 fun o ho _ => ?_
    have := e6 o ho
    rw [hl] at this
    have this' : notifyLoop o fs 0 SUCCESS (over w.fib R B fun k => if k = a then some [] else K k) = _ := this
    simp only [notifyAllH, hK', setCond_over, this']

end Rcpr.FibMem
