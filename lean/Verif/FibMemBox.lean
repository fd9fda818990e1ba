import Verif.FibMemProof

/-! The callbacks of the message discipline. -/
namespace Rcpr.FibMem

open Rcpr Fiber
open Rcpr.SList (Addr okEnv Unused)

variable {w : World} {R : List Nat} {B : Nat → Option Box} {K : Nat → Option (List Nat)} {x : Ans}

theorem count_zero {n : BitVec 64} {cs : List Nat} (h : n.toNat = cs.length) : n = 0#64 ↔ cs = [] := by
  constructor
  · intro e; subst e
    cases cs with
    | nil => rfl
    | cons c cs => simp at h
  · intro e; subst e
    exact BitVec.eq_of_toNat_eq (by simpa using h)

theorem Mir.free {L Q : Own → Option Addr} {m : Queue.Mem} {c : Own → Option (List Nat)} (h : Mir L Q m c) {o : Own} {q : Addr}
    {cs : List Nat} (hq : Q o = some q) (hc : c o = some cs) :
    ∃ m', freeQueue m q = some (SUCCESS, m') ∧ m'.sl.released = m.sl.released ++ cs ∧ Mir (put L o none) (put Q o none) m' (put c o none) := by
  obtain ⟨n, h1, h2⟩ := h.qcount hq hc
  obtain ⟨m', h3, h4, h5⟩ := h.qrelease hq hc (f := n.toNat + 1) (by omega)
  exact ⟨m', by simp [freeQueue, h1, h3], h4, h5⟩

theorem put_put {α : Type} (f : Own → α) (o : Own) (u v : α) (p : Own) : put (put f o u) o v p = put f o v p := by
  unfold put; split <;> rfl

theorem put_self {α : Type} {f : Own → α} {o : Own} {v : α} (h : f o = v) (p : Own) : put f o v p = f p := by
  unfold put; split
  · next e => rw [e, h]
  · rfl

theorem Rel.box_none (h : Rel w R B K) (a : Nat) : w.boxes a = none ↔ B a = none := by
  have := h.blk a
  cases e : w.boxes a <;> cases e' : B a <;> simp [e, e'] at this ⊢

theorem Rel.box_some (h : Rel w R B K) {a : Nat} {b : QBox} (hb : w.boxes a = some b) :
    ∃ ms, B a = some ⟨b.blocked, ms⟩ ∧ qloc w (.box a) = some b.queue ∧ cont R B K (.box a) = some ms := by
  have := h.blk a
  rw [hb] at this
  cases e : B a with
  | none => rw [e] at this; cases this
  | some b' =>
    rw [e] at this
    have hbl : b.blocked = b'.blocked := Option.some.inj this
    exact ⟨b'.msgs, by rw [hbl], by simp [qloc, hb], by simp [cont, e]⟩

/-- the contents of one mailbox change in memory -/
theorem Rel.box (h : Rel w R B K) {a : Nat} {b : QBox} (hb : w.boxes a = some b) {bl : Nat} {ms : List Nat} {m : Queue.Mem}
    (hm : Mir (loc w) (qloc w) m (put (cont R B K) (.box a) (some ms))) :
    Rel { putBox w a (some ⟨bl, b.queue⟩) with mem := m } R (fun k => if k = a then some ⟨bl, ms⟩ else B k) K := by
  refine ⟨Mir.at (w := { putBox w a (some ⟨bl, b.queue⟩) with mem := m }) (hm.congr (fun _ => rfl) (fun _ => rfl) (cont' := cont R (fun k => if k = a then some ⟨bl, ms⟩ else B k) K) ?_) ?_ (fun _ => rfl) ?_, ?_, h.cur, h.tree, ?_, h.cidx⟩
  · exact fun o => cont_box o
  · intro o
    cases o with
    | run => rfl
    | box c => by_cases hc : c = a <;> simp [qloc, putBox, hc, hb]
    | cond c => rfl
  · intro c hc
    by_cases hca : c = a
    · simp [putBox, hca] at hc
    · simp only [putBox, hca, if_false] at hc
      simp [loc, hc]
  · intro c
    by_cases hc : c = a
    · simp [putBox, hc]
    · simpa [putBox, hc] using h.blk c
  · intro c hc
    by_cases hca : c = a
    · rw [hca]; exact h.bidx a (by rw [hb]; simp)
    · simp only [putBox, hca, if_false] at hc
      exact h.bidx c hc

theorem putBox_self (hb : w.boxes a = some b) : putBox w a (some b) = w := by
  unfold putBox
  have : (fun k => if k = a then some b else w.boxes k) = w.boxes := by
    funext k; split
    · next e => rw [e, hb]
    · rfl
  rw [this]

theorem Rel.boxMem (h : Rel w R B K) {a : Nat} {b : QBox} (hb : w.boxes a = some b) {ms : List Nat} {m : Queue.Mem}
    (hm : Mir (loc w) (qloc w) m (put (cont R B K) (.box a) (some ms))) :
    Rel { w with mem := m } R (fun k => if k = a then some ⟨b.blocked, ms⟩ else B k) K := by
  have := h.box hb (bl := b.blocked) hm
  rwa [show (⟨b.blocked, b.queue⟩ : QBox) = b from rfl, putBox_self hb] at this

theorem setBox_over (φ : Sys) (a : Nat) (b : Option Box) :
    setBox (over φ R B K) a b = over φ R (fun k => if k = a then b else B k) K := rfl

/-- what the environment answers when a mailbox or a condition is created -/
structure Created (x : Ans) (st : Status) (o : Oracle) : Prop where
  alloc : o.a 0 = x.alloc
  queue : o.a 1 = st
  reclaim : o.a 2 = SUCCESS
  ins : o.a 3 = x.ins
  release : o.a 4 = SUCCESS

theorem boxCreate_sim (h : Rel w R B K) (hx : x.Fair) (hl : w.log = []) :
    Sim x w (boxCreateQ w w.fib.cur x) [] (Created x (Queue.create okEnv w.mem (x.qa w.mem) (x.la w.mem)).1)
      fun o => boxCreateH (over w.fib R B K) w.fib.cur o := by
  unfold boxCreateQ
  by_cases ha : x.alloc = SUCCESS
  case neg =>
    simp only [ne_eq, ha, not_false_eq_true, if_true]
    refine (Sim.front h hx h.cur _ _).pre (t := []) (by simp) (by simp) rfl fun o _ hA => ?_
    rw [hl]
    simp [boxCreateH, boxResource, hA.alloc, ha]
  simp only [ne_eq, ha, not_true_eq_false, if_false]
  by_cases hn : x.qa w.mem = none ∨ x.la w.mem = none
  · have e := qcreate_fail (mem := w.mem) _ _ hn fun q hq => (hx.qa w.mem q hq).2
    rw [e]
    have hoom : ERROR_GENERAL_OUT_OF_MEMORY ≠ SUCCESS := by decide
    simp only [hoom, not_false_eq_true, if_true]
    refine (Sim.front h hx h.cur _ _).pre (t := []) (by simp) (by simp) rfl fun o _ hA => ?_
    rw [hl]
    simp [boxCreateH, boxResource, hA.alloc, hA.queue, hA.reclaim, ha, hoom]
  · obtain ⟨q, hq⟩ := Option.ne_none_iff_exists'.1 fun c => hn (.inl c)
    obtain ⟨l, hl'⟩ := Option.ne_none_iff_exists'.1 fun c => hn (.inr c)
    have hnb : w.boxes (w.fib.mindex + 1) = none := by
      cases e : w.boxes (w.fib.mindex + 1) with
      | none => rfl
      | some b => have := h.bidx (w.fib.mindex + 1) (by rw [e]; simp); omega
    have ho : loc w (.box (w.fib.mindex + 1)) = none := by simp [loc, hnb]
    have hqo : qloc w (.box (w.fib.mindex + 1)) = none := by simp [qloc, hnb]
    obtain ⟨m', e1, e2, e3⟩ := h.mir.qcreate ho hqo (hx.qa _ _ hq).2 (hx.la _ _ hl').1 (hx.la _ _ hl').2
    rw [hq, hl', e1]
    simp only [not_true_eq_false, if_false]
    by_cases hi : x.ins = SUCCESS
    · simp only [hi, not_true_eq_false, if_false]
      have hrel : Rel { putBox { w with mem := m' } (w.fib.mindex + 1) (some ⟨0, q⟩) with fib := { w.fib with mindex := w.fib.mindex + 1 } }
          R (fun k => if k = w.fib.mindex + 1 then some ⟨0, []⟩ else B k) K := by
        refine ⟨Mir.at (w := { putBox { w with mem := m' } (w.fib.mindex + 1) (some ⟨0, q⟩) with fib := { w.fib with mindex := w.fib.mindex + 1 } })
          (e3.congr (fun _ => rfl) (fun _ => rfl) fun o => cont_box o) ?_ ?_ ?_, ?_, h.cur, h.tree, ?_, h.cidx⟩
        · intro o
          cases o with
          | run => rfl
          | box c => by_cases hc : c = w.fib.mindex + 1 <;> simp [qloc, put, putBox, hc]
          | cond c => rfl
        · intro k; rfl
        · intro c hc
          by_cases hca : c = w.fib.mindex + 1
          · simp [putBox, hca] at hc
          · simp only [putBox, hca, if_false] at hc
            have hc' : w.boxes c = none := hc
            simp [put, loc, hc', hca]
        · intro c
          by_cases hc : c = w.fib.mindex + 1
          · simp [putBox, hc]
          · simpa [putBox, hc] using h.blk c
        · intro c hc
          show c ≤ w.fib.mindex + 1
          by_cases hca : c = w.fib.mindex + 1
          · omega
          · simp only [putBox, hca, if_false] at hc
            have := h.bidx c hc; omega
      refine (Sim.front hrel hx h.cur _ _).pre (t := []) (by simp [putBox]) (by simpa [putBox] using e2) rfl fun o _ hA => ?_
      have hlog : (putBox { w with mem := m' } (w.fib.mindex + 1) (some ⟨0, q⟩)).log.length = 0 := by simp [putBox, hl]
      simp only [boxCreateH, boxResource, hA.alloc, hA.queue, hA.ins, ha, hi, ne_eq, not_true_eq_false, if_false, hlog]
      rfl
    · simp only [hi, not_false_eq_true, if_true]
      obtain ⟨m2, f1, f2, f3⟩ := e3.free (o := .box (w.fib.mindex + 1)) (q := q) (cs := []) (put_same _ _ _) (put_same _ _ _)
      rw [f1, Option.bind_some]
      have hrel : Rel { w with mem := m2 } R B K := by
        refine ⟨Mir.at (w := { w with mem := m2 }) (f3.congr (loc' := loc w) (qloc' := qloc w) (cont' := cont R B K) ?_ ?_ ?_) (fun _ => rfl) (fun _ => rfl) ?_,
          h.blk, h.cur, h.tree, h.bidx, h.cidx⟩
        · intro p; rw [put_put, put_self ho]
        · intro p; rw [put_put, put_self hqo]
        · intro p
          rw [put_put, put_self]
          simp [cont, (h.box_none _).1 hnb]
        · intro c hc
          have hc' : w.boxes c = none := hc
          simp [loc, hc']
      refine (Sim.front hrel hx h.cur _ _).pre (t := []) (by simp) (by simp [f2, e2]) rfl fun o _ hA => ?_
      have hlog : ({ w with mem := m2 } : World).log.length = 0 := by simp [hl]
      simp only [boxCreateH, boxResource, hA.alloc, hA.queue, hA.ins, hA.release, ha, hi, ne_eq, not_true_eq_false, if_false,
        not_false_eq_true, if_true, hlog]

/-- the messages that closing `a` releases -/
def held (B : Nat → Option Box) (a : Nat) : List Nat :=
  match B a with
  | none => []
  | some b => b.msgs

theorem Rel.noBox (h : Rel w R B K) {a : Nat} {m : Queue.Mem}
    (hm : Mir (put (loc w) (.box a) none) (put (qloc w) (.box a) none) m (put (cont R B K) (.box a) none)) :
    Rel { putBox w a none with mem := m } R (fun k => if k = a then none else B k) K := by
  refine ⟨Mir.at (w := { putBox w a none with mem := m }) (hm.congr (fun _ => rfl) (fun _ => rfl) fun o => cont_box o) ?_ ?_ ?_, ?_, h.cur, h.tree, ?_, h.cidx⟩
  · intro o
    cases o with
    | run => rfl
    | box c => by_cases hc : c = a <;> simp [qloc, put, putBox, hc]
    | cond c => rfl
  · intro k; rfl
  · intro c hc
    by_cases hca : c = a
    · simp [hca]
    · simp only [putBox, hca, if_false] at hc
      simp [put, loc, hc]
  · intro c
    by_cases hc : c = a
    · simp [putBox, hc]
    · simpa [putBox, hc] using h.blk c
  · intro c hc
    by_cases hca : c = a
    · simp [putBox, hca] at hc
    · simp only [putBox, hca, if_false] at hc
      exact h.bidx c hc

theorem boxClose_sim (h : Rel w R B K) (hx : x.Fair) (hl : w.log = []) (a : Nat) :
    Sim x w (boxCloseQ w w.fib.cur a x) (held B a) (fun o => o.a 0 = SUCCESS) fun o => boxCloseH (over w.fib R B K) w.fib.cur a o := by
  unfold boxCloseQ held
  cases hb : w.boxes a with
  | none =>
    have hB := (h.box_none a).1 hb
    simp only [hB]
    refine (Sim.front h hx h.cur _ _).pre (t := []) (by simp) (by simp) rfl fun o _ hA => ?_
    have hB' : (over w.fib R B K).boxes a = none := hB
    simp only [boxCloseH, hB', hl]
    rfl
  | some b =>
    obtain ⟨ms, hB, hq, hc⟩ := h.box_some hb
    obtain ⟨m', f1, f2, f3⟩ := h.mir.free hq hc
    simp only [f1, Option.bind_some, hB]
    refine (Sim.front (h.noBox f3) hx h.cur _ _).pre (t := []) (by simp [putBox]) (by simpa [putBox] using f2) rfl fun o _ hA => ?_
    have hB' : (over w.fib R B K).boxes a = some ⟨b.blocked, ms⟩ := hB
    have hlog : (putBox w a none).log.length = 0 := by simp [putBox, hl]
    simp only [boxCloseH, hB', hA, setBox_over, hlog]
    rfl

theorem send_sim (h : Rel w R B K) (hx : x.Fair) (hl : w.log = []) (a : Nat) {m : Nat} (hm : m ≠ 0) :
    Sim x w (sendQ w w.fib.cur a m x) [] (fun o => o.a 0 = nodeSt x w.mem) fun o => sendH (over w.fib R B K) w.fib.cur a m o := by
  unfold sendQ
  cases hb : w.boxes a with
  | none =>
    have hB' : (over w.fib R B K).boxes a = none := (h.box_none a).1 hb
    refine (Sim.front h hx h.cur _ _).pre (t := []) (by simp) (by simp) rfl fun o _ hA => ?_
    simp only [sendH, hB', hl]
    rfl
  | some b =>
    obtain ⟨ms, hB, hq, hc⟩ := h.box_some hb
    have hB' : (over w.fib R B K).boxes a = some ⟨b.blocked, ms⟩ := hB
    rcases h.mir.qappend hq hc hm (hx.node w.mem) with ⟨hn, e1⟩ | ⟨m1, hn, e1, e2, e3⟩
    · have hoom : ERROR_GENERAL_OUT_OF_MEMORY ≠ SUCCESS := by decide
      simp only [e1, Option.bind_some, ne_eq, hoom, not_false_eq_true, if_true]
      refine (Sim.front h hx h.cur _ _).pre (t := []) (by simp) (by simp) rfl fun o _ hA => ?_
      rw [nodeSt, if_pos hn] at hA
      simp only [sendH, hB', hA, ne_eq, hoom, not_false_eq_true, if_true, hl]
      rfl
    · simp only [e1, Option.bind_some, ne_eq, not_true_eq_false, if_false]
      obtain ⟨m', ms', hms⟩ : ∃ m' ms', ms ++ [m] = m' :: ms' := by cases ms <;> simp
      rw [hms] at e3
      have hrel := h.boxMem hb e3
      obtain ⟨w1, R1, s1, g1, q1, b1⟩ := front_sim hrel hx h.cur ⟨.msg, MSG_SEND_SUCCESS, 0⟩
      rw [g1, Option.bind_some]
      have key : ∀ (g : Oracle → Sys × Status) (c : Option (World × Status)), Sim x w1 c [] (fun o => o.a 0 = SUCCESS) g →
          (∀ o, o.q 0 = s1 → o.a 0 = SUCCESS → sendH (over w.fib R B K) w.fib.cur a m o = g o) →
          Sim x w c [] (fun o => o.a 0 = nodeSt x w.mem) fun o => sendH (over w.fib R B K) w.fib.cur a m o := by
        intro g c hs hg
        obtain ⟨w', R', B', K', s, i1, ⟨u, i2⟩, i3, i4, i5, i7, i6⟩ := hs
        refine ⟨w', R', B', K', s, i1, ⟨s1 :: u, by rw [i2, q1.log]; simp⟩, by rw [i3, q1.released]; simp [e2], i4.trans q1.runq, i5, fun hh => i7 (q1.honest hh), fun o ho ha => ?_⟩
        rw [nodeSt, if_neg hn] at ha
        dsimp only
        rw [hg o ?_ ha]
        · exact i6 o ho ha
        · rw [i2, q1.log, List.append_assoc] at ho
          have := Agree.at ho
          rw [show ({ w with mem := m1 } : World).log.length = 0 by simp [hl]] at this
          exact this
      have hsend : ∀ o : Oracle, o.q 0 = s1 → o.a 0 = SUCCESS → sendH (over w.fib R B K) w.fib.cur a m o =
          (if s1 ≠ SUCCESS then (over w1.fib R1 (fun k => if k = a then some ⟨b.blocked, m' :: ms'⟩ else B k) K, s1)
           else if b.blocked ≠ 0 then
             Fiber.front (setBox (over w1.fib R1 (fun k => if k = a then some ⟨b.blocked, m' :: ms'⟩ else B k) K) a (some ⟨0, ms'⟩)) b.blocked
               ⟨.msg, MSG_RECEIVE_SUCCESS, m'⟩ (o.q 1)
           else (over w1.fib R1 (fun k => if k = a then some ⟨b.blocked, m' :: ms'⟩ else B k) K, SUCCESS)) := fun o ho ha => by
        simp only [sendH, hB', ha, ne_eq, not_true_eq_false, if_false, setBox_over, ho, hms]
        have b1' : Fiber.front (over w.fib R (fun k => if k = a then some ⟨b.blocked, m' :: ms'⟩ else B k) K) w.fib.cur
          ⟨.msg, MSG_SEND_SUCCESS, 0⟩ s1 = _ := b1
        simp only [b1', setBox_over]
      by_cases h1 : s1 = SUCCESS
      · simp only [h1, not_true_eq_false, if_false]
        subst h1
        simp only [ne_eq, not_true_eq_false, if_false] at hsend
        refine key _ _ ?_ hsend
        unfold wakeReceiver
        by_cases hbl : b.blocked = 0
        · simp only [ne_eq, hbl, not_true_eq_false, if_false]
          rw [hbl] at q1
          exact Sim.done q1.rel fun _ _ => rfl
        · simp only [ne_eq, hbl, not_false_eq_true, if_true]
          have hb1 : w1.boxes a = some b := by rw [q1.boxes]; exact hb
          obtain ⟨ms1, hB1, hq1, hc1⟩ := q1.rel.box_some hb1
          simp only [if_true, Option.some.injEq, Box.mk.injEq, true_and] at hB1
          subst hB1
          obtain ⟨m2, p1, p2, p3, p4⟩ := q1.rel.mir.qpop hq1 hc1 x.junk
          simp only [p1, Option.bind_some, not_true_eq_false, if_false]
          have hrel2 := q1.rel.box hb1 (bl := 0) p4
          have hl1 : w1.log.length = 1 := by rw [q1.log]; simp [hl]
          refine (Sim.front hrel2 hx hbl _ _).pre (t := []) (by simp [putBox]) (by simpa [putBox] using p2) rfl fun o _ _ => ?_
          have : (putBox w1 a (some ⟨0, b.queue⟩)).log.length = 1 := hl1
          rw [this]; rfl
      · simp only [h1, not_false_eq_true, if_true]
        simp only [ne_eq, h1, not_false_eq_true, if_true] at hsend
        refine key _ _ ?_ hsend
        exact Sim.done q1.rel fun _ _ => rfl

theorem receive_sim (h : Rel w R B K) (hx : x.Fair) (hl : w.log = []) (a : Nat) :
    Sim x w (receiveQ w w.fib.cur a x) [] (fun _ => True) fun o => receiveH (over w.fib R B K) w.fib.cur a o := by
  unfold receiveQ
  cases hb : w.boxes a with
  | none =>
    have hB' : (over w.fib R B K).boxes a = none := (h.box_none a).1 hb
    refine (Sim.front h hx h.cur _ _).pre (t := []) (by simp) (by simp) rfl fun o _ hA => ?_
    simp only [receiveH, hB', hl]
    rfl
  | some b =>
    obtain ⟨ms, hB, hq, hc⟩ := h.box_some hb
    have hB' : (over w.fib R B K).boxes a = some ⟨b.blocked, ms⟩ := hB
    obtain ⟨n, n1, n2⟩ := h.mir.qcount hq hc
    simp only [n1, Option.bind_some, count_zero n2]
    cases ms with
    | nil =>
      simp only [if_true]
      by_cases hbl : b.blocked = 0
      · simp only [ne_eq, hbl, not_true_eq_false, if_false]
        have hrel := h.box hb (bl := w.fib.cur) (ms := []) (h.mir.congr (fun _ => rfl) (fun _ => rfl) fun p => put_self hc p)
        refine (Sim.done (A := fun _ => True) (st := SUCCESS) hrel fun _ _ => rfl).pre (t := []) (by simp [putBox]) (by simp) rfl fun o _ _ => ?_
        simp only [receiveH, hB', hbl, ne_eq, not_true_eq_false, if_false, setBox_over]
        rfl
      · simp only [ne_eq, hbl, not_false_eq_true, if_true]
        refine (Sim.front h hx h.cur _ _).pre (t := []) (by simp) (by simp) rfl fun o _ _ => ?_
        simp only [receiveH, hB', hbl, ne_eq, not_false_eq_true, if_true, hl]
        rfl
    | cons m' ms' =>
      obtain ⟨m2, p1, p2, p3, p4⟩ := h.mir.qpop hq hc x.junk
      simp only [p1, Option.bind_some, reduceCtorEq, ne_eq, not_true_eq_false, if_false]
      refine (Sim.front (h.boxMem hb p4) hx h.cur _ _).pre (t := []) (by simp) (by simpa using p2) rfl fun o _ _ => ?_
      have hlog : ({ w with mem := m2 } : World).log.length = 0 := by simp [hl]
      simp only [receiveH, hB', setBox_over, hlog]

end Rcpr.FibMem
