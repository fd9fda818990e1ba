import Verif.FibMemRel
import Verif.FiberAny
import Verif.FibMemSpec

/-! Every callback over queues in memory does what the callback of `Verif.Fiber` does to lists. -/
namespace Rcpr.FibMem

open Rcpr Fiber
open Rcpr.SList (Addr okEnv Unused)

/-- where the list of an owner is -/
def loc (w : World) : Own → Option Addr
  | .run => w.mem.queues w.runq
  | .box a => (w.boxes a).bind fun b => w.mem.queues b.queue
  | .cond h => w.conds h

/-- where the queue of an owner is -/
def qloc (w : World) : Own → Option Addr
  | .run => some w.runq
  | .box a => (w.boxes a).map QBox.queue
  | .cond _ => none

/-- the lists of `Verif.Fiber` -/
def cont (R : List Nat) (B : Nat → Option Box) (K : Nat → Option (List Nat)) : Own → Option (List Nat)
  | .run => some R
  | .box a => (B a).map Box.msgs
  | .cond h => K h

/-- the scheduler with the lists `R`, `B`, `K` -/
def over (φ : Sys) (R : List Nat) (B : Nat → Option Box) (K : Nat → Option (List Nat)) : Sys :=
  { φ with runq := R, boxes := B, conds := K }

/-- The queues of `w` hold the lists `R`, `B`, `K`. -/
structure Rel (w : World) (R : List Nat) (B : Nat → Option Box) (K : Nat → Option (List Nat)) : Prop where
  mir : Mir (loc w) (qloc w) w.mem (cont R B K)
  blk : ∀ a, (w.boxes a).map QBox.blocked = (B a).map Box.blocked
  cur : w.fib.cur ≠ 0
  tree : ∀ f ∈ w.fib.tree, f ≠ 0
  bidx : ∀ a, w.boxes a ≠ none → a ≤ w.fib.mindex
  cidx : ∀ h, w.conds h ≠ none → h ≤ w.fib.cindex

/-- the oracle answers as recorded -/
def Agree (log : List Status) (o : Oracle) : Prop := ∀ k st, log[k]? = some st → o.q k = st

theorem Agree.at {log t : List Status} {st : Status} {o : Oracle} (h : Agree (log ++ st :: t) o) : o.q log.length = st :=
  h _ _ (by simp)

theorem Agree.pre {log t : List Status} {o : Oracle} (h : Agree (log ++ t) o) : Agree log o := fun k st hk =>
  h k st (by rw [List.getElem?_append_left (List.getElem?_eq_some_iff.1 hk).1]; exact hk)

/-- the record is true: a node was refused only if the allocator had none -/
def Honest (x : Ans) (log : List Status) : Prop :=
  ∀ k st, log[k]? = some st → st = SUCCESS ∨ st = ERROR_GENERAL_OUT_OF_MEMORY ∧ ∃ m, x.q k m = none

theorem Honest.snoc {x : Ans} {log : List Status} {st : Status} (h : Honest x log)
    (hs : st = SUCCESS ∨ st = ERROR_GENERAL_OUT_OF_MEMORY ∧ ∃ m, x.q log.length m = none) : Honest x (log ++ [st]) := by
  intro k s hk
  rcases Nat.lt_trichotomy k log.length with hl | hl | hl
  · rw [List.getElem?_append_left hl] at hk; exact h k s hk
  · subst hl
    simp at hk
    subst hk; exact hs
  · rw [List.getElem?_eq_none (by simp; omega)] at hk; cases hk

variable {w : World} {R : List Nat} {B : Nat → Option Box} {K : Nat → Option (List Nat)} {x : Ans}

theorem Rel.fib (h : Rel w R B K) {φ : Sys} (hc : φ.cur ≠ 0) (ht : ∀ f ∈ φ.tree, f ≠ 0)
    (hm : φ.mindex = w.fib.mindex := by rfl) (hn : φ.cindex = w.fib.cindex := by rfl) : Rel { w with fib := φ } R B K :=
  ⟨h.mir, h.blk, hc, ht, fun a ha => hm ▸ h.bidx a ha, fun a ha => hn ▸ h.cidx a ha⟩

theorem Rel.log (h : Rel w R B K) (t : List Status) : Rel { w with log := t } R B K := ⟨h.mir, h.blk, h.cur, h.tree, h.bidx, h.cidx⟩

theorem queues_append {m m' : Queue.Mem} {ans : Option Addr} {q r : Addr} {st : Status} (h : Queue.append m ans q r = some (st, m')) :
    m'.queues = m.queues := by
  unfold Queue.append at h
  cases hq : m.queues q with
  | none => rw [hq] at h; cases h
  | some l =>
    rw [hq] at h
    cases hs : SList.appendTail m.sl ans l r with
    | none => simp [hs] at h
    | some p => simp [hs] at h; rw [← h.2]

theorem queues_insert {m m' : Queue.Mem} {ans : Option Addr} {q r : Addr} {st : Status} (h : Queue.insert m ans q r = some (st, m')) :
    m'.queues = m.queues := by
  unfold Queue.insert at h
  cases hq : m.queues q with
  | none => rw [hq] at h; cases h
  | some l =>
    rw [hq] at h
    cases hs : SList.insertHead m.sl ans l r with
    | none => simp [hs] at h
    | some p => simp [hs] at h; rw [← h.2]

theorem queues_pop {m m' : Queue.Mem} {q r r' : Addr} {st : Status} (h : Queue.pop okEnv m q r = some (st, r', m')) :
    m'.queues = m.queues := by
  unfold Queue.pop at h
  cases hq : m.queues q with
  | none => rw [hq] at h; cases h
  | some l =>
    rw [hq] at h
    cases hs : SList.pop okEnv m.sl l r with
    | none => simp [hs] at h
    | some p => simp [hs] at h; rw [← h.2.2]

/-- only the lists in memory change -/
theorem loc_mem {w w' : World} (h1 : w'.mem.queues = w.mem.queues) (h2 : w'.runq = w.runq)
    (h3 : ∀ a, (w'.boxes a).map QBox.queue = (w.boxes a).map QBox.queue) (h4 : w'.conds = w.conds) :
    (∀ o, loc w' o = loc w o) ∧ ∀ o, qloc w' o = qloc w o := by
  have hb : ∀ (u : World) a, loc u (.box a) = ((u.boxes a).map QBox.queue).bind u.mem.queues := fun u a => by
    cases hu : u.boxes a <;> simp [loc, hu]
  refine ⟨fun o => ?_, fun o => ?_⟩
  · cases o with
    | run => simp only [loc, h1, h2]
    | box a => rw [hb, hb, h1, h3]
    | cond h => simp only [loc, h4]
  · cases o with
    | run => simp only [qloc, h2]
    | box a => exact h3 a
    | cond h => rfl

theorem cont_run {R' : List Nat} (o : Own) : cont R' B K o = put (cont R B K) .run (some R') o := by
  cases o <;> simp [cont, put]

theorem cont_box {a : Nat} {b : Option Box} (o : Own) :
    cont R (fun k => if k = a then b else B k) K o = put (cont R B K) (.box a) (b.map Box.msgs) o := by
  cases o with
  | run => simp [cont, put]
  | box c => by_cases h : c = a <;> simp [cont, put, h]
  | cond c => simp [cont, put]

theorem cont_cond {a : Nat} {b : Option (List Nat)} (o : Own) :
    cont R B (fun k => if k = a then b else K k) o = put (cont R B K) (.cond a) b o := by
  cases o with
  | run => simp [cont, put]
  | box c => simp [cont, put]
  | cond c => by_cases h : c = a <;> simp [cont, put, h]

theorem Mir.at {L Q : Own → Option Addr} {c : Own → Option (List Nat)} (h : Mir L Q w.mem c) (hq : ∀ o, qloc w o = Q o)
    (hc : ∀ k, L (.cond k) = w.conds k) (hb : ∀ a, w.boxes a = none → L (.box a) = none) : Mir (loc w) (qloc w) w.mem c := by
  refine h.congr (fun o => ?_) hq fun _ => rfl
  cases o with
  | run => exact (h.via .run w.runq (hq .run).symm).symm
  | box a =>
    cases e : w.boxes a with
    | none => simp only [loc, e, Option.bind_none]; exact (hb a e).symm
    | some b =>
      simp only [loc, e, Option.bind_some]
      exact (h.via (.box a) b.queue (by rw [← hq]; simp [qloc, e])).symm
  | cond k => exact (hc k).symm

/-! ### The run queue -/

/-- what scheduling a fiber does -/
structure Queued (x : Ans) (w w' : World) (R' : List Nat) (B : Nat → Option Box) (K : Nat → Option (List Nat)) (f : Nat) (e : Ev)
    (st : Status) : Prop where
  rel : Rel w' R' B K
  log : w'.log = w.log ++ [st]
  released : w'.mem.sl.released = w.mem.sl.released
  boxes : w'.boxes = w.boxes
  conds : w'.conds = w.conds
  runq : w'.runq = w.runq
  fib : w'.fib = setEv w.fib f e
  honest : Honest x w.log → Honest x w'.log

theorem back_over (φ : Sys) (f : Nat) (e : Ev) : back (over φ R B K) f e SUCCESS = (over (setEv φ f e) (R ++ [f]) B K, SUCCESS) := by
  simp [back]; rfl

theorem front_over (φ : Sys) (f : Nat) (e : Ev) : front (over φ R B K) f e SUCCESS = (over (setEv φ f e) (f :: R) B K, SUCCESS) := by
  simp [front]; rfl

theorem back_over_fail (φ : Sys) (f : Nat) (e : Ev) {st : Status} (h : st ≠ SUCCESS) :
    back (over φ R B K) f e st = (over (setEv φ f e) R B K, st) := by
  simp [back, h]; rfl

theorem front_over_fail (φ : Sys) (f : Nat) (e : Ev) {st : Status} (h : st ≠ SUCCESS) :
    front (over φ R B K) f e st = (over (setEv φ f e) R B K, st) := by
  simp [front, h]; rfl

theorem back_sim (h : Rel w R B K) (hx : x.Fair) {f : Nat} (hf : f ≠ 0) (e : Ev) :
    ∃ w' R' st, backQ w f e x = some (w', st) ∧ Queued x w w' R' B K f e st ∧
      back (over w.fib R B K) f e st = (over w'.fib R' B K, st) := by
  rcases h.mir.qappend (o := .run) (q := w.runq) (cs := R) rfl rfl hf (hx.q w.log.length w.mem) with ⟨h0, h1⟩ | ⟨m', _, h1, h2, h3⟩
  · refine ⟨{ w with fib := setEv w.fib f e, log := w.log ++ [ERROR_GENERAL_OUT_OF_MEMORY] }, R, ERROR_GENERAL_OUT_OF_MEMORY, ?_,
      ⟨⟨h.mir, h.blk, h.cur, h.tree, h.bidx, h.cidx⟩, rfl, rfl, rfl, rfl, rfl, rfl, fun hh => hh.snoc (.inr ⟨rfl, _, h0⟩)⟩, back_over_fail _ _ _ (by decide)⟩
    simp [backQ, h1]
  · have hl := loc_mem (w := w) (w' := { w with fib := setEv w.fib f e, mem := m', log := w.log ++ [SUCCESS] })
      (queues_append h1) rfl (fun _ => rfl) rfl
    refine ⟨{ w with fib := setEv w.fib f e, mem := m', log := w.log ++ [SUCCESS] }, R ++ [f], SUCCESS, ?_,
      ⟨⟨h3.congr hl.1 hl.2 cont_run, h.blk, h.cur, h.tree, h.bidx, h.cidx⟩, rfl, h2, rfl, rfl, rfl, rfl, fun hh => hh.snoc (.inl rfl)⟩, back_over _ _ _⟩
    simp [backQ, h1]

theorem front_sim (h : Rel w R B K) (hx : x.Fair) {f : Nat} (hf : f ≠ 0) (e : Ev) :
    ∃ w' R' st, frontQ w f e x = some (w', st) ∧ Queued x w w' R' B K f e st ∧
      front (over w.fib R B K) f e st = (over w'.fib R' B K, st) := by
  rcases h.mir.qinsert (o := .run) (q := w.runq) (cs := R) rfl rfl hf (hx.q w.log.length w.mem) with ⟨h0, h1⟩ | ⟨m', _, h1, h2, h3⟩
  · refine ⟨{ w with fib := setEv w.fib f e, log := w.log ++ [ERROR_GENERAL_OUT_OF_MEMORY] }, R, ERROR_GENERAL_OUT_OF_MEMORY, ?_,
      ⟨⟨h.mir, h.blk, h.cur, h.tree, h.bidx, h.cidx⟩, rfl, rfl, rfl, rfl, rfl, rfl, fun hh => hh.snoc (.inr ⟨rfl, _, h0⟩)⟩, front_over_fail _ _ _ (by decide)⟩
    simp [frontQ, h1]
  · have hl := loc_mem (w := w) (w' := { w with fib := setEv w.fib f e, mem := m', log := w.log ++ [SUCCESS] })
      (queues_insert h1) rfl (fun _ => rfl) rfl
    refine ⟨{ w with fib := setEv w.fib f e, mem := m', log := w.log ++ [SUCCESS] }, f :: R, SUCCESS, ?_,
      ⟨⟨h3.congr hl.1 hl.2 cont_run, h.blk, h.cur, h.tree, h.bidx, h.cidx⟩, rfl, h2, rfl, rfl, rfl, rfl, fun hh => hh.snoc (.inl rfl)⟩, front_over _ _ _⟩
    simp [frontQ, h1]

/-! ### Callbacks -/

/-- The callback over memory succeeds and does to the queues what `f` does to the lists, given oracles that answer as
recorded and as `A` says; `rel` is what it releases. -/
def Sim (x : Ans) (w : World) (c : Option (World × Status)) (rel : List Nat) (A : Oracle → Prop) (f : Oracle → Sys × Status) : Prop :=
  ∃ w' R' B' K' st, c = some (w', st) ∧ (∃ t, w'.log = w.log ++ t) ∧ w'.mem.sl.released = w.mem.sl.released ++ rel ∧
    w'.runq = w.runq ∧ Rel w' R' B' K' ∧ (Honest x w.log → Honest x w'.log) ∧ ∀ o, Agree w'.log o → A o → f o = (over w'.fib R' B' K', st)

theorem Sim.pre {w1 : World} {c : Option (World × Status)} {rel : List Nat} {A : Oracle → Prop} {f g : Oracle → Sys × Status} {t : List Status}
    (h : Sim x w1 c [] A f) (hl : w1.log = w.log ++ t) (hr : w1.mem.sl.released = w.mem.sl.released ++ rel) (hq : w1.runq = w.runq)
    (hf : ∀ o, Agree w1.log o → A o → g o = f o)
    (hh : Honest x w.log → Honest x w1.log := by exact id) : Sim x w c rel A g := by
  obtain ⟨w', R', B', K', st, h1, ⟨u, h2⟩, h3, h4, h5, h7, h6⟩ := h
  refine ⟨w', R', B', K', st, h1, ⟨t ++ u, by rw [h2, hl, List.append_assoc]⟩, by rw [h3, hr, List.append_nil], h4.trans hq, h5,
    fun a => h7 (hh a), fun o ho ha => ?_⟩
  rw [hf o (Agree.pre (t := u) (h2 ▸ ho)) ha]
  exact h6 o ho ha

theorem Sim.done (h : Rel w R B K) {A : Oracle → Prop} {f : Oracle → Sys × Status} {st : Status}
    (hf : ∀ o, A o → f o = (over w.fib R B K, st)) : Sim x w (some (w, st)) [] A f :=
  ⟨w, R, B, K, st, rfl, ⟨[], by simp⟩, by simp, rfl, h, id, fun o _ ha => hf o ha⟩

theorem Sim.front (h : Rel w R B K) (hx : x.Fair) {f : Nat} (hf : f ≠ 0) (e : Ev) (A : Oracle → Prop) :
    Sim x w (frontQ w f e x) [] A fun o => Fiber.front (over w.fib R B K) f e (o.q w.log.length) := by
  obtain ⟨w', R', st, h1, h2, h3⟩ := front_sim h hx hf e
  refine ⟨w', R', B, K, st, h1, ⟨_, h2.log⟩, by rw [h2.released, List.append_nil], h2.runq, h2.rel, h2.honest, fun o ho _ => ?_⟩
  rw [h2.log] at ho
  dsimp only
  rw [ho.at]; exact h3

theorem Sim.back (h : Rel w R B K) (hx : x.Fair) {f : Nat} (hf : f ≠ 0) (e : Ev) (A : Oracle → Prop) :
    Sim x w (backQ w f e x) [] A fun o => Fiber.back (over w.fib R B K) f e (o.q w.log.length) := by
  obtain ⟨w', R', st, h1, h2, h3⟩ := back_sim h hx hf e
  refine ⟨w', R', B, K, st, h1, ⟨_, h2.log⟩, by rw [h2.released, List.append_nil], h2.runq, h2.rel, h2.honest, fun o ho _ => ?_⟩
  rw [h2.log] at ho
  dsimp only
  rw [ho.at]; exact h3

/-- one scheduling, then more -/
theorem Sim.queued {w1 : World} {R1 : List Nat} {f : Nat} {e : Ev} {st : Status} {c : Option (World × Status)} {rel : List Nat}
    {A : Oracle → Prop} {g k : Oracle → Sys × Status} (hq : Queued x w w1 R1 B K f e st) (h : Sim x w1 c rel A g)
    (hf : ∀ o, o.q w.log.length = st → A o → k o = g o) : Sim x w c rel A k := by
  obtain ⟨w', R', B', K', s, h1, ⟨u, h2⟩, h3, h4, h5, h7, h6⟩ := h
  refine ⟨w', R', B', K', s, h1, ⟨st :: u, by rw [h2, hq.log]; simp⟩, by rw [h3, hq.released], h4.trans hq.runq, h5,
    fun a => h7 (hq.honest a), fun o ho ha => ?_⟩
  rw [hf o ?_ ha]
  · exact h6 o ho ha
  · rw [h2, hq.log, List.append_assoc] at ho
    exact Agree.at ho

theorem run_sim (h : Rel w R B K) (hx : x.Fair) (hl : w.log = []) :
    Sim x w (runQ w w.fib.cur x) [] (fun _ => True) fun o => runH (over w.fib R B K) w.fib.cur o := by
  unfold runQ runH
  by_cases hi : w.fib.cur = w.fib.idle
  · rw [if_pos hi]
    exact Sim.done h fun o _ => if_pos hi
  · rw [if_neg hi]
    refine (Sim.back h hx h.cur _ _).pre (t := []) (by simp) (by simp) rfl fun o _ _ => ?_
    rw [hl]; exact if_neg hi

theorem insertFib_mem {f g : Nat} : ∀ {l : List Nat}, g ∈ insertFib f l → g = f ∨ g ∈ l
  | [], h => by simpa [insertFib] using h
  | a :: l, h => by
    unfold insertFib at h
    split at h
    · simpa using h
    · rcases List.mem_cons.1 h with h | h
      · exact .inr (by simp [h])
      · rcases insertFib_mem h with h | h
        · exact .inl h
        · exact .inr (by simp [h])

theorem mgmt_sim (h : Rel w R B K) (hx : x.Fair) {f : Nat} (hf : f ≠ 0) (e : Ev) (A : Oracle → Prop) :
    Sim x w ((frontQ w f e x).map fun r => if r.2 ≠ SUCCESS then r else (clearMgmt r.1, SUCCESS)) [] A fun o =>
      let r := Fiber.front (over w.fib R B K) f e (o.q w.log.length)
      if r.2 ≠ SUCCESS then r else ({ r.1 with mgmt := 0 }, SUCCESS) := by
  obtain ⟨w3, R3, s3, e3, q3, b3⟩ := front_sim h hx hf e
  rw [e3, Option.map_some]
  have hq : ∀ o, Agree w3.log o → o.q w.log.length = s3 := fun o ho => Agree.at (log := w.log) (t := []) (q3.log ▸ ho)
  by_cases hs3 : s3 = SUCCESS
  · subst hs3
    simp only [ne_eq, not_true_eq_false, if_false]
    refine ⟨clearMgmt w3, R3, B, K, SUCCESS, rfl, ⟨_, q3.log⟩, by simpa [clearMgmt] using q3.released, q3.runq,
      q3.rel.fib q3.rel.cur q3.rel.tree, q3.honest, fun o ho _ => ?_⟩
    dsimp only
    rw [hq o ho, b3]
    rfl
  · simp only [ne_eq, hs3, not_false_eq_true, if_true]
    refine ⟨w3, R3, B, K, s3, rfl, ⟨_, q3.log⟩, by simpa using q3.released, q3.runq, q3.rel, q3.honest, fun o ho _ => ?_⟩
    dsimp only
    rw [hq o ho, b3]
    simp [hs3]

theorem add_sim (h : Rel w R B K) (hx : x.Fair) (hl : w.log = []) {f : Nat} (hf : f ≠ 0) :
    Sim x w (addQ w w.fib.cur f x) [] (fun o => o.a 0 = x.ins) fun o => addH (over w.fib R B K) w.fib.cur f o := by
  unfold addQ
  by_cases hi : x.ins ≠ SUCCESS
  · rw [if_pos hi]
    exact Sim.done h fun o ho => by unfold addH; rw [ho, if_pos hi]
  · rw [if_neg hi]
    have h1 : Rel { w with fib := { w.fib with tree := insertFib f w.fib.tree } } R B K := h.fib h.cur fun g hg => by
      rcases insertFib_mem hg with rfl | hg
      · exact hf
      · exact h.tree g hg
    obtain ⟨w1, R1, s1, e1, q1, b1⟩ := back_sim h1 hx hf ⟨.internal, RESUME_ADD_FIBER, 0⟩
    rw [e1, Option.bind_some]
    have hk : ∀ o : Oracle, o.q 0 = s1 → o.a 0 = x.ins → addH (over w.fib R B K) w.fib.cur f o =
        (let r := (over w1.fib R1 B K, s1)
         if r.2 ≠ SUCCESS then (({ r.1 with tree := w.fib.tree } : Sys), r.2)
         else
           let r := Fiber.front r.1 w.fib.cur ⟨.internal, RESUME_ADD_FIBER, 0⟩ (o.q 1)
           if r.2 ≠ SUCCESS then r
           else if w.fib.mgmt ≠ 0 then
             let r := Fiber.front r.1 w.fib.mgmt ⟨.mgmt, MGMT_FIBER_ADD, f⟩ (o.q 2)
             if r.2 ≠ SUCCESS then r else ({ r.1 with mgmt := 0 }, SUCCESS)
           else (r.1, SUCCESS)) := fun o ho ha => by
      unfold addH
      rw [ha, if_neg hi, ho]
      have : Fiber.back { over w.fib R B K with tree := insertFib f (over w.fib R B K).tree } f
          ⟨.internal, RESUME_ADD_FIBER, 0⟩ s1 = (over w1.fib R1 B K, s1) := b1
      rw [this]
      rfl
    by_cases hs : s1 = SUCCESS
    · subst hs
      simp only [ne_eq, not_true_eq_false, if_false] at hk ⊢
      obtain ⟨w2, R2, s2, e2, q2, b2⟩ := front_sim q1.rel hx h.cur ⟨.internal, RESUME_ADD_FIBER, 0⟩
      rw [e2, Option.bind_some]
      change Sim x { w with fib := { w.fib with tree := insertFib f w.fib.tree } } _ _ _ _
      refine Sim.queued q1 (g := fun o => (let r := Fiber.front (over w1.fib R1 B K) w.fib.cur ⟨.internal, RESUME_ADD_FIBER, 0⟩ (o.q 1)
           if r.2 ≠ SUCCESS then r
           else if w.fib.mgmt ≠ 0 then
             let r := Fiber.front r.1 w.fib.mgmt ⟨.mgmt, MGMT_FIBER_ADD, f⟩ (o.q 2)
             if r.2 ≠ SUCCESS then r else ({ r.1 with mgmt := 0 }, SUCCESS)
           else (r.1, SUCCESS))) ?_ fun o ho ha => ?_
      · have hl1 : w1.log.length = 1 := by rw [q1.log, hl]; rfl
        by_cases hs2 : s2 = SUCCESS
        · subst hs2
          simp only [ne_eq, not_true_eq_false, if_false]
          refine Sim.queued q2 (g := fun o => if w.fib.mgmt ≠ 0 then
             let r := Fiber.front (over w2.fib R2 B K) w.fib.mgmt ⟨.mgmt, MGMT_FIBER_ADD, f⟩ (o.q 2)
             if r.2 ≠ SUCCESS then r else ({ r.1 with mgmt := 0 }, SUCCESS)
           else (over w2.fib R2 B K, SUCCESS)) ?_ fun o ho ha => ?_
          · by_cases hm : w.fib.mgmt = 0
            · simp only [hm, not_true_eq_false, ne_eq, if_false]
              exact Sim.done q2.rel fun _ _ => rfl
            · simp only [hm, not_false_eq_true, ne_eq, if_true]
              have hl2 : w2.log.length = 2 := by rw [q2.log, q1.log, hl]; rfl
              have := mgmt_sim q2.rel hx hm ⟨.mgmt, MGMT_FIBER_ADD, f⟩ fun o => o.a 0 = x.ins
              rw [hl2] at this
              exact this
          · rw [hl1] at ho
            simp only [ho, b2, not_true_eq_false, if_false]
        · simp only [ne_eq, hs2, not_false_eq_true, if_true]
          refine Sim.queued q2 (g := fun _ => (over w2.fib R2 B K, s2)) (Sim.done q2.rel fun _ _ => rfl) fun o ho ha => ?_
          rw [hl1] at ho
          simp only [ho, b2, hs2, not_false_eq_true, if_true]
      · rw [show ({ w with fib := { w.fib with tree := insertFib f w.fib.tree } } : World).log.length = 0 by
          show w.log.length = 0; rw [hl]; rfl] at ho
        exact hk o ho ha
    · simp only [ne_eq, hs, not_false_eq_true, if_true] at hk ⊢
      have hfib : ({ w1 with fib := { w1.fib with tree := w.fib.tree } } : World).fib.cur ≠ 0 := q1.rel.cur
      refine ⟨{ w1 with fib := { w1.fib with tree := w.fib.tree } }, R1, B, K, s1, rfl, ⟨_, q1.log⟩, by simpa using q1.released,
        q1.runq, q1.rel.fib hfib h.tree, q1.honest, fun o ho ha => ?_⟩
      have := Agree.at (log := w.log) (t := []) (q1.log ▸ ho)
      rw [hl] at this
      exact hk o this ha

theorem stop_sim (h : Rel w R B K) (hx : x.Fair) (hl : w.log = []) :
    Sim x w (stopQ w w.fib.cur x) [] (fun _ => True) fun o => stopH (over w.fib R B K) w.fib.cur o := by
  have h1 : Rel { w with fib := { w.fib with state := fun g => if g = w.fib.cur then .stopped else w.fib.state g } } R B K :=
    h.fib h.cur h.tree
  by_cases hm : w.fib.mgmt = 0
  · have e : stopQ w w.fib.cur x =
        some ({ w with fib := { w.fib with state := fun g => if g = w.fib.cur then .stopped else w.fib.state g } }, SUCCESS) :=
      if_neg (c := w.fib.mgmt ≠ 0) fun c => c hm
    have e' : ∀ o, stopH (over w.fib R B K) w.fib.cur o =
        (over { w.fib with state := fun g => if g = w.fib.cur then .stopped else w.fib.state g } R B K, SUCCESS) := fun o =>
      if_neg (c := w.fib.mgmt ≠ 0) fun c => c hm
    rw [e]
    exact (Sim.done (A := fun _ => True) h1 fun _ _ => rfl).pre (t := []) (by simp) (by simp) rfl fun o _ _ => e' o
  · have e : stopQ w w.fib.cur x = _ := if_pos (c := w.fib.mgmt ≠ 0) hm
    rw [e]
    refine (mgmt_sim h1 hx hm ⟨.mgmt, MGMT_FIBER_STOP, w.fib.cur⟩ fun _ => True).pre (t := []) (by simp) (by simp) rfl fun o _ _ => ?_
    rw [hl]
    exact if_pos (c := w.fib.mgmt ≠ 0) hm

theorem release_sim (h : Rel w R B K) (hx : x.Fair) (hl : w.log = []) :
    Sim x w (releaseQ w w.fib.cur x) [] (fun _ => True) fun o => releaseH (over w.fib R B K) w.fib.cur o := by
  refine (Sim.front h hx h.cur _ _).pre (t := []) (by simp) (by simp) rfl fun o _ _ => ?_
  rw [hl]; rfl

theorem mgmtReceive_sim (h : Rel w R B K) :
    Sim x w (mgmtReceiveQ w w.fib.cur) [] (fun _ => True) fun _ => mgmtReceiveH (over w.fib R B K) w.fib.cur := by
  have h1 : Rel { w with fib := { w.fib with mgmt := w.fib.cur } } R B K := h.fib h.cur h.tree
  exact (Sim.done (st := SUCCESS) (A := fun _ => True) h1 fun _ _ => rfl).pre (t := []) (by simp) (by simp) rfl fun o _ _ => rfl

theorem request_sim (code : Nat) (h : Rel w R B K) (hx : x.Fair) (hl : w.log = []) {f : Nat} (hf : f ≠ 0) :
    Sim x w (requestQ code w w.fib.cur f x) [] (fun _ => True) fun o => requestH code (over w.fib R B K) w.fib.cur f o := by
  unfold requestQ requestH
  by_cases hs : w.fib.state f = .running
  · have hs' : (over w.fib R B K).state f = .running := hs
    simp only [hs, hs', ne_eq, not_true_eq_false, if_false]
    obtain ⟨w1, R1, s1, e1, q1, b1⟩ := front_sim h hx h.cur ⟨.mgmt, MGMT_REQUEST_RESULT, SUCCESS.toNat⟩
    rw [e1, Option.bind_some]
    by_cases h1 : s1 = SUCCESS
    · subst h1
      simp only [not_true_eq_false, if_false]
      refine Sim.queued q1 (Sim.front q1.rel hx hf _ _) fun o ho _ => ?_
      rw [hl] at ho
      have hl1 : w1.log.length = 1 := by rw [q1.log, hl]; rfl
      have ho' : o.q 0 = SUCCESS := ho
      simp only [ho', b1, not_true_eq_false, if_false, hl1]
    · simp only [h1, not_false_eq_true, if_true]
      refine Sim.queued q1 (Sim.done (f := fun _ => (over w1.fib R1 B K, s1)) q1.rel fun _ _ => rfl) fun o ho _ => ?_
      rw [hl] at ho
      have ho' : o.q 0 = s1 := ho
      simp only [ho', b1, h1, not_false_eq_true, if_true]
  · have hs' : ¬ (over w.fib R B K).state f = .running := hs
    simp only [hs, hs', ne_eq, not_false_eq_true, if_true]
    refine (Sim.front h hx h.cur _ _).pre (t := []) (by simp) (by simp) rfl fun o _ _ => ?_
    rw [hl]; rfl

theorem requestLoop_sim (code y : Nat) (hx : x.Fair) : ∀ (fs : List Nat) (w : World) (R : List Nat), Rel w R B K → (∀ f ∈ fs, f ≠ 0) →
    ∃ w' R' st, requestLoopQ code y x fs w = some (w', st) ∧ (∃ t, w'.log = w.log ++ t) ∧ w'.mem.sl.released = w.mem.sl.released ∧
      w'.runq = w.runq ∧ Rel w' R' B K ∧ (Honest x w.log → Honest x w'.log) ∧ ∀ o, Agree w'.log o →
        ∃ k, requestLoop code y o fs w.log.length (over w.fib R B K) = (over w'.fib R' B K, st, k) ∧ (st = SUCCESS → k = w'.log.length)
  | [], w, R, h, _ => ⟨w, R, SUCCESS, rfl, ⟨[], by simp⟩, rfl, rfl, h, id, fun o _ => ⟨_, rfl, fun _ => rfl⟩⟩
  | f :: fs, w, R, h, hn => by
    unfold requestLoopQ
    by_cases hc : y ≠ f ∧ w.fib.mgmt ≠ f ∧ w.fib.state f = .running
    · rw [if_pos hc]
      obtain ⟨w1, R1, s1, e1, q1, b1⟩ := back_sim h hx (hn f (by simp)) ⟨.mgmt, code, 0⟩
      rw [e1, Option.bind_some]
      have hstep : ∀ o : Oracle, o.q w.log.length = s1 → requestLoop code y o (f :: fs) w.log.length (over w.fib R B K) =
          if s1 ≠ SUCCESS then (over w1.fib R1 B K, s1, w.log.length) else requestLoop code y o fs (w.log.length + 1) (over w1.fib R1 B K) :=
        fun o ho => by
          have hc' : y ≠ f ∧ (over w.fib R B K).mgmt ≠ f ∧ (over w.fib R B K).state f = .running := hc
          conv => lhs; unfold requestLoop
          rw [if_pos hc', ho, b1]
      by_cases h1 : s1 = SUCCESS
      · subst h1
        simp only [ne_eq, not_true_eq_false, if_false] at hstep ⊢
        obtain ⟨w', R', st, e, ⟨t, ht⟩, hr, hq, hrel, hh, ho⟩ := requestLoop_sim code y hx fs w1 R1 q1.rel fun g hg => hn g (by simp [hg])
        refine ⟨w', R', st, e, ⟨SUCCESS :: t, by rw [ht, q1.log]; simp⟩, hr.trans q1.released, hq.trans q1.runq, hrel, fun a => hh (q1.honest a), fun o h' => ?_⟩
        have : o.q w.log.length = SUCCESS := by
          rw [ht, q1.log, List.append_assoc] at h'; exact Agree.at h'
        rw [hstep o this]
        have := ho o h'
        rwa [q1.log, List.length_append] at this
      · simp only [ne_eq, h1, not_false_eq_true, if_true] at hstep ⊢
        refine ⟨w1, R1, s1, rfl, ⟨_, q1.log⟩, q1.released, q1.runq, q1.rel, q1.honest, fun o h' => ⟨_, hstep o ?_, fun e => absurd e h1⟩⟩
        rw [q1.log] at h'; exact Agree.at h'
    · rw [if_neg hc]
      obtain ⟨w', R', st, e, ht, hr, hq, hrel, hh, ho⟩ := requestLoop_sim code y hx fs w R h fun g hg => hn g (by simp [hg])
      refine ⟨w', R', st, e, ht, hr, hq, hrel, hh, fun o h' => ?_⟩
      have hc' : ¬ (y ≠ f ∧ (over w.fib R B K).mgmt ≠ f ∧ (over w.fib R B K).state f = .running) := hc
      rw [show requestLoop code y o (f :: fs) w.log.length (over w.fib R B K) = requestLoop code y o fs w.log.length (over w.fib R B K) by
        conv => lhs; unfold requestLoop
        rw [if_neg hc']]
      exact ho o h'

theorem requestAll_sim (code : Nat) (h : Rel w R B K) (hx : x.Fair) (hl : w.log = []) :
    Sim x w (requestAllQ code w w.fib.cur x) [] (fun _ => True) fun o => requestAllH code (over w.fib R B K) w.fib.cur o := by
  unfold requestAllQ requestAllH
  obtain ⟨w1, R1, s1, e1, ⟨t, ht⟩, hr, hq, hrel, hh, ho⟩ := requestLoop_sim code w.fib.cur hx w.fib.tree w R h h.tree
  have ho' : ∀ o, Agree w1.log o → ∃ k, requestLoop code w.fib.cur o (over w.fib R B K).tree 0 (over w.fib R B K) =
    (over w1.fib R1 B K, s1, k) ∧ (s1 = SUCCESS → k = w1.log.length) := fun o h' => by
      have := ho o h'
      rw [hl] at this
      exact this
  rw [e1, Option.bind_some]
  by_cases h1 : s1 = SUCCESS
  · subst h1
    simp only [ne_eq, not_true_eq_false, if_false]
    refine (Sim.back hrel hx h.cur _ _).pre (t := t) (hh := hh) ht (by simpa using hr) hq fun o h' _ => ?_
    obtain ⟨k, hk, hk'⟩ := ho' o h'
    rw [hk, hk' rfl]
    rfl
  · simp only [ne_eq, h1, not_false_eq_true, if_true]
    refine (Sim.done (f := fun _ => (over w1.fib R1 B K, s1)) hrel fun _ _ => rfl).pre (t := t) (hh := hh) ht (by simpa using hr) hq fun o h' _ => ?_
    obtain ⟨k, hk, hk'⟩ := ho' o h'
    rw [hk]
    simp [h1]

end Rcpr.FibMem
