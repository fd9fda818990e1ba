import Verif.FibMemCond

/-! Calls and histories over queues in memory do what `Verif.Fiber` says about lists. -/
namespace Rcpr.FibMem

open Rcpr Fiber
open Rcpr.SList (Addr okEnv Unused)

variable {w : World} {R : List Nat} {B : Nat → Option Box} {K : Nat → Option (List Nat)} {x : Ans}

theorem Sim.weaken {c : Option (World × Status)} {rel : List Nat} {A A' : Oracle → Prop} {f : Oracle → Sys × Status}
    (h : Sim x w c rel A f) (hA : ∀ o, A' o → A o) : Sim x w c rel A' f := by
  obtain ⟨w', R', B', K', st, h1, h2, h3, h4, h5, h7, h6⟩ := h
  exact ⟨w', R', B', K', st, h1, h2, h3, h4, h5, h7, fun o ho ha => h6 o ho (hA o ha)⟩

/-- what a call releases -/
def freed (B : Nat → Option Box) : Call → List Nat
  | .boxClose a => held B a
  | _ => []

theorem qcreate_st (hx : x.Fair) (m : Queue.Mem) : (Queue.create okEnv m (x.qa m) (x.la m)).1 =
    if x.qa m = none ∨ x.la m = none then ERROR_GENERAL_OUT_OF_MEMORY else SUCCESS := by
  cases hqa : x.qa m with
  | none => rfl
  | some q =>
    cases hla : x.la m with
    | none =>
      rw [qcreate_fail (mem := m) (some q) none (.inr rfl) fun p hp => (hx.qa m p (hqa.trans hp)).2]
      simp
    | some l => simp [Queue.create, SList.create]

theorem lcreate_st (m : Queue.Mem) : (SList.create m.sl (x.la m)).1 = if x.la m = none then ERROR_GENERAL_OUT_OF_MEMORY else SUCCESS := by
  cases hla : x.la m with
  | none => rfl
  | some l => rfl

theorem handler_sim (h : Rel w R B K) (hx : x.Fair) (hl : w.log = []) (c : Call) (hc : Args c) :
    Sim x w (handlerQ w c x) (freed B c) (fun o => o.a = told w c x) fun o => handler (over w.fib R B K) c o := by
  have hcr : ∀ st (o : Oracle), o.a = creating x st → Created x st o := fun st o e => by
    refine ⟨?_, ?_, ?_, ?_, ?_⟩ <;> rw [e] <;> rfl
  cases c with
  | run => exact (run_sim h hx hl).weaken fun _ _ => trivial
  | add f => exact (add_sim h hx hl hc).weaken fun o e => by rw [e]; rfl
  | stop => exact (stop_sim h hx hl).weaken fun _ _ => trivial
  | release => exact (release_sim h hx hl).weaken fun _ _ => trivial
  | mgmtReceive => exact (mgmtReceive_sim h).weaken fun _ _ => trivial
  | quiesce f => exact (request_sim _ h hx hl hc).weaken fun _ _ => trivial
  | terminate f => exact (request_sim _ h hx hl hc).weaken fun _ _ => trivial
  | quiesceAll => exact (requestAll_sim _ h hx hl).weaken fun _ _ => trivial
  | terminateAll => exact (requestAll_sim _ h hx hl).weaken fun _ _ => trivial
  | boxCreate => exact (boxCreate_sim h hx hl).weaken fun o e => hcr _ o (by rw [e, qcreate_st hx]; rfl)
  | boxClose a => exact (boxClose_sim h hx hl a).weaken fun o e => by rw [e]; rfl
  | send a m => exact (send_sim h hx hl a hc).weaken fun o e => by rw [e]; rfl
  | receive a => exact (receive_sim h hx hl a).weaken fun _ _ => trivial
  | condCreate => exact (condCreate_sim h hx hl).weaken fun o e => hcr _ o (by rw [e, lcreate_st]; rfl)
  | condClose a => exact (condClose_sim h hx hl a).weaken fun o e => by rw [e]; rfl
  | wait a => exact (wait_sim h hx hl a).weaken fun o e => by rw [e]; rfl
  | notifyOne a => exact (notifyOne_sim h hx hl a).weaken fun _ _ => trivial
  | notifyAll a => exact (notifyAll_sim h hx hl a).weaken fun _ _ => trivial

theorem oracle_agree (w : World) (c : Call) (x : Ans) (log : List Status) : Agree log (oracle w c x log) := fun k st hk => by
  show (match log[k]? with | some st => st | none => SUCCESS) = st
  rw [hk]

theorem oracle_ok {log : List Status} (h : ∀ st ∈ log, st = SUCCESS) (c : Call) (k : Nat) : (oracle w c x log).q k = SUCCESS := by
  show (match log[k]? with | some st => st | none => SUCCESS) = SUCCESS
  cases hk : log[k]? with
  | none => rfl
  | some st => exact h st (List.mem_of_getElem? hk)

theorem oracle_q {log : List Status} (h : Honest x log) (c : Call) (k : Nat) :
    (oracle w c x log).q k = SUCCESS ∨ (oracle w c x log).q k = ERROR_GENERAL_OUT_OF_MEMORY := by
  show (match log[k]? with | some st => st | none => SUCCESS) = SUCCESS ∨
    (match log[k]? with | some st => st | none => SUCCESS) = ERROR_GENERAL_OUT_OF_MEMORY
  cases hk : log[k]? with
  | none => exact .inl rfl
  | some st => exact (h k st hk).elim .inl fun h => .inr h.1

theorem switch_over (φ : Sys) (f : Nat) (e : Ev) :
    switch (over φ R B K) f e = (over (switch φ f e).1 R B K, (switch φ f e).2) := by
  unfold switch
  have : (over φ R B K).call f = φ.call f := rfl
  rw [this]
  cases φ.call f <;> rfl

theorem switch_fields (φ : Sys) (f : Nat) (e : Ev) : (switch φ f e).1.cur = f ∧ (switch φ f e).1.tree = φ.tree ∧
    (switch φ f e).1.mindex = φ.mindex ∧ (switch φ f e).1.cindex = φ.cindex := by
  unfold switch
  cases φ.call f <;> exact ⟨rfl, rfl, rfl, rfl⟩

/-- One call: over memory it is defined, and does what the call does to lists. -/
theorem step_sim (h : Rel w R B K) (hx : x.Fair) (c : Call) (hc : Args c) :
    ∃ w' R' B' K' it, stepQ w c x = some (w', it) ∧ step (over w.fib R B K) c (oracle w c x w'.log) = (over w'.fib R' B' K', it) ∧
      Rel w' R' B' K' ∧ w'.mem.sl.released = w.mem.sl.released ++ freed B c ∧ w'.runq = w.runq ∧ Honest x w'.log := by
  obtain ⟨w1, R1, B1, K1, st, h1, _, h3, h4, h5, h7, h6⟩ := handler_sim (h.log []) hx rfl c hc
  have hA : Honest x w1.log := h7 fun k st hk => by simp at hk
  have e1 : handler (over w.fib R B K) c (oracle w c x w1.log) = (over w1.fib R1 B1 K1, st) :=
    h6 _ (oracle_agree _ _ _ _) rfl
  have h3' : w1.mem.sl.released = w.mem.sl.released ++ freed B c := h3
  have h4' : w1.runq = w.runq := h4
  have e2 : stepQ w c x = if st ≠ SUCCESS then some (w1, ⟨w.fib.cur, c, .fail st⟩) else nextQ w1 w.fib.cur c := by
    unfold stepQ; rw [h1, Option.bind_some]
  have e3 : step (over w.fib R B K) c (oracle w c x w1.log) =
      if st ≠ SUCCESS then (over w1.fib R1 B1 K1, ⟨w.fib.cur, c, .fail st⟩)
      else match R1 with
        | f :: q =>
          let s := switch { setCall (over w1.fib R1 B1 K1) w.fib.cur c with runq := q } f (w1.fib.ev f)
          (s.1, ⟨w.fib.cur, c, s.2⟩)
        | [] =>
          if w1.fib.idle ≠ 0 then
            let s := switch (setCall (over w1.fib R1 B1 K1) w.fib.cur c) w1.fib.idle ⟨.internal, RESUME_IDLE, 0⟩
            (s.1, ⟨w.fib.cur, c, s.2⟩)
          else (over w1.fib R1 B1 K1, ⟨w.fib.cur, c, .fail ERROR_FIBER_SCHEDULER_EXHAUSTED⟩) := by
    unfold step; rw [e1]; cases R1 <;> rfl
  by_cases hs : st = SUCCESS
  · subst hs
    rw [if_neg (by simp)] at e2 e3
    obtain ⟨n, n1, n2⟩ := h5.mir.qcount (o := .run) (q := w1.runq) rfl rfl
    cases R1 with
    | nil =>
      have hn0 : n = 0#64 := BitVec.eq_of_toNat_eq (by simpa using n2)
      by_cases hi : w1.fib.idle = 0
      · rw [if_neg (by simp [hi])] at e3
        refine ⟨w1, [], B1, K1, _, ?_, e3, h5, h3', h4', hA⟩
        rw [e2]; unfold nextQ
        simp only [n1, Option.bind_some, hn0, hi, ne_eq, not_true_eq_false, if_false]
      · rw [if_pos hi] at e3
        obtain ⟨s1, s2, s3, s4⟩ := switch_fields (setCall w1.fib w.fib.cur c) w1.fib.idle ⟨.internal, RESUME_IDLE, 0⟩
        refine ⟨{ w1 with fib := (switch (setCall w1.fib w.fib.cur c) w1.fib.idle ⟨.internal, RESUME_IDLE, 0⟩).1 }, [], B1, K1,
          ⟨w.fib.cur, c, (switch (setCall w1.fib w.fib.cur c) w1.fib.idle ⟨.internal, RESUME_IDLE, 0⟩).2⟩, ?_, ?_,
          h5.fib (by rw [s1]; exact hi) (by rw [s2]; exact h5.tree) s3 s4, h3', h4', hA⟩
        · rw [e2]; unfold nextQ
          simp only [n1, Option.bind_some, hn0, hi, ne_eq, not_true_eq_false, not_false_eq_true, if_true, if_false]
        · rw [e3]
          have : setCall (over w1.fib [] B1 K1) w.fib.cur c = over (setCall w1.fib w.fib.cur c) [] B1 K1 := rfl
          rw [this, switch_over]
    | cons f q =>
      have hn0 : n ≠ 0#64 := fun hz => by rw [hz] at n2; simp at n2
      obtain ⟨m', p1, p2, p3, p4⟩ := h5.mir.qpop (o := .run) (q := w1.runq) (c := f) (cs := q) rfl rfl 0
      obtain ⟨s1, s2, s3, s4⟩ := switch_fields (setCall w1.fib w.fib.cur c) f (w1.fib.ev f)
      have hl := loc_mem (w := w1) (w' := { w1 with fib := (switch (setCall w1.fib w.fib.cur c) f (w1.fib.ev f)).1, mem := m' })
        (queues_pop p1) rfl (fun _ => rfl) rfl
      refine ⟨{ w1 with fib := (switch (setCall w1.fib w.fib.cur c) f (w1.fib.ev f)).1, mem := m' }, q, B1, K1,
        ⟨w.fib.cur, c, (switch (setCall w1.fib w.fib.cur c) f (w1.fib.ev f)).2⟩, ?_, ?_,
        ⟨p4.congr hl.1 hl.2 cont_run, h5.blk, by rw [s1]; exact p3, by rw [s2]; exact h5.tree,
          fun a ha => by rw [s3]; exact h5.bidx a ha, fun a ha => by rw [s4]; exact h5.cidx a ha⟩, p2.trans h3', h4', hA⟩
      · rw [e2]; unfold nextQ
        simp only [n1, p1, Option.bind_some, Option.map_some, hn0, ne_eq, not_true_eq_false, not_false_eq_true, if_true, if_false]
      · rw [e3]
        have : ({ setCall (over w1.fib (f :: q) B1 K1) w.fib.cur c with runq := q } : Sys) =
          over (setCall w1.fib w.fib.cur c) q B1 K1 := rfl
        dsimp only
        rw [this, switch_over]
  · rw [if_pos hs] at e2 e3
    exact ⟨w1, R1, B1, K1, _, e2, e3, h5, h3', h4', hA⟩

theorem exec_sim : ∀ (cs : List (Call × Ans)) (w : World) (R : List Nat) (B : Nat → Option Box) (K : Nat → Option (List Nat)),
    Rel w R B K → (∀ p ∈ cs, p.2.Fair ∧ Args p.1) →
    ∃ w' R' B' K' tr, execQ w cs = some (w', tr) ∧ exec (over w.fib R B K) (oracles w cs) = (over w'.fib R' B' K', tr) ∧
      Rel w' R' B' K' ∧ w'.runq = w.runq ∧ (oracles w cs).map Prod.fst = cs.map Prod.fst ∧
      ∀ p ∈ oracles w cs, ∀ k, p.2.q k = SUCCESS ∨ p.2.q k = ERROR_GENERAL_OUT_OF_MEMORY
  | [], w, R, B, K, h, _ => ⟨w, R, B, K, [], rfl, rfl, h, rfl, rfl, fun p hp => by cases hp⟩
  | (c, x) :: cs, w, R, B, K, h, hf => by
    obtain ⟨h1, h2⟩ := hf (c, x) (by simp)
    obtain ⟨w1, R1, B1, K1, it, e1, e3, e4, _, e6, e7⟩ := step_sim h h1 c h2
    obtain ⟨w', R', B', K', tr, f1, f3, f4, f5, f6, f7⟩ := exec_sim cs w1 R1 B1 K1 e4 fun p hp => hf p (by simp [hp])
    have ho : oracles w ((c, x) :: cs) = (c, oracle w c x w1.log) :: oracles w1 cs := by
      conv => lhs; unfold oracles
      rw [e1]
    rw [ho]
    refine ⟨w', R', B', K', it :: tr, ?_, ?_, f4, f5.trans e6, ?_, fun p hp k => ?_⟩
    · simp [execQ, e1, f1]
    · simp only [exec, e3, f3]
    · simp [f6]
    · rcases List.mem_cons.1 hp with hp | hp
      · rw [hp]; exact oracle_q e7 c k
      · exact f7 p hp k

theorem init_rel {main idle : Nat} {q l : Addr} (hm : main ≠ 0) (hl : l ≠ 0) :
    Rel (initQ main idle q l) [] (fun _ => none) (fun _ => none) := by
  have h0 : Mir (fun _ => none) (fun _ => none) Queue.Mem.empty (fun _ => none) :=
    ⟨⟨fun _ => none, SList.Maps.empty, ⟨fun o l h => (by cases h), fun o p l h => (by cases h), fun l h => absurd rfl h⟩, fun _ => rfl⟩,
      ⟨fun o l h => (by cases h), fun o p l h => (by cases h), fun l h => absurd rfl h⟩, fun o q h => (by cases h)⟩
  obtain ⟨m', e1, e2, e3⟩ := h0.qcreate (o := .run) (q := q) (l := l) rfl rfl rfl hl rfl
  have hm' : (initQ main idle q l).mem = m' := by simp [initQ, e1]
  refine ⟨?_, fun _ => rfl, hm, fun f hf => by simp [initQ, Fiber.init] at hf, fun a ha => absurd rfl ha, fun a ha => absurd rfl ha⟩
  refine Mir.at (w := initQ main idle q l) (L := put (fun _ => none) .run (some l)) (Q := put (fun _ => none) .run (some q)) ?_ ?_ ?_ ?_
  · rw [hm']
    exact e3.congr (fun _ => rfl) (fun _ => rfl) fun o => by cases o <;> rfl
  · intro o; cases o <;> rfl
  · intro k; rfl
  · intro a _; rfl

/-! ### The release of the scheduler -/

/-- without the owners of `S` -/
def cut {α : Type} (S : List Own) (f : Own → Option α) (o : Own) : Option α := if o ∈ S then none else f o

theorem cut_cons {α : Type} (S : List Own) (f : Own → Option α) (o p : Own) : cut S (put f o none) p = cut (o :: S) f p := by
  unfold cut put
  by_cases h : p = o
  · simp [h]
  · simp [h]

theorem flatMap_eq {α β : Type} {f g : α → List β} : ∀ {l : List α}, (∀ a ∈ l, f a = g a) → l.flatMap f = l.flatMap g
  | [], _ => rfl
  | a :: l, h => by
    rw [List.flatMap_cons, List.flatMap_cons, h a (by simp), flatMap_eq fun b hb => h b (by simp [hb])]

theorem freeBoxes_mir (w : World) : ∀ (as : List Nat) (L Q : Own → Option Addr) (m : Queue.Mem) (c : Own → Option (List Nat)),
    Mir L Q m c → as.Nodup → (∀ a ∈ as, ∃ b ms, w.boxes a = some b ∧ Q (.box a) = some b.queue ∧ c (.box a) = some ms) →
    ∃ m', freeBoxes w as m = some m' ∧ m'.sl.released = m.sl.released ++ as.flatMap (fun a => match c (.box a) with | some ms => ms | none => []) ∧
      Mir (cut (as.map .box) L) (cut (as.map .box) Q) m' (cut (as.map .box) c)
  | [], L, Q, m, c, h, _, _ => ⟨m, rfl, by simp, h.congr (fun _ => by simp [cut]) (fun _ => by simp [cut]) fun _ => by simp [cut]⟩
  | a :: as, L, Q, m, c, h, hn, hb => by
    obtain ⟨b, ms, b1, b2, b3⟩ := hb a (by simp)
    obtain ⟨m1, f1, f2, f3⟩ := h.free b2 b3
    have hne : ∀ k ∈ as, Own.box k ≠ .box a := fun k hk e => by
      cases e; exact (List.nodup_cons.1 hn).1 hk
    obtain ⟨m', g1, g2, g3⟩ := freeBoxes_mir w as _ _ m1 _ f3 (List.nodup_cons.1 hn).2 fun k hk => by
      obtain ⟨b, ms, b1, b2, b3⟩ := hb k (by simp [hk])
      exact ⟨b, ms, b1, by rw [put_ne _ _ (hne k hk)]; exact b2, by rw [put_ne _ _ (hne k hk)]; exact b3⟩
    refine ⟨m', by simp [freeBoxes, b1, f1, g1], ?_, g3.congr (fun p => (cut_cons _ _ _ p).symm) (fun p => (cut_cons _ _ _ p).symm)
      fun p => (cut_cons _ _ _ p).symm⟩
    rw [g2, f2, List.flatMap_cons, b3, List.append_assoc]
    congr 2
    refine flatMap_eq fun k hk => ?_
    rw [put_ne _ _ (hne k hk)]

theorem freeConds_mir (w : World) : ∀ (hs : List Nat) (L Q : Own → Option Addr) (m : Queue.Mem) (c : Own → Option (List Nat)),
    Mir L Q m c → hs.Nodup → (∀ a ∈ hs, ∃ l fs, w.conds a = some l ∧ L (.cond a) = some l ∧ Q (.cond a) = none ∧ c (.cond a) = some fs) →
    ∃ sl, freeConds w x hs m.sl = some sl ∧ sl.released = m.sl.released ∧
      Mir (cut (hs.map .cond) L) Q { m with sl := sl } (cut (hs.map .cond) c)
  | [], L, Q, m, c, h, _, _ => ⟨m.sl, rfl, rfl, h.congr (fun _ => by simp [cut]) (fun _ => rfl) fun _ => by simp [cut]⟩
  | a :: hs, L, Q, m, c, h, hn, hb => by
    obtain ⟨l, fs, b1, b2, b4, b3⟩ := hb a (by simp)
    obtain ⟨sl1, f1, f2, f3⟩ := h.freeW (x := x) b2 b4 b3
    have hne : ∀ k ∈ hs, Own.cond k ≠ .cond a := fun k hk e => by
      cases e; exact (List.nodup_cons.1 hn).1 hk
    obtain ⟨sl, g1, g2, g3⟩ := freeConds_mir w hs _ _ _ _ f3 (List.nodup_cons.1 hn).2 fun k hk => by
      obtain ⟨l, fs, b1, b2, b4, b3⟩ := hb k (by simp [hk])
      exact ⟨l, fs, b1, by rw [put_ne _ _ (hne k hk)]; exact b2, b4, by rw [put_ne _ _ (hne k hk)]; exact b3⟩
    have g1' : freeConds w x hs sl1 = some sl := g1
    exact ⟨sl, by simp [freeConds, b1, f1, g1'], g2.trans f2, g3.congr (fun p => (cut_cons _ _ _ p).symm) (fun _ => rfl)
      fun p => (cut_cons _ _ _ p).symm⟩

theorem dropRun_mir {L Q : Own → Option Addr} {o : Own} {q : Addr} (hq : Q o = some q) :
    ∀ (cs : List Nat) (m : Queue.Mem) (c : Own → Option (List Nat)) (f r : Nat), Mir L Q m c → c o = some cs → cs.length < f →
      ∃ m', dropRun q f m r SUCCESS = some (m', SUCCESS) ∧ m'.sl.released = m.sl.released ∧ Mir L Q m' (put c o (some [])) := by
  intro cs
  induction cs with
  | nil =>
    intro m c f r h hc hf
    obtain ⟨f, rfl⟩ : ∃ g, f = g + 1 := ⟨f - 1, by simp at hf; omega⟩
    obtain ⟨n, n1, n2⟩ := h.qcount hq hc
    have hn0 : n = 0#64 := BitVec.eq_of_toNat_eq (by simpa using n2)
    refine ⟨m, ?_, rfl, h.congr (fun _ => rfl) (fun _ => rfl) fun p => put_self hc p⟩
    simp [dropRun, n1, hn0]
  | cons a cs ih =>
    intro m c f r h hc hf
    obtain ⟨f, rfl⟩ : ∃ g, f = g + 1 := ⟨f - 1, by simp at hf; omega⟩
    obtain ⟨n, n1, n2⟩ := h.qcount hq hc
    have hn0 : n ≠ 0#64 := fun hz => by rw [hz] at n2; simp at n2
    obtain ⟨m1, p1, p2, p3, p4⟩ := h.qpop hq hc r
    obtain ⟨m', e1, e2, e3⟩ := ih m1 _ f a p4 (put_same _ _ _) (by simp at hf; omega)
    refine ⟨m', ?_, e2.trans p2, e3.congr (fun _ => rfl) (fun _ => rfl) fun p => (put_put _ _ _ _ p).symm⟩
    simp [dropRun, n1, hn0, p1, e1]

theorem Mir.nothing {L Q : Own → Option Addr} {m : Queue.Mem} {c : Own → Option (List Nat)} (h : Mir L Q m c) (hL : ∀ o, L o = none)
    (hQ : ∀ o, Q o = none) : (∀ a, m.sl.nodes a = none) ∧ (∀ a, m.sl.lists a = none) ∧ ∀ a, m.queues a = none := by
  obtain ⟨C, hm, hp, e⟩ := h.ex
  have hC : ∀ l, C l = none := fun l => by
    cases hc : C l with
    | none => rfl
    | some cs =>
      obtain ⟨o, ho⟩ := hp.cover l (by simp [hc])
      rw [hL] at ho; cases ho
  refine ⟨fun a => ?_, fun a => hm.lists.2 (hC a), fun a => ?_⟩
  · obtain ⟨L', inv, hL'⟩ := hm.ex
    cases hn : m.sl.nodes a with
    | none => rfl
    | some n =>
      obtain ⟨ys, h1, h2⟩ := inv.owned a n hn
      have := (hL' n.parent _).2 ⟨ys, h1, rfl⟩
      rw [hC] at this; cases this
  · cases hc : m.queues a with
    | none => rfl
    | some l =>
      obtain ⟨o, ho⟩ := h.q.cover a (by simp [hc])
      rw [hQ] at ho; cases ho

theorem teardown_sim (h : Rel w R B K) {as hs : List Nat} (ha : as.Nodup) (hh : hs.Nodup) (ha' : ∀ a, a ∈ as ↔ w.boxes a ≠ none)
    (hh' : ∀ a, a ∈ hs ↔ w.conds a ≠ none) :
    ∃ m, teardownQ w as hs x = some (SUCCESS, m) ∧ m.sl.released = w.mem.sl.released ++ as.flatMap (held B) ∧
      (∀ a, m.sl.nodes a = none) ∧ (∀ a, m.sl.lists a = none) ∧ ∀ a, m.queues a = none := by
  obtain ⟨m1, e1, e2, e3⟩ := freeBoxes_mir w as _ _ _ _ h.mir ha fun a hm => by
    cases hb : w.boxes a with
    | none => exact absurd hb ((ha' a).1 hm)
    | some b =>
      obtain ⟨ms, b1, b2, b3⟩ := h.box_some hb
      exact ⟨b, ms, rfl, b2, b3⟩
  obtain ⟨sl, f1, f2, f3⟩ := freeConds_mir (x := x) w hs _ _ _ _ e3 hh fun a hm => by
    cases hb : w.conds a with
    | none => exact absurd hb ((hh' a).1 hm)
    | some l =>
      obtain ⟨fs, b1, b2⟩ := h.cond_some hb
      exact ⟨l, fs, rfl, by simp [cut, loc, hb], by simp [cut, qloc], by simpa [cut] using b2⟩
  have hq : cut (as.map .box) (qloc w) .run = some w.runq := by simp [cut, qloc]
  have hc : cut (hs.map .cond) (cut (as.map .box) (cont R B K)) .run = some R := by simp [cut, cont]
  obtain ⟨n, n1, n2⟩ := f3.qcount hq hc
  obtain ⟨m2, g1, g2, g3⟩ := dropRun_mir hq R _ _ (n.toNat + 1) 0 f3 hc (by omega)
  obtain ⟨m3, k1, k2, k3⟩ := g3.free hq (put_same _ _ _)
  refine ⟨m3, ?_, ?_, k3.nothing ?_ ?_⟩
  · simp [teardownQ, e1, f1, n1, g1, k1]
  · rw [k2, g2]
    show sl.released ++ [] = _
    rw [List.append_nil, f2, e2]
    congr 1
    refine flatMap_eq fun a _ => ?_
    unfold held
    cases hb : B a <;> simp [cont, hb]
  · intro o
    unfold put cut
    cases o with
    | run => simp
    | box a =>
      by_cases hm : a ∈ as
      · simp [hm]
      · have : w.boxes a = none := by
          cases hb : w.boxes a with
          | none => rfl
          | some b => exact absurd ((ha' a).2 (by simp [hb])) hm
        simp [loc, this]
    | cond a =>
      by_cases hm : a ∈ hs
      · simp [hm]
      · have : w.conds a = none := by
          cases hb : w.conds a with
          | none => rfl
          | some b => exact absurd ((hh' a).2 (by simp [hb])) hm
        simp [loc, this]
  · intro o
    unfold put cut
    cases o with
    | run => simp
    | box a =>
      by_cases hm : a ∈ as
      · simp [hm]
      · have : w.boxes a = none := by
          cases hb : w.boxes a with
          | none => rfl
          | some b => exact absurd ((ha' a).2 (by simp [hb])) hm
        simp [qloc, this]
    | cond a => simp [qloc]

end Rcpr.FibMem
