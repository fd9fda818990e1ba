import Verif.IoProof

/-! That no fiber waiting for a socket is forgotten (lemmas). -/
namespace Rcpr.Io

open Rcpr Epoll

/-- The fiber is registered in the socket, and the kernel is asked for its side. -/
def Noted (w : World) (f : Nat) (sd : Side) (ps : Nat) : Prop :=
  (w.socks ps).reg sd = f ∧ ∃ m, w.armed ps = some m ∧ has m sd.bit = true

structure Wt (w : Sys) (tr : List Item) : Prop where
  wait : ∀ f sd ps, w.call f = some (.block sd ps) → f ∈ w.runq ∨ (readySince f sd ps tr = false ∧ Noted w.io f sd ps)
  one : ∀ f g sd ps, w.call f = some (.block sd ps) → w.call g = some (.block sd ps) → f = g
  nz : ∀ f c, w.call f = some c → f ≠ 0

theorem Wt.init {main idle : Nat} : Wt (init main idle) [] := ⟨nofun, nofun, nofun⟩

/-- A call that does not wait in the kernel leaves the fibers where they are. -/
theorem Wt.keeps {w w1 : Sys} {tr : List Item} (k : Wt w tr) (hc : w.call w.cur = none) (hcall : w1.call = w.call)
    (keep : ∀ f ∈ w.runq, f ∈ w1.runq) (hp : ∀ f sd ps, f ≠ 0 → Noted w.io f sd ps → Noted w1.io f sd ps)
    {c : Call} {n : Next} (hn : ∀ evs, c ≠ .poll evs) : Wt w1 (tr ++ [⟨w.cur, c, n⟩]) where
  wait f sd ps h := by
    rw [hcall] at h
    have hne : w.cur ≠ f := fun h' => by rw [← h', hc] at h; cases h
    rcases k.wait f sd ps h with h1 | ⟨h1, h2⟩
    · exact .inl (keep f h1)
    · refine .inr ⟨?_, hp f sd ps (k.nz f _ h) h2⟩
      rw [readySince_snoc, if_neg hne, h1]
      cases c with
      | poll evs => exact absurd rfl (hn evs)
      | _ => rfl
  one f g sd ps := by rw [hcall]; exact k.one f g sd ps
  nz f c := by rw [hcall]; exact k.nz f c

/-- The same, with the running fiber inside the call. -/
theorem Wt.enters {w w1 : Sys} {tr : List Item} (k : Wt w tr) (hz : w.cur ≠ 0) {c : Call} {n : Next} (m : Wt w1 (tr ++ [⟨w.cur, c, n⟩]))
    (hcall : w1.call = w.call) (hb : ∀ sd ps, c = .block sd ps → Noted w1.io w.cur sd ps ∧ ∀ g, w.call g ≠ some (.block sd ps)) :
    Wt (setCall w1 w.cur c) (tr ++ [⟨w.cur, c, n⟩]) where
  wait f sd ps h := by
    change (if f = w.cur then some c else w1.call f) = _ at h
    split at h
    · next hf =>
      cases h
      subst hf
      exact .inr ⟨by rw [readySince_snoc, if_pos rfl], (hb sd ps rfl).1⟩
    · exact m.wait f sd ps h
  one f g sd ps h1 h2 := by
    change (if f = w.cur then some c else w1.call f) = _ at h1
    change (if g = w.cur then some c else w1.call g) = _ at h2
    rw [hcall] at h1 h2
    split at h1 <;> split at h2
    · next a b => exact a.trans b.symm
    · cases h1; exact absurd h2 ((hb sd ps rfl).2 g)
    · cases h2; exact absurd h1 ((hb sd ps rfl).2 f)
    · exact k.one f g sd ps h1 h2
  nz f d h := by
    change (if f = w.cur then some c else w1.call f) = _ at h
    split at h
    · next hf => exact hf ▸ hz
    · exact m.nz f d h

/-- A fiber is taken from the run queue, or the idle fiber, and runs. -/
theorem arrive_wt {cfg : Cfg} {w : Sys} {tr : List Item} {f : Nat} {q : List Nat} {e : Ev} {o : Oracle} (k : Wt w tr)
    (hq : w.runq = f :: q ∨ (w.runq = [] ∧ q = [])) : Wt (arrive cfg { w with runq := q } f e o).1 tr := by
  have base : ∀ (w1 : Sys), w1.runq = q → w1.call = (fun g => if g = f then none else w.call g) →
      (w1.io = w.io ∨ ∃ sd ps, w.call f = some (.block sd ps) ∧ w1.io = Epoll.resume w.io ⟨f, ps, sd⟩) → Wt w1 tr := by
    intro w1 h1 h2 h3
    have hc : ∀ g c, w1.call g = some c → g ≠ f ∧ w.call g = some c := by
      intro g c h
      rw [h2] at h
      simp only at h
      split at h
      · cases h
      · next hg => exact ⟨hg, h⟩
    refine ⟨fun g sd ps h => ?_, fun g g' sd ps h h' => k.one g g' sd ps (hc g _ h).2 (hc g' _ h').2, fun g c h => k.nz g c (hc g c h).2⟩
    obtain ⟨hg, h⟩ := hc g _ h
    rcases k.wait g sd ps h with h4 | ⟨h4, h5⟩
    · rw [h1]
      rcases hq with hq | ⟨hq, -⟩
      · rw [hq] at h4
        exact .inl ((List.mem_cons.1 h4).resolve_left hg)
      · rw [hq] at h4; cases h4
    · refine .inr ⟨h4, ?_⟩
      rcases h3 with h3 | ⟨sd', ps', h3, h3'⟩
      · rw [h3]; exact h5
      · rw [h3']
        unfold Noted
        rw [resume_reg', if_neg]
        · rw [(resume_reg w.io ⟨f, ps', sd'⟩ 0 .rd).2]
          exact h5
        · rintro ⟨rfl, rfl⟩
          exact hg (k.one g f sd ps h h3)
  unfold arrive
  cases hc : w.call f with
  | none =>
    refine base _ rfl ?_ (.inl rfl)
    funext g
    show w.call g = _
    split
    · next h => rw [h, hc]
    · rfl
  | some c =>
    cases c with
    | block sd ps =>
      have := fun (td : Option Call) => base ({ leave { setEv { w with runq := q } f e with cur := f, call := fun g => if g = f then none else w.call g } f sd ps with todo := td } : Sys)
        rfl rfl (.inr ⟨sd, ps, hc, rfl⟩)
      simp only
      split
      · exact this w.todo
      · split
        · exact this w.todo
        · split
          · exact this w.todo
          · exact this _
    | _ => exact base _ rfl rfl (.inl rfl)

/-- What registering does. -/
theorem block_does {env : Env} {w : World} {a : At} (hz : (w.socks a.ps).reg a.side = 0) :
    (∀ p sd, ((Epoll.block env w a).1.socks p).reg sd = if p = a.ps ∧ sd = a.side then a.fib else (w.socks p).reg sd) ∧
    (((Epoll.block env w a).2 = SUCCESS ∧
      ∀ p, (Epoll.block env w a).1.armed p = if p = a.ps then some (waitMask ((Epoll.block env w a).1.socks p)) else w.armed p) ∨
     ((Epoll.block env w a).2 ≠ SUCCESS ∧ (Epoll.block env w a).1.armed = w.armed)) := by
  rcases a with ⟨f, ps, s⟩
  have he : ERROR_PSOCK_EPOLL_CTL_FAILED ≠ SUCCESS := by decide
  cases s
  all_goals
    simp only [Epoll.block, readBlock, writeBlock, readWait, writeWait, arm, Sock.reg] at hz ⊢
    simp only [hz, ne_eq, not_true, if_false]
    cases hc : env.ctl ps
    · refine ⟨fun p sd => ?_, .inl ⟨rfl, fun p => ?_⟩⟩
      · by_cases hp : p = ps <;> cases sd <;> simp [setSock, setArmed, hp]
      · by_cases hp : p = ps <;> simp [setSock, setArmed, hp]
    · refine ⟨fun p sd => ?_, .inr ⟨he, rfl⟩⟩
      by_cases hp : p = ps <;> cases sd <;> simp [setSock, hp]

/-- Registering keeps what others registered; if it fails, or is taken back, as well. -/
theorem block_noted {env : Env} {w : World} {a : At} (ha : a.fib ≠ 0) (hz : (w.socks a.ps).reg a.side = 0) :
    ((Epoll.block env w a).2 = SUCCESS → Noted (Epoll.block env w a).1 a.fib a.side a.ps) ∧
    (∀ f sd ps, f ≠ 0 → Noted w f sd ps → Noted (Epoll.block env w a).1 f sd ps ∧ Noted (Epoll.resume (Epoll.block env w a).1 a) f sd ps) := by
  obtain ⟨h1, h2⟩ := block_does (env := env) hz
  generalize Epoll.block env w a = r at h1 h2
  have hm : ∀ f sd ps, f ≠ 0 → (r.1.socks ps).reg sd = f → (ps ≠ a.ps ∨ r.2 ≠ SUCCESS → ∃ m, w.armed ps = some m ∧ has m sd.bit = true) →
      ∃ m, r.1.armed ps = some m ∧ has m sd.bit = true := by
    intro f sd ps hf hr hw
    rcases h2 with ⟨h2, h3⟩ | ⟨h2, h3⟩
    · rw [h3]
      by_cases hp : ps = a.ps
      · rw [if_pos hp]
        exact ⟨_, rfl, waitMask_has _ _ (hr ▸ hf)⟩
      · rw [if_neg hp]
        exact hw (.inl hp)
    · rw [h3]
      exact hw (.inr h2)
  refine ⟨fun hs => ?_, fun f sd ps hf hn => ?_⟩
  · have hr : (r.1.socks a.ps).reg a.side = a.fib := by rw [h1]; exact if_pos ⟨rfl, rfl⟩
    refine ⟨hr, hm a.fib a.side a.ps ha hr ?_⟩
    rintro (h | h)
    · exact absurd rfl h
    · exact absurd hs h
  · have hne : ¬ (ps = a.ps ∧ sd = a.side) := by
      rintro ⟨rfl, rfl⟩
      exact hf (hn.1 ▸ hz)
    have hr : (r.1.socks ps).reg sd = f := by rw [h1, if_neg hne]; exact hn.1
    have := hm f sd ps hf hr fun _ => hn.2
    refine ⟨⟨hr, this⟩, ?_, ?_⟩
    · rw [resume_reg', if_neg hne]; exact hr
    · rw [(resume_reg r.1 a 0 .rd).2]; exact this

theorem nodup_fst : ∀ {evs : List (Nat × Mask)}, (evs.map Prod.fst).Nodup → ∀ {e e' : Nat × Mask}, e ∈ evs → e' ∈ evs → e.1 = e'.1 → e = e'
  | [], _, _, _, h, _, _ => nomatch h
  | x :: evs, hnd, e, e', h, h', he => by
    simp only [List.map_cons, List.nodup_cons] at hnd
    rcases List.mem_cons.1 h with h1 | h1 <;> rcases List.mem_cons.1 h' with h2 | h2
    · rw [h1, h2]
    · exact absurd (h1 ▸ he ▸ List.mem_map_of_mem h2) hnd.1
    · exact absurd (h2 ▸ he ▸ List.mem_map_of_mem h1) hnd.1
    · exact nodup_fst hnd.2 h1 h2 he

/-- The pass of the idle fiber. -/
theorem poll_wt {w : Sys} {tr : List Item} {evs : List (Nat × Mask)} {o : Oracle} (iv : Inv w tr) (k : Wt w tr) (hi : w.cur = w.idle)
    (hk : KernelMayReport w.io evs) (hctl : ∀ p, o.ctl p = false) (n : Next) :
    Wt (setCall (pollH w w.cur evs o).1 w.cur (.poll evs)) (tr ++ [⟨w.cur, .poll evs, n⟩]) := by
  obtain ⟨p1, p2, p3, p4⟩ := idleBatch_spec ⟨fun _ => SUCCESS, o.ctl⟩ (fun _ => rfl) hctl evs (report { w.io with runq := [] } evs) hk.1
  have hsocks : (report { w.io with runq := [] } evs).socks = w.io.socks := rfl
  have hrunq : (report { w.io with runq := [] } evs).runq = [] := rfl
  rw [hsocks, hrunq, List.nil_append] at p2
  rw [hsocks] at p3 p4
  generalize hb : idleBatch ⟨fun _ => SUCCESS, o.ctl⟩ (report { w.io with runq := [] } evs) evs = b at p1 p2 p3 p4
  have hp : pollH w w.cur evs o = (wakeAll b.1.runq { w with io := { b.1 with runq := [] } }, SUCCESS) := by
    unfold pollH idlePass runH
    rw [hb]
    simp only
    rw [if_pos]
    rw [(wakeAll_eq _ _).2.2.2.2.1]
    exact hi
  rw [hp]
  obtain ⟨a1, a2, a3, -⟩ := wakeAll_eq b.1.runq { w with io := { b.1 with runq := [] } }
  replace a1 := a1.trans (show w.runq ++ b.1.runq.map Wake.fib = b.1.runq.map Wake.fib by rw [iv.idleq hi, List.nil_append])
  generalize wakeAll b.1.runq { w with io := { b.1 with runq := [] } } = w1 at a1 a2 a3
  have hcall : ∀ f sd ps, (setCall w1 w.cur (.poll evs)).call f = some (.block sd ps) → f ≠ w.cur ∧ w.call f = some (.block sd ps) := by
    intro f sd ps h
    change (if f = w.cur then some (Call.poll evs) else w1.call f) = _ at h
    split at h
    · cases h
    · next hf => exact ⟨hf, a3 ▸ h⟩
  refine ⟨fun f sd ps h => ?_, fun f g sd ps h h' => k.one f g sd ps (hcall f sd ps h).2 (hcall g sd ps h').2, fun f c h => ?_⟩
  rotate_left
  · change (if f = w.cur then _ else w1.call f) = _ at h
    split at h
    · next hf => exact hf ▸ iv.zero
    · exact k.nz f c (a3 ▸ h)
  obtain ⟨hf, h⟩ := hcall f sd ps h
  have hz := k.nz f _ h
  show f ∈ w1.runq ∨ _ ∧ Noted w1.io f sd ps
  rcases k.wait f sd ps h with h1 | ⟨h1, h2, m, h3, h4⟩
  · rw [iv.idleq hi] at h1; cases h1
  · rw [a1, a2, readySince_snoc, if_neg (Ne.symm hf), h1, Bool.false_or]
    by_cases hm : ps ∈ evs.map Prod.fst
    · obtain ⟨e, he, rfl⟩ := List.mem_map.1 hm
      obtain ⟨q1, q2⟩ := p3 e he
      by_cases hh : has e.2 sd.bit = true
      · left
        rw [p2, List.map_flatMap]
        refine List.mem_flatMap.2 ⟨e, he, ?_⟩
        have := wakesOf_mem (s := w.io.socks e.1) hh (h2 ▸ hz)
        rwa [h2] at this
      · have hr : (sockAfter (w.io.socks e.1) e.2).reg sd = f := by rw [reg_after, if_neg hh]; exact h2
        refine .inr ⟨?_, ?_⟩
        · rw [Bool.eq_false_iff]
          intro hrep
          simp only [Item.reports, List.any_eq_true, Bool.and_eq_true, beq_iff_eq] at hrep
          obtain ⟨e', he', h5, h6⟩ := hrep
          have : e' = e := nodup_fst hk.1 he' he h5
          exact hh (this ▸ h6)
        · show (b.1.socks e.1).reg sd = f ∧ ∃ m, b.1.armed e.1 = some m ∧ _
          rw [q1, q2, if_pos]
          · exact ⟨hr, _, rfl, waitMask_has _ _ (hr ▸ hz)⟩
          · intro h0
            rw [h0] at hr
            cases sd <;> exact hz hr.symm
    · obtain ⟨q1, q2⟩ := p4 ps hm
      refine .inr ⟨?_, ?_⟩
      · rw [Bool.eq_false_iff]
        intro hrep
        simp only [Item.reports, List.any_eq_true, Bool.and_eq_true, beq_iff_eq] at hrep
        obtain ⟨e', he', h5, -⟩ := hrep
        exact hm (h5 ▸ List.mem_map_of_mem he')
      · show (b.1.socks ps).reg sd = f ∧ ∃ m, b.1.armed ps = some m ∧ _
        rw [q1, q2]
        refine ⟨h2, m, ?_, h4⟩
        show (if ps ∈ evs.map Prod.fst then _ else w.io.armed ps) = _
        rw [if_neg hm]
        exact h3

theorem step_wt {cfg : Cfg} {w : Sys} {tr : List Item} {c : Call} {o : Oracle} (iv : Inv w tr) (k : Wt w tr) (he : Enabled w c) (ha : Alone w c o) :
    Wt (step cfg w c o).1 (tr ++ [(step cfg w c o).2]) := by
  have nidle : (∀ evs, c ≠ .poll evs) → w.cur ≠ w.idle := fun hn h => by
    obtain ⟨evs, h⟩ := he.idle.1 h
    exact hn evs h
  have hf : ∀ (w1 : Sys) st, (failed w1 w.cur c st).2 = ⟨w.cur, c, .fail st⟩ := fun w1 st => by cases c <;> rfl
  -- after the callback
  have rest : ∀ (w1 : Sys), (∀ n, Wt (setCall w1 w.cur c) (tr ++ [⟨w.cur, c, n⟩])) →
      (w1.idle = 0 → Wt (failed w1 w.cur c ERROR_FIBER_SCHEDULER_EXHAUSTED).1 (tr ++ [⟨w.cur, c, .fail ERROR_FIBER_SCHEDULER_EXHAUSTED⟩])) →
      let r := (match w1.runq with
      | f :: q =>
        let s := arrive cfg { setCall w1 w.cur c with runq := q } f (w1.ev f) o
        (s.1, (⟨w.cur, c, s.2⟩ : Item))
      | [] =>
        if w1.idle ≠ 0 then
          let s := arrive cfg (setCall w1 w.cur c) w1.idle ⟨.internal, Fiber.RESUME_IDLE, 0⟩ o
          (s.1, ⟨w.cur, c, s.2⟩)
        else failed w1 w.cur c ERROR_FIBER_SCHEDULER_EXHAUSTED)
      Wt r.1 (tr ++ [r.2]) := by
    intro w1 m hx
    cases hq : w1.runq with
    | cons f q => exact arrive_wt (m _) (.inl hq)
    | nil =>
      simp only
      split
      · have := arrive_wt (cfg := cfg) (f := w1.idle) (e := ⟨.internal, Fiber.RESUME_IDLE, 0⟩) (o := o)
          (m (arrive cfg (setCall w1 w.cur c) w1.idle ⟨.internal, Fiber.RESUME_IDLE, 0⟩ o).2) (.inr ⟨hq, rfl⟩)
        rw [show ({ setCall w1 w.cur c with runq := [] } : Sys) = setCall w1 w.cur c by rw [← hq]; rfl] at this
        exact this
      · next hz =>
        rw [hf]
        exact hx (Classical.byContradiction hz)
  have iv0 : Inv { w with todo := none } tr := ⟨⟨iv.known, iv.tree, iv.reg, iv.idlecall, iv.last, iv.ps⟩, iv.zero, iv.idleq, iv.curcall⟩
  have k0 : Wt { w with todo := none } tr := ⟨k.wait, k.one, k.nz⟩
  unfold step
  simp only
  split
  · next hb =>
    refine k0.keeps iv.curcall rfl (fun _ h => h) (fun _ _ _ _ h => h) fun evs h => ?_
    rw [h] at hb
    cases hb
  · next hb =>
    by_cases hpoll : ∃ evs, c = .poll evs
    · obtain ⟨evs, rfl⟩ := hpoll
      have hi := he.idle.2 ⟨evs, rfl⟩
      have hp := poll_ok (o := o) iv0 hi (he.kernel evs rfl) (.fail 0)
      rw [if_neg (by show ¬ (pollH _ _ evs o).2 ≠ SUCCESS; rw [hp.1]; simp)]
      refine rest (pollH { w with todo := none } w.cur evs o).1 (fun n => poll_wt iv0 k0 hi (he.kernel evs rfl) (ha.ctl evs rfl) n) fun h0 => ?_
      rw [hp.2.2.1] at h0
      exact absurd (hi.trans h0) iv.zero
    · have hnp : ∀ evs, c ≠ .poll evs := fun evs h => hpoll ⟨evs, h⟩
      have hni := nidle hnp
      by_cases hblk : ∃ sd ps, c = .block sd ps
      · obtain ⟨sd, ps, rfl⟩ := hblk
        have hz : (w.io.socks ps).reg sd = 0 := by simpa [busy] using hb
        obtain ⟨b1, b2⟩ := block_noted (env := ⟨fun _ => SUCCESS, o.ctl⟩) (w := w.io) (a := ⟨w.cur, ps, sd⟩) iv.zero hz
        generalize hr : Epoll.block ⟨fun _ => SUCCESS, o.ctl⟩ w.io ⟨w.cur, ps, sd⟩ = r at b1 b2
        have hh : handler { w with todo := none } (.block sd ps) o = ({ w with todo := none, io := r.1 }, r.2) := by
          simp only [handler, blockH, hr]
        have back : ∀ n, Wt ({ w with todo := none, io := Epoll.resume r.1 ⟨w.cur, ps, sd⟩ } : Sys) (tr ++ [⟨w.cur, .block sd ps, n⟩]) := fun n =>
          k0.keeps (w1 := { w with todo := none, io := Epoll.resume r.1 ⟨w.cur, ps, sd⟩ }) iv.curcall rfl (fun _ h => h)
            (fun f sd' ps' hf h => (b2 f sd' ps' hf h).2) hnp
        rw [hh]
        simp only
        split
        · exact back _
        · next hs =>
          have hs : r.2 = SUCCESS := Classical.byContradiction hs
          refine rest { w with todo := none, io := r.1 } (fun n => ?_) fun _ => back _
          refine k0.enters iv.zero (k0.keeps (w1 := { w with todo := none, io := r.1 }) iv.curcall rfl (fun _ h => h)
            (fun f sd' ps' hf h => (b2 f sd' ps' hf h).1) hnp) rfl fun sd' ps' h => ?_
          cases h
          exact ⟨b1 hs, ha.one sd ps rfl⟩
      · have hq : Queued { w with todo := none } (handler { w with todo := none } c o).1 :=
          handler_queued ⟨hni, iv.zero⟩ iv.tree he.known (fun sd ps h => hblk ⟨sd, ps, h⟩) hnp
        generalize handler { w with todo := none } c o = r at hq
        have hf' : ∀ st, failed r.1 w.cur c st = (r.1, ⟨w.cur, c, .fail st⟩) := fun st => by
          cases c <;> first | rfl | exact absurd ⟨_, _, rfl⟩ hblk
        have m0 : ∀ n, Wt r.1 (tr ++ [⟨w.cur, c, n⟩]) := fun n =>
          k0.keeps iv.curcall hq.call hq.keep (fun _ _ _ _ h => by rw [hq.io]; exact h) hnp
        split
        · rw [hf']
          exact m0 _
        · refine rest r.1 (fun n => ?_) fun _ => by rw [hf']; exact m0 _
          exact k0.enters iv.zero (m0 n) hq.call fun sd ps h => absurd ⟨sd, ps, h⟩ hblk

theorem Hist.wt {cfg : Cfg} {P : Sys → Call → Oracle → Prop} {main idle : Nat} {w : Sys} {tr : List Item} (h : Hist cfg P main idle w tr)
    (hP : ∀ w c o, P w c o → Alone w c o) : Wt w tr := by
  induction h with
  | init _ _ => exact .init
  | step c o h he hp ih => exact step_wt h.inv ih he (hP _ _ _ hp)

/-! ### The call a fiber is inside of -/

theorem inside_snoc (f : Nat) (tr : List Item) (i : Item) :
    inside f (tr ++ [i]) = if i.runs f then none else if i.who = f then some i.call else inside f tr := by simp [inside]

theorem arrive_call (cfg : Cfg) (w : Sys) (f : Nat) (e : Ev) (o : Oracle) (y : Nat) (c : Call) (g : Nat) :
    (arrive cfg w f e o).1.call g = if (⟨y, c, (arrive cfg w f e o).2⟩ : Item).runs g then none else w.call g := by
  unfold arrive
  cases hc : w.call f with
  | none =>
    show w.call g = if (f == g) = true then none else w.call g
    split
    · next h => rw [← beq_iff_eq.1 h, hc]
    · rfl
  | some d =>
    have key : (if g = f then none else w.call g) = if (f == g) = true then none else w.call g := by
      by_cases h : g = f
      · simp [h]
      · simp [h, Ne.symm h]
    cases d with
    | block sd ps =>
      simp only
      split
      · exact key
      · split
        · exact key
        · split <;> exact key
    | _ => exact key

theorem handler_call {w : Sys} {tr : List Item} {c : Call} {o : Oracle} (iv : Inv w tr) (he : Enabled w c) : (handler w c o).1.call = w.call := by
  by_cases hpoll : ∃ evs, c = .poll evs
  · obtain ⟨evs, rfl⟩ := hpoll
    exact (poll_ok (o := o) iv (he.idle.2 ⟨evs, rfl⟩) (he.kernel evs rfl) (.fail 0)).2.2.2.2.1
  · by_cases hblk : ∃ sd ps, c = .block sd ps
    · obtain ⟨sd, ps, rfl⟩ := hblk
      rfl
    · refine (handler_queued ⟨fun h => ?_, iv.zero⟩ iv.tree he.known (fun sd ps h => hblk ⟨sd, ps, h⟩) fun evs h => hpoll ⟨evs, h⟩).call
      exact hpoll (he.idle.1 h)

theorem step_call {cfg : Cfg} {w : Sys} {tr : List Item} {c : Call} {o : Oracle} (iv : Inv w tr) (he : Enabled w c) (f : Nat) :
    (step cfg w c o).1.call f = if (step cfg w c o).2.runs f then none else if w.cur = f then some c else w.call f := by
  have iv0 : Inv { w with todo := none } tr := ⟨⟨iv.known, iv.tree, iv.reg, iv.idlecall, iv.last, iv.ps⟩, iv.zero, iv.idleq, iv.curcall⟩
  have he0 : Enabled { w with todo := none } c := ⟨nofun, he.idle, he.kernel, he.known⟩
  have hh := handler_call (o := o) iv0 he0
  have stay : ∀ st, w.call f = if (⟨w.cur, c, .fail st⟩ : Item).runs f then none else if w.cur = f then some c else w.call f := by
    intro st
    by_cases h : w.cur = f
    · rw [← h, iv.curcall, if_pos (by simp [Item.runs])]
    · simp [Item.runs, h]
  have hset : ∀ (w1 : Sys), w1.call = w.call → (setCall w1 w.cur c).call f = if w.cur = f then some c else w.call f := by
    intro w1 h1
    show (if f = w.cur then some c else w1.call f) = _
    rw [h1]
    by_cases h : f = w.cur
    · simp [h]
    · simp [h, Ne.symm h]
  have hfail : ∀ (w1 : Sys) st, w1.call = w.call → (failed w1 w.cur c st).1.call f = if (failed w1 w.cur c st).2.runs f then none else if w.cur = f then some c else w.call f := by
    intro w1 st h1
    have e1 : (failed w1 w.cur c st).2 = ⟨w.cur, c, .fail st⟩ := by cases c <;> rfl
    have e2 : (failed w1 w.cur c st).1.call = w1.call := by cases c <;> rfl
    rw [e1, e2, h1]
    exact stay st
  unfold step
  simp only
  split
  · exact stay _
  · generalize handler { w with todo := none } c o = r at hh
    split
    · exact hfail _ _ hh
    · split
      · rw [← hset r.1 hh]; exact arrive_call cfg _ _ _ o w.cur c f
      · split
        · rw [← hset r.1 hh]; exact arrive_call cfg _ _ _ o w.cur c f
        · exact hfail _ _ hh

theorem Hist.inside {cfg : Cfg} {P : Sys → Call → Oracle → Prop} {main idle : Nat} {w : Sys} {tr : List Item} (h : Hist cfg P main idle w tr) (f : Nat) :
    w.call f = inside f tr := by
  induction h with
  | init _ _ => rfl
  | @step w tr c o h he hp ih =>
    obtain ⟨h1, h2⟩ := step_who cfg w c o
    rw [step_call h.inv he, inside_snoc, h1, h2, ih]

end Rcpr.Io
