import Verif.NetProof

/-! Fibers over sockets: the invariant of executions (lemmas). -/
namespace Rcpr.Net

open Rcpr Epoll Io

variable {S : Setup} {P : Plan}

theorem waitMask_only (s : Sock) (sd : Side) (h : has (waitMask s) sd.bit = true) : s.reg sd ≠ 0 := by
  intro h0
  revert h
  rcases s with ⟨r, t⟩
  by_cases hr : r = 0 <;> by_cases ht : t = 0 <;> cases sd <;> simp only [Sock.reg] at h0 <;> simp_all [waitMask, Side.bit] <;> decide

/-- What a pass of the idle fiber does. -/
theorem poll_does {w : Io.Sys} {tr : List Item} {evs : List (Nat × Mask)} (iv : Inv w tr) (hi : w.cur = w.idle) (hk : KernelMayReport w.io evs)
    (harm : ∀ p m sd, w.io.armed p = some m → has m sd.bit = true → (w.io.socks p).reg sd ≠ 0) :
    ∃ w1, pollH w w.cur evs plenty = (w1, SUCCESS) ∧ w1.idle = w.idle ∧ w1.todo = w.todo ∧ w1.call = w.call ∧ w1.runq.Nodup ∧
      (∀ f ∈ w1.runq, (w1.ev f).disc = .psock ∧ ∃ sd, ∃ e ∈ evs, has e.2 sd.bit = true ∧ w.call f = some (.block sd e.1) ∧ (w1.io.socks e.1).reg sd = 0) ∧
      (∀ sd, ∀ e ∈ evs, has e.2 sd.bit = true → (w.io.socks e.1).reg sd ≠ 0 → (w.io.socks e.1).reg sd ∈ w1.runq) ∧
      (∀ p m sd, w1.io.armed p = some m → has m sd.bit = true → (w1.io.socks p).reg sd ≠ 0) := by
  obtain ⟨p1, p2, p3, p4⟩ := idleBatch_spec ⟨fun _ => SUCCESS, plenty.ctl⟩ (fun _ => rfl) (fun _ => rfl) evs (report { w.io with runq := [] } evs) hk.1
  have hsocks : (report { w.io with runq := [] } evs).socks = w.io.socks := rfl
  have hrunq : (report { w.io with runq := [] } evs).runq = [] := rfl
  rw [hsocks, hrunq, List.nil_append] at p2
  rw [hsocks] at p3 p4
  generalize hb : idleBatch ⟨fun _ => SUCCESS, plenty.ctl⟩ (report { w.io with runq := [] } evs) evs = b at p1 p2 p3 p4
  have hp : pollH w w.cur evs plenty = (wakeAll b.1.runq { w with io := { b.1 with runq := [] } }, SUCCESS) := by
    unfold pollH idlePass runH
    rw [hb]
    simp only
    rw [if_pos]
    rw [(wakeAll_eq _ _).2.2.2.2.1]
    exact hi
  obtain ⟨a1, a2, a3, -, a5, -, -, a8, -, a10⟩ := wakeAll_eq b.1.runq { w with io := { b.1 with runq := [] } }
  replace a1 := a1.trans (show w.runq ++ b.1.runq.map Wake.fib = b.1.runq.map Wake.fib by rw [iv.idleq hi, List.nil_append])
  have hnd : (b.1.runq.map Wake.fib).Nodup := p2 ▸ wakes_nodup iv.inj hk.1
  refine ⟨_, hp, a5, a8, a3, a1 ▸ hnd, fun f hf => ?_, fun sd e he hh hz => ?_, fun p m sd => ?_⟩
  · rw [a1] at hf
    obtain ⟨k, hk', rfl⟩ := List.mem_map.1 hf
    refine ⟨by rw [a10 hnd k hk'], ?_⟩
    rw [p2] at hk'
    obtain ⟨e, he, hke⟩ := List.mem_flatMap.1 hk'
    obtain ⟨sd, h1, h2, h3, -⟩ := mem_wakesOf hke
    refine ⟨sd, e, he, h1, h3 ▸ iv.reg sd e.1 h2, ?_⟩
    rw [a2]
    show (b.1.socks e.1).reg sd = 0
    rw [(p3 e he).1, reg_after, if_pos h1]
  · rw [a1, p2, List.map_flatMap]
    exact List.mem_flatMap.2 ⟨e, he, wakesOf_mem hh hz⟩
  · rw [a2]
    show b.1.armed p = some m → _ → (b.1.socks p).reg sd ≠ 0
    intro hm hh
    by_cases hmem : p ∈ evs.map Prod.fst
    · obtain ⟨e, he, rfl⟩ := List.mem_map.1 hmem
      obtain ⟨q1, q2⟩ := p3 e he
      rw [q2] at hm
      split at hm
      · cases hm
        rw [q1]
        exact waitMask_only _ _ hh
      · have : (report { w.io with runq := [] } evs).armed e.1 = some 0#32 := if_pos hmem
        rw [this] at hm
        cases hm
        cases sd <;> exact absurd hh (by decide)
    · obtain ⟨q1, q2⟩ := p4 p hmem
      rw [q1]
      rw [q2] at hm
      have : (report { w.io with runq := [] } evs).armed p = w.io.armed p := if_neg hmem
      rw [this] at hm
      exact harm p m sd hm hh

/-- The invariant. -/
structure Good (S : Setup) (P : Plan) (s : Net) (tr : List Item) : Prop where
  hist : Hist S.cfg Alone S.main S.idle s.sys tr
  core : Core S s.sys s.buf s.log (Live S s.log) (acts s.sys)
  pipes : Pipes S P s.log s.buf
  sees : Sees S P s.log
  bad : s.bad = false

theorem Good.init (L : Legal S P) : Good S P (start S) [] where
  hist := .init L.main.1 L.main.2
  core := by
    have ha : acts (start S).sys = [S.main] := if_neg L.main.2
    rw [ha]
    refine ⟨rfl, rfl, by simp, ?_, nofun, nofun, ?_, nofun⟩
    · intro f hf
      rw [List.mem_singleton] at hf
      exact hf ▸ ⟨L.main.2, .inl rfl⟩
    · rintro f (h | ⟨g, i, h, -⟩) hf
      · exact absurd (List.mem_singleton.2 h) hf
      · exact absurd h (Nat.not_lt_zero _)
  pipes := ⟨fun _ => rfl, fun _ => Nat.zero_le _⟩
  sees := .nil
  bad := rfl

/-- One yield. -/
theorem Good.yield (L : Legal S P) {s : Net} {tr : List Item} (hh : Hist S.cfg Alone S.main S.idle s.sys tr) (hp : Pipes S P s.log s.buf)
    (hs : Sees S P s.log) (hbad : s.bad = false) {c : Call} {w1 : Io.Sys} (en : Enabled s.sys c) (al : Alone s.sys c plenty)
    (hb : busy { s.sys with todo := none } c = false) (hd : handler { s.sys with todo := none } c plenty = (w1, SUCCESS))
    (k : Core S (setCall w1 s.sys.cur c) s.buf s.log (Live S s.log) w1.runq) :
    (∃ tr', Good S P (yield S s c) tr') ∧ acts (yield S s c).sys = w1.runq ∧ ((yield S s c).sys.cur = S.idle ↔ w1.runq = []) := by
  obtain ⟨h1, h2, h3, h4⟩ := k.land (cfg := S.cfg) hb hd L.idle
  refine ⟨⟨_, .step c plenty hh en al, h1, hp, hs, ?_⟩, h3, h4⟩
  show (s.bad || errs _) = false
  rw [hbad, h2]
  rfl

/-- The running fiber can move bytes. -/
def Hot (S : Setup) (s : Net) : Prop := ∃ sd p, Waits S s.log s.sys.cur sd p ∧ Ready S s.buf sd p

/-- What a move does: the running fiber sees something, or ends or waits, or the idle fiber wakes one that can go on. -/
inductive Does (S : Setup) (s s' : Net) : Prop
  | sees (l : List Atom) : l ≠ [] → s.sys.cur ≠ S.idle → s'.log = push s.log s.sys.cur l → Does S s s'
  | leaves : s'.log = s.log → s.sys.cur ≠ S.idle → ¬ Hot S s → acts s'.sys = s.sys.runq → Does S s s'
  | wakes : s'.log = s.log → s.sys.cur = S.idle → s'.sys.cur ≠ S.idle → Hot S s' → Does S s s'

theorem mask_cases {m : Mask} (h0 : m ≠ 0#32) (h : m &&& ~~~(EPOLLIN ||| EPOLLOUT) = 0#32) : ∃ sd : Side, has m sd.bit = true := by
  by_cases h1 : has m EPOLLIN = true
  · exact ⟨.rd, h1⟩
  · by_cases h2 : has m EPOLLOUT = true
    · exact ⟨.wr, h2⟩
    · exfalso
      apply h0
      simp only [has, bne_iff_ne, ne_eq, Decidable.not_not] at h1 h2
      have h3 : m &&& (EPOLLIN ||| EPOLLOUT) = 0#32 := by
        rw [BitVec.and_or_distrib_left, h1, h2]; rfl
      have h4 : m = (m &&& (EPOLLIN ||| EPOLLOUT)) ||| (m &&& ~~~(EPOLLIN ||| EPOLLOUT)) := by
        ext i hi
        simp only [BitVec.getElem_or, BitVec.getElem_and, BitVec.getElem_not]
        cases m[i] <;> cases (EPOLLIN[i] || EPOLLOUT[i]) <;> rfl
      rw [h4, h3, h]
      rfl

theorem mask_sub {e m : Mask} (h : e &&& ~~~m = 0#32) {b : Mask} (hb : has e b = true) : has m b = true := by
  simp only [has, bne_iff_ne, ne_eq] at hb ⊢
  intro h0
  apply hb
  ext i hi
  have h1 : (e &&& ~~~m)[i] = (0#32)[i] := by rw [h]
  have h2 : (m &&& b)[i] = (0#32)[i] := by rw [h0]
  simp only [BitVec.getElem_and, BitVec.getElem_not, BitVec.getElem_zero] at h1 h2 ⊢
  revert h1 h2
  cases e[i] <;> cases m[i] <;> cases b[i] <;> simp

/-- One fact for each socket reported. -/
theorem reportable_spec {s : Net} {evs : List (Nat × Mask)} (h : reportable S s evs = true) : evs ≠ [] ∧ (evs.map Prod.fst).Nodup ∧
    ∀ e ∈ evs, e.2 ≠ 0#32 ∧ e.2 &&& ~~~(EPOLLIN ||| EPOLLOUT) = 0#32 ∧ (∃ m, s.sys.io.armed e.1 = some m ∧ e.2 &&& ~~~m = 0#32) ∧
      (has e.2 EPOLLIN = true → s.buf e.1 ≠ []) ∧ (has e.2 EPOLLOUT = true → (s.buf (S.peer e.1)).length < S.low (S.peer e.1)) := by
  unfold reportable at h
  simp only [Bool.and_eq_true, Bool.not_eq_true', List.isEmpty_eq_false_iff, decide_eq_true_eq, List.all_eq_true] at h
  obtain ⟨⟨h1, h2⟩, h3⟩ := h
  refine ⟨h1, h2, fun e he => ?_⟩
  obtain ⟨⟨⟨⟨a, b⟩, c⟩, d⟩, f⟩ := h3 e he
  refine ⟨by simpa using a, by simpa using b, ?_, fun hh => ?_, fun hh => ?_⟩
  · split at c
    · next m hm => exact ⟨m, hm, by simpa using c⟩
    · cases c
  · simpa [hh] using d
  · simpa [hh] using f

theorem move_good (L : Legal S P) {s s' : Net} {tr : List Item} {n : Nat} {evs : List (Nat × Mask)} (g : Good S P s tr) (h : move S s n evs = some s') :
    (∃ tr', Good S P s' tr') ∧ Does S s s' := by
  obtain ⟨hh, k, hp, hs, hbad⟩ := g
  have iv := hh.inv
  have ht := k.todo
  have hi := k.idle
  have hw : ({ s.sys with todo := none } : Io.Sys) = s.sys := by rw [← ht]
  unfold move at h
  rw [ht] at h
  simp only at h
  by_cases hc : s.sys.cur = s.sys.idle
  · rw [if_pos hc] at h
    split at h
    · next hr =>
      cases h
      obtain ⟨r1, r2, r3⟩ := reportable_spec hr
      have hcur : s.sys.cur = S.idle := hc.trans hi
      have ha : acts s.sys = [] := if_pos hc
      rw [ha] at k
      have hkm : KernelMayReport s.sys.io evs := by
        refine ⟨r2, fun e he => ?_⟩
        obtain ⟨a, -, ⟨m, b, d⟩, -⟩ := r3 e he
        refine ⟨a, m, b, fun h0 => a ?_, ?_⟩
        · rw [h0, BitVec.not_zero, BitVec.and_allOnes] at d; exact d
        · ext i hi
          have h1 : (e.2 &&& ~~~m)[i] = (0#32)[i] := by rw [d]
          simp only [BitVec.getElem_and, BitVec.getElem_not, BitVec.getElem_zero, BitVec.getElem_or] at h1 ⊢
          revert h1
          cases e.2[i] <;> cases m[i] <;> simp
      obtain ⟨w1, p1, p2, p3, p4, p5, p6, p7, p8⟩ := poll_does iv hc hkm k.armed
      have mid : Core S (setCall w1 s.sys.cur (.poll evs)) s.buf s.log (Live S s.log) w1.runq := by
        have hne : ∀ f sd p, s.sys.call f = some (.block sd p) → f ≠ s.sys.cur := fun f sd p h e => by
          rw [e, iv.curcall] at h; cases h
        have hwait : ∀ f sd p, s.sys.call f = some (.block sd p) → f ≠ S.idle ∧ Live S s.log f ∧ Waits S s.log f sd p := fun f sd p h => by
          rcases k.call f _ h with ⟨-, _, h'⟩ | h'
          · cases h'
          · exact h'
        refine ⟨p2.trans hi, p3.trans ht, p5, fun f hf => ?_, fun f hf sd p hcall => ?_, fun f c hcall => ?_, fun f hl hf => ?_, p8⟩
        · obtain ⟨-, sd, e, -, -, h1, -⟩ := p6 f hf
          have := hwait f sd _ h1
          exact ⟨this.1, this.2.1⟩
        · obtain ⟨h0, sd', e, he, h1, h2, h3⟩ := p6 f hf
          change (if f = s.sys.cur then _ else w1.call f) = _ at hcall
          rw [if_neg (hne f _ _ h2), p4, h2] at hcall
          cases hcall
          refine ⟨h0, ?_, h3⟩
          obtain ⟨-, -, -, a, b⟩ := r3 e he
          cases sd
          · exact a h1
          · exact Nat.lt_of_lt_of_le (b h1) (L.low _)
        · change (if f = s.sys.cur then _ else w1.call f) = _ at hcall
          split at hcall
          · next hf => cases hcall; exact .inl ⟨hf.trans hcur, _, rfl⟩
          · next hf =>
            rw [p4] at hcall
            refine (k.call f c hcall).imp id fun ⟨h1, h2, h3⟩ => ⟨h1, h2, ?_⟩
            cases c with
            | run => cases h3
            | add g => cases h3
            | stop =>
              refine ⟨fun h4 => ?_, h3.2⟩
              obtain ⟨-, sd, e, -, -, h5, -⟩ := p6 f h4
              rw [hcall] at h5; cases h5
            | _ => exact h3
        · have h1 := k.rest f hl (by simp)
          have hf : f ≠ s.sys.cur := by
            rintro rfl
            rw [iv.curcall] at h1
            rcases h1 with h1 | ⟨_, _, h1⟩ <;> cases h1
          show (if f = s.sys.cur then _ else w1.call f) = _ ∨ ∃ sd p, (if f = s.sys.cur then _ else w1.call f) = _
          rw [if_neg hf, p4]
          exact h1
      have := Good.yield L hh hp hs hbad (c := .poll evs) (w1 := w1)
        ⟨fun d hd => (by rw [ht] at hd; cases hd), ⟨fun _ => ⟨evs, rfl⟩, fun _ => hc⟩, fun evs' h => (by cases h; exact hkm),
          fun f h => by rcases h with h | h | h <;> cases h⟩
        ⟨nofun, fun _ _ _ => rfl⟩ rfl (by rw [hw]; exact p1) mid
      refine ⟨this.1, ?_⟩
      cases hq : w1.runq with
      | nil =>
        exfalso
        obtain ⟨e, he⟩ := List.exists_mem_of_ne_nil _ r1
        obtain ⟨a, b, ⟨m, c, d⟩, -⟩ := r3 e he
        obtain ⟨sd, hsd⟩ := mask_cases a b
        have := p7 sd e he hsd (k.armed e.1 m sd c (mask_sub d hsd))
        rw [hq] at this; cases this
      | cons f q =>
        obtain ⟨⟨_, g'⟩, t1, t2⟩ := this
        have hne : (yield S s (.poll evs)).sys.cur ≠ S.idle := fun h => by have := t2.1 h; rw [hq] at this; cases this
        have hidle : (yield S s (.poll evs)).sys.idle = S.idle := g'.core.idle
        have hf : (yield S s (.poll evs)).sys.cur = f := by
          unfold acts at t1
          rw [hidle, if_neg hne, hq] at t1
          exact (List.cons.inj t1).1
        refine .wakes rfl hcur hne ?_
        obtain ⟨-, sd, e, he, h1, h2, -⟩ := p6 f (hq ▸ List.mem_cons_self ..)
        refine ⟨sd, e.1, ?_, ?_⟩
        · rw [hf]
          rcases k.call f _ h2 with ⟨-, _, h'⟩ | ⟨-, -, h'⟩
          · cases h'
          · exact h'
        · obtain ⟨-, -, -, a, b⟩ := r3 e he
          show Ready S s.buf sd e.1
          cases sd
          · exact a h1
          · exact Nat.lt_of_lt_of_le (b h1) (L.low _)
    · cases h
  · rw [if_neg hc] at h
    have hcur : s.sys.cur ≠ S.idle := fun h' => hc (h'.trans hi.symm)
    have ha : acts s.sys = s.sys.cur :: s.sys.runq := if_neg hc
    have k' := k
    rw [ha] at k'
    have hl : Live S s.log s.sys.cur := (k'.live _ (List.mem_cons_self ..)).2
    have hcc := iv.curcall
    have en : ∀ c, (∀ evs, c ≠ .poll evs) → (∀ f, c = .add f ∨ c = .quiesce f ∨ c = .terminate f → f ≠ s.sys.idle ∧ f ≠ 0) → Enabled s.sys c := fun c h1 h2 =>
      ⟨fun d hd => (by rw [ht] at hd; cases hd), ⟨fun h' => absurd h' hc, fun ⟨evs, h'⟩ => absurd h' (h1 evs)⟩, fun evs h' => absurd h' (h1 evs), h2⟩
    -- a wait
    have wait : ∀ sd p, Waits S s.log s.sys.cur sd p → ¬ Ready S s.buf sd p →
        (∃ tr', Good S P (yield S s (.block sd p)) tr') ∧ Does S s (yield S s (.block sd p)) := by
      intro sd p hwt hnr
      have other : ∀ g sd' p', s.sys.call g = some (.block sd' p') → ¬ (p' = p ∧ sd' = sd) := by
        rintro g sd' p' h1 ⟨rfl, rfl⟩
        rcases k.call g _ h1 with ⟨-, _, h'⟩ | ⟨-, -, h'⟩
        · cases h'
        · have := Waits.one L h' hwt
          rw [this, hcc] at h1; cases h1
      have hz : (s.sys.io.socks p).reg sd = 0 := by
        apply Classical.byContradiction
        intro h0
        exact other _ sd p (iv.reg sd p h0) ⟨rfl, rfl⟩
      have hok : (Epoll.block ⟨fun _ => SUCCESS, plenty.ctl⟩ s.sys.io ⟨s.sys.cur, p, sd⟩).2 = SUCCESS := by
        cases sd <;> simp only [Sock.reg] at hz <;> simp [Epoll.block, readBlock, writeBlock, readWait, writeWait, arm, plenty, hz]
      obtain ⟨b1, b2⟩ := block_does (env := ⟨fun _ => SUCCESS, plenty.ctl⟩) (w := s.sys.io) (a := ⟨s.sys.cur, p, sd⟩) hz
      have b2 := (b2.resolve_right fun h' => h'.1 hok).2
      generalize hr : Epoll.block ⟨fun _ => SUCCESS, plenty.ctl⟩ s.sys.io ⟨s.sys.cur, p, sd⟩ = r at hok b1 b2
      have hhd : handler { s.sys with todo := none } (.block sd p) plenty = ({ s.sys with todo := none, io := r.1 }, SUCCESS) := by
        simp only [handler, blockH, hr, hok]
      have mid : Core S (setCall { s.sys with todo := none, io := r.1 } s.sys.cur (.block sd p)) s.buf s.log (Live S s.log) s.sys.runq := by
        refine k'.leaves (w1 := { s.sys with todo := none, io := r.1 }) rfl rfl rfl rfl (fun f hf sd' p' h1 => ?_) (fun p' m sd' h1 h2 => ?_) (.inr ⟨sd, p, rfl, hwt⟩)
        · show (r.1.socks p').reg sd' = 0
          rw [b1, if_neg (other f sd' p' h1)]
          exact (k'.ev f (List.mem_cons_of_mem _ hf) sd' p' h1).2.2
        · have h1 : r.1.armed p' = some m := h1
          show (r.1.socks p').reg sd' ≠ 0
          rw [b2] at h1
          split at h1
          · cases h1
            exact waitMask_only _ _ h2
          · next hne =>
            rw [b1, if_neg fun h' => hne h'.1]
            exact k.armed p' m sd' h1 h2
      have := Good.yield L hh hp hs hbad (c := .block sd p) (en _ nofun fun f h' => by rcases h' with h' | h' | h' <;> cases h')
        ⟨fun sd' p' h1 g h2 => by cases h1; exact other g _ _ h2 ⟨rfl, rfl⟩, nofun⟩ (by simpa [busy] using hz) hhd mid
      refine ⟨this.1, .leaves rfl hcur ?_ this.2.1⟩
      rintro ⟨sd', p', h1, h2⟩
      have : sd' = sd ∧ p' = p := by
        cases sd <;> cases sd' <;> obtain ⟨_, h1, -⟩ := h1 <;> obtain ⟨_, h3, -⟩ := hwt <;> rw [h1] at h3 <;> cases h3 <;> exact ⟨rfl, rfl⟩
      obtain ⟨rfl, rfl⟩ := this
      exact hnr h2
    -- something is seen, nothing else happens
    have seen : ∀ (l : List Atom) (buf' : Nat → List Byte), l ≠ [] → Sees S P (push s.log s.sys.cur l) → Pipes S P (push s.log s.sys.cur l) buf' →
        (∀ f, Live S (push s.log s.sys.cur l) f → Live S s.log f) →
        (∀ g sd p, g ≠ s.sys.cur → Waits S s.log g sd p → Ready S s.buf sd p → Ready S buf' sd p) →
        (∃ tr', Good S P { s with buf := buf', log := push s.log s.sys.cur l } tr') ∧ Does S s { s with buf := buf', log := push s.log s.sys.cur l } := by
      intro l buf' hne h1 h2 h3 h4
      have e : Live S (push s.log s.sys.cur l) = Live S s.log := by
        funext f
        exact propext ⟨h3 f, fun h' => h'.mono (push_le _ _ _)⟩
      refine ⟨⟨tr, hh, ?_, h2, h1, hbad⟩, .sees l hne hcur rfl⟩
      show Core S s.sys buf' (push s.log s.sys.cur l) (Live S (push s.log s.sys.cur l)) (acts s.sys)
      rw [e]
      exact k.push hcc l h4
    have eload : ∀ l, note s l = { s with log := push s.log s.sys.cur l } := fun l => by
      unfold note push
      congr
    have seenDone : ¬ (∃ g, S.prog s.sys.cur (results (s.log s.sys.cur)) = some (.spawn g)) → May S P s.log s.sys.cur .done →
        (∃ tr', Good S P (note s [.done]) tr') ∧ Does S s (note s [.done]) := by
      intro h1 h2
      obtain ⟨d1, d2⟩ := done_one hs hp h2
      rw [eload]
      exact seen [.done] s.buf (by simp) d1 d2 (fun f hf => (live_done.1 hf).resolve_right fun h' => h1 ⟨f, h'⟩) fun _ _ _ _ _ h' => h'
    cases ho : S.prog s.sys.cur (results (s.log s.sys.cur)) with
    | none =>
      rw [ho] at h
      cases h
      have mid : Core S (setCall (stopH { s.sys with todo := none } s.sys.cur).1 s.sys.cur .stop) s.buf s.log (Live S s.log) s.sys.runq :=
        k'.leaves (w1 := (stopH { s.sys with todo := none } s.sys.cur).1) rfl rfl rfl rfl
          (fun f hf sd p h1 => (k'.ev f (List.mem_cons_of_mem _ hf) sd p h1).2.2) k.armed (.inl ⟨rfl, ho⟩)
      have := Good.yield L hh hp hs hbad (c := .stop) (en _ nofun fun f h' => by rcases h' with h' | h' | h' <;> cases h') ⟨nofun, nofun⟩ rfl
        (w1 := (stopH { s.sys with todo := none } s.sys.cur).1) rfl mid
      refine ⟨this.1, .leaves rfl hcur ?_ this.2.1⟩
      rintro ⟨sd, p, h1, -⟩
      cases sd <;> obtain ⟨_, h1, -⟩ := h1 <;> rw [ho] at h1 <;> cases h1
    | some op =>
      rw [ho] at h
      cases op with
      | read p m =>
        simp only at h
        split at h
        · next hlt =>
          split at h
          · next hb =>
            cases h
            exact wait .rd p ⟨m, ho, hlt⟩ fun h' => h' hb
          · split at h
            · next hb hk =>
              cases h
              obtain ⟨r1, r2⟩ := read_many L n hs hp hl ho (by omega) hk.2.2
              have := seen (((s.buf p).take n).map .byte) (upd s.buf p ((s.buf p).drop n)) ?_ r1 r2 (fun f hf => live_bytes hf) ?_
              · have e : note (setBuf s p ((s.buf p).drop n)) (((s.buf p).take n).map .byte) =
                    { s with buf := upd s.buf p ((s.buf p).drop n), log := push s.log s.sys.cur (((s.buf p).take n).map .byte) } := by
                  unfold note setBuf push upd
                  congr
                rw [e]
                exact this
              · intro h0
                rw [List.map_eq_nil_iff, List.take_eq_nil_iff] at h0
                rcases h0 with h0 | h0
                · omega
                · exact hb h0
              · intro g sd q hg hwt hr
                cases sd with
                | rd =>
                  have : q ≠ p := fun e => hg (Waits.one L (e ▸ hwt) (sd := .rd) (p := p) (B := s.log) (g := s.sys.cur) ⟨m, ho, hlt⟩)
                  show upd _ _ _ q ≠ []
                  rw [upd_ne _ _ this]
                  exact hr
                | wr =>
                  show (upd _ _ _ (S.peer q)).length < _
                  have hr : (s.buf (S.peer q)).length < S.cap (S.peer q) := hr
                  unfold upd
                  split
                  · next e => rw [← e, List.length_drop]; omega
                  · exact hr
            · cases h
        · next hlt =>
          cases h
          exact seenDone (by rw [ho]; rintro ⟨_, h'⟩; cases h') ⟨hl, by rw [ho]; simp only [offers, if_neg hlt]⟩
      | write p d =>
        simp only at h
        split at h
        · next hlt =>
          split at h
          · next hb =>
            cases h
            exact wait .wr p ⟨d, ho, hlt⟩ fun h' => Nat.not_lt.2 hb h'
          · split at h
            · next hb hk =>
              cases h
              obtain ⟨r1, r2⟩ := write_many L n hs hp hl ho (by omega) (by omega)
              have := seen (((d.drop (part (s.log s.sys.cur)).length).take n).map .byte)
                (upd s.buf (S.peer p) (s.buf (S.peer p) ++ (d.drop (part (s.log s.sys.cur)).length).take n)) ?_ r1 r2 (fun f hf => live_bytes hf) ?_
              · have e : note (setBuf s (S.peer p) (s.buf (S.peer p) ++ (d.drop (part (s.log s.sys.cur)).length).take n)) (((d.drop (part (s.log s.sys.cur)).length).take n).map .byte) =
                    { s with buf := upd s.buf (S.peer p) (s.buf (S.peer p) ++ (d.drop (part (s.log s.sys.cur)).length).take n), log := push s.log s.sys.cur (((d.drop (part (s.log s.sys.cur)).length).take n).map .byte) } := by
                  unfold note setBuf push upd
                  congr
                rw [e]
                exact this
              · intro h0
                rw [List.map_eq_nil_iff, List.take_eq_nil_iff] at h0
                rcases h0 with h0 | h0
                · omega
                · rw [List.drop_eq_nil_iff] at h0; omega
              · intro g sd q hg hwt hr
                cases sd with
                | rd =>
                  have hr : s.buf q ≠ [] := hr
                  show upd _ _ _ q ≠ []
                  unfold upd
                  split
                  · next e => rw [← e]; simp [hr]
                  · exact hr
                | wr =>
                  have : S.peer q ≠ S.peer p := fun e => by
                    have e : q = p := by rw [← L.peer q, e, L.peer]
                    exact hg (Waits.one L (e ▸ hwt) (sd := .wr) (p := p) (B := s.log) (g := s.sys.cur) ⟨d, ho, hlt⟩)
                  show (upd _ _ _ (S.peer q)).length < _
                  rw [upd_ne _ _ this]
                  exact hr
            · cases h
        · next hlt =>
          cases h
          exact seenDone (by rw [ho]; rintro ⟨_, h'⟩; cases h') ⟨hl, by rw [ho]; simp only [offers, if_neg hlt]⟩
      | spawn g =>
        simp only at h
        cases h
        obtain ⟨-, s1, s2, s3⟩ := L.spawn _ _ g ho
        have hfr := fresh L ho
        obtain ⟨d1, d2⟩ := done_one hs hp ⟨hl, by rw [ho]; rfl⟩
        have hgc : s.sys.call g = none := by
          cases hx : s.sys.call g with
          | none => rfl
          | some c => rcases k.call g c hx with ⟨h', -⟩ | ⟨-, h', -⟩ <;> contradiction
        have hgq : g ∉ s.sys.cur :: s.sys.runq := fun h' => hfr (k'.live g h').2
        have hgcur : g ≠ s.sys.cur := fun h' => hgq (h' ▸ List.mem_cons_self ..)
        have hcq := (List.nodup_cons.1 k'.nodup)
        rw [eload]
        have hhd : handler { s.sys with todo := none } (.add g) plenty =
            ((front (back { s.sys with todo := none, tree := Fiber.insertFib g s.sys.tree } g ⟨.internal, Fiber.RESUME_ADD_FIBER, 0⟩ SUCCESS).1 s.sys.cur ⟨.internal, Fiber.RESUME_ADD_FIBER, 0⟩ SUCCESS).1, SUCCESS) := by
          rfl
        have hq' : (front (back { s.sys with todo := none, tree := Fiber.insertFib g s.sys.tree } g ⟨.internal, Fiber.RESUME_ADD_FIBER, 0⟩ SUCCESS).1 s.sys.cur ⟨.internal, Fiber.RESUME_ADD_FIBER, 0⟩ SUCCESS).1.runq = s.sys.cur :: (s.sys.runq ++ [g]) := by
          rw [back_some rfl, front_some rfl]; rfl
        have mid : Core S (setCall (front (back { s.sys with todo := none, tree := Fiber.insertFib g s.sys.tree } g ⟨.internal, Fiber.RESUME_ADD_FIBER, 0⟩ SUCCESS).1 s.sys.cur ⟨.internal, Fiber.RESUME_ADD_FIBER, 0⟩ SUCCESS).1 s.sys.cur (.add g))
            s.buf (push s.log s.sys.cur [.done]) (Live S (push s.log s.sys.cur [.done])) (s.sys.cur :: (s.sys.runq ++ [g])) := by
          have e : ∀ f, Live S (push s.log s.sys.cur [.done]) f ↔ Live S s.log f ∨ f = g := fun f => by
            rw [live_done, ho]
            simp [eq_comm]
          refine (k'.push hcc [.done] (buf' := s.buf) (fun _ _ _ _ _ h' => h')).yields ?_ ?_ ?_ ?_ ?_ ?_ ?_ ?_ (.inr ⟨g, rfl⟩)
          · rw [back_some rfl, front_some rfl]; rfl
          · rw [back_some rfl, front_some rfl]; rfl
          · rw [back_some rfl, front_some rfl]; rfl
          · rw [back_some rfl, front_some rfl]; rfl
          · intro f hf
            have h1 : f ≠ g := fun e => hgq (List.mem_cons_of_mem _ (e ▸ hf))
            have h2 : f ≠ s.sys.cur := fun e => hcq.1 (e ▸ hf)
            rw [back_some rfl, front_some rfl]
            show (if f = s.sys.cur then _ else if f = g then _ else s.sys.ev f) = _
            rw [if_neg h2, if_neg h1]
          · rw [List.nodup_cons, List.nodup_append]
            refine ⟨?_, hcq.2, by simp, ?_⟩
            · simp [hcq.1, Ne.symm hgcur]
            · intro a ha b hb
              rw [List.mem_singleton] at hb
              rintro rfl
              exact hgq (List.mem_cons_of_mem _ (hb ▸ ha))
          · intro f
            rw [e]
            constructor
            · rintro (h' | rfl)
              · exact .inl h'
              · exact .inr ⟨by simp, s2, hgc⟩
            · rintro (h' | ⟨h1, -, -⟩)
              · exact .inl h'
              · simp only [List.mem_cons, List.mem_append, List.not_mem_nil, or_false] at h1
                rcases h1 with h1 | h1 | h1
                · exact .inl (h1 ▸ hl)
                · exact .inl (k'.live f (List.mem_cons_of_mem _ h1)).2
                · exact .inr h1
          · intro f
            constructor
            · intro h1
              have h2 := h1
              simp only [List.mem_cons, List.mem_append, List.not_mem_nil, or_false] at h2
              rcases h2 with h2 | h2 | h2
              · exact .inl h2
              · exact .inr (.inl h2)
              · subst h2
                exact .inr (.inr ⟨h1, s2, hgc, hfr⟩)
            · rintro (h1 | h1 | h1)
              · simp [h1]
              · simp [h1]
              · exact h1.1
        have := Good.yield L (s := { s with log := push s.log s.sys.cur [.done] }) hh d2 d1 hbad (c := .add g)
          (en _ nofun fun f h' => by rcases h' with h' | h' | h' <;> cases h'; exact ⟨fun h'' => s2 (h''.trans hi), s3⟩)
          ⟨nofun, nofun⟩ rfl hhd (by rw [hq']; exact mid)
        exact ⟨this.1, .sees [.done] (by simp) hcur rfl⟩
      | pause =>
        simp only at h
        cases h
        obtain ⟨d1, d2⟩ := done_one hs hp ⟨hl, by rw [ho]; rfl⟩
        have hcq := (List.nodup_cons.1 k'.nodup)
        rw [eload]
        have hhd : handler { s.sys with todo := none } .run plenty =
            ((back { s.sys with todo := none } s.sys.cur ⟨.internal, Fiber.RESUME_RUN, 0⟩ SUCCESS).1, SUCCESS) := by
          simp only [handler, runH, plenty]
          rw [if_neg hc, back_some rfl]
        have hq' : (back { s.sys with todo := none } s.sys.cur ⟨.internal, Fiber.RESUME_RUN, 0⟩ SUCCESS).1.runq = s.sys.runq ++ [s.sys.cur] := by
          rw [back_some rfl]; rfl
        have mid : Core S (setCall (back { s.sys with todo := none } s.sys.cur ⟨.internal, Fiber.RESUME_RUN, 0⟩ SUCCESS).1 s.sys.cur .run)
            s.buf (push s.log s.sys.cur [.done]) (Live S (push s.log s.sys.cur [.done])) (s.sys.runq ++ [s.sys.cur]) := by
          have e : ∀ f, Live S (push s.log s.sys.cur [.done]) f ↔ Live S s.log f := fun f => by
            rw [live_done, ho]
            simp
          refine (k'.push hcc [.done] (buf' := s.buf) (fun _ _ _ _ _ h' => h')).yields ?_ ?_ ?_ ?_ ?_ ?_ ?_ ?_ (.inl rfl)
          · rw [back_some rfl]; rfl
          · rw [back_some rfl]; rfl
          · rw [back_some rfl]; rfl
          · rw [back_some rfl]; rfl
          · intro f hf
            have h2 : f ≠ s.sys.cur := fun e => hcq.1 (e ▸ hf)
            rw [back_some rfl]
            show (if f = s.sys.cur then _ else s.sys.ev f) = _
            rw [if_neg h2]
          · rw [List.nodup_append]
            refine ⟨hcq.2, by simp, ?_⟩
            intro a ha b hb
            rw [List.mem_singleton] at hb
            rintro rfl
            exact hcq.1 (hb ▸ ha)
          · intro f
            rw [e]
            constructor
            · exact .inl
            · rintro (h' | ⟨h1, -, -⟩)
              · exact h'
              · simp only [List.mem_append, List.mem_cons, List.not_mem_nil, or_false] at h1
                rcases h1 with h1 | h1
                · exact (k'.live f (List.mem_cons_of_mem _ h1)).2
                · exact h1 ▸ hl
          · intro f
            constructor
            · intro h1
              simp only [List.mem_append, List.mem_cons, List.not_mem_nil, or_false] at h1
              rcases h1 with h1 | h1
              · exact .inr (.inl h1)
              · exact .inl h1
            · rintro (h1 | h1 | h1)
              · simp [h1]
              · simp [h1]
              · exact h1.1
        have := Good.yield L (s := { s with log := push s.log s.sys.cur [.done] }) hh d2 d1 hbad (c := .run)
          (en _ nofun fun f h' => by rcases h' with h' | h' | h' <;> cases h') ⟨nofun, nofun⟩ rfl hhd (by rw [hq']; exact mid)
        exact ⟨this.1, .sees [.done] (by simp) hcur rfl⟩

theorem Run.good (L : Legal S P) {n : Nat} {s : Net} (h : Run S n s) : ∃ tr, Good S P s tr := by
  induction h with
  | start => exact ⟨[], .init L⟩
  | move k evs _ hm ih =>
    obtain ⟨tr, g⟩ := ih
    exact (move_good L g hm).1

end Rcpr.Net
