import Verif.EchoStopProof

/-! Executions of the echo server. Helper lemmas for `Verif.Props.EchoStop`. -/
namespace Rcpr.EchoStop

open Io (Did Ev)
open Fiber (FState RESUME_IDLE RESUME_RUN RESUME_ADD_FIBER MGMT_FIBER_ADD MGMT_FIBER_STOP MGMT_QUIESCE_REQUEST
  MGMT_TERMINATION_REQUEST MGMT_REQUEST_RESULT insertFib)

/-- before the main fiber reads for the first time -/
theorem start_facts {S : Ids} (hS : S.Ok) : (start S).bad = false ∧ (start S).fate = .runs ∧ (start S).cur = S.main ∧
    (start S).runq = [S.mgr, S.listen] ∧ (start S).pc = (fun _ => .new) ∧ (start S).mgmt = 0 ∧
    (start S).tree = insertFib S.listen [S.mgr] ∧ (start S).free = (fun _ => false) ∧ (start S).sock = (fun _ => false) ∧
    (start S).quiesce = false ∧ (start S).got = 0 ∧ (∀ f, f ≠ S.main → (start S).st f = .created) := by
  obtain ⟨z1, z2, z3, z4⟩ := hS
  simp [start, mainAdd, blank, addH, back, front, report, pop, enter, insertFib, upd]
  grind

theorem start_mem {S : Ids} (f : Nat) : f ∈ insertFib S.listen [S.mgr] ↔ f = S.mgr ∨ f = S.listen := by
  simp only [insertFib]; grind

theorem start_nodup {S : Ids} (hS : S.Ok) : (insertFib S.listen [S.mgr]).Nodup := by
  have := hS.mgr
  simp only [insertFib]; grind

/-- the main fiber waits, the management fiber is entered -/
def boot (S : Ids) : Srv := pop S (at_ (start S) .rd)

theorem boot_facts {S : Ids} (hS : S.Ok) : (boot S).bad = false ∧ (boot S).fate = .runs ∧ (boot S).cur = S.mgr ∧
    (boot S).runq = [S.listen] ∧ (boot S).pc = upd (fun _ => .new) S.main .rd ∧ (boot S).mgmt = 0 ∧
    (boot S).tree = insertFib S.listen [S.mgr] ∧ (boot S).free = (fun _ => false) ∧ (boot S).sock = (fun _ => false) ∧
    (boot S).quiesce = false ∧ (boot S).got = 0 ∧ (∀ f, f ≠ S.main → f ≠ S.mgr → (boot S).st f = .created) ∧ (boot S).st S.mgr = .running := by
  obtain ⟨h1, h2, h3, h4, h5, h6, h7, h8, h9, h10, h11, h12⟩ := start_facts hS
  have z := hS.main.1.symm
  simp only [boot, pop, at_, h4, enter, h1, h2, h3, h5, h6, h7, h8, h9, h10, h11]
  simp [upd, z]
  grind

/-- the listen fiber is entered -/
theorem boot_ok {S : Ids} (hS : S.Ok) : J S (mgrMove S (boot S)) S.listen ∧ (mgrMove S (boot S)).cur = S.listen ∧
    (mgrMove S (boot S)).fate = .runs := by
  obtain ⟨h1, h2, h3, h4, h5, h6, h7, h8, h9, h10, h11, h12, h13⟩ := boot_facts hS
  have z1 := hS.zero
  have z2 := hS.main
  have z3 := hS.mgr
  have z4 := hS.listen
  have hp : (boot S).pc S.mgr = .new := by rw [h5]; simp only [upd]; grind
  have hpl : upd (boot S).pc S.mgr .recv S.listen = .new := by rw [h5]; simp only [upd]; grind
  have hev : ∀ f : Nat, upd (boot S).ev f ((boot S).ev f) = (boot S).ev := by intro f; funext g; simp only [upd]; grind
  have e : mgrMove S (boot S) = { boot S with
      runq := [], pc := upd (boot S).pc S.mgr .recv, cur := S.listen, mgmt := S.mgr, st := upd (boot S).st S.listen .running } := by
    have hmv : mgrMove S (boot S) = pop S (at_ (recvH (boot S) (boot S).cur) .recv) := by
      simp [mgrMove, h3, hp]
    rw [hmv]
    simp only [recvH, at_, h3]
    unfold pop
    simp only [h4, enter, hev, hpl, h1, h8, if_true]
    simp
  rw [e]
  refine ⟨?_, rfl, h2⟩
  have hmem := @start_mem S
  constructor
  all_goals simp only [h1, h5, h7, h8, h9, h10, h11, Asked, Told, hmem]
  case tnodup => exact start_nodup hS
  case last => intro a b h; simp at h
  case rq => simp only [upd]; grind
  all_goals (try simp only [upd])
  all_goals grind

theorem run_ok {S : Ids} (hS : S.Ok) {s : Srv} (h : Run S (Calm S) s) :
    s = start S ∨ s = boot S ∨ (J S s s.cur ∧ s.cur ≠ 0 ∧ s.fate = .runs) ∨
      (∃ t, Run S (Calm S) t ∧ J S t S.main ∧ t.cur = S.main ∧ s = { t with fate := .ended } ∧ ∀ f ∈ t.tree, f = S.mgr) := by
  induction h with
  | start => exact .inl rfl
  | @move s s' c hr hp hm ih =>
    rcases ih with rfl | rfl | ⟨j, hz, hf⟩ | ⟨t, _, _, _, rfl, _⟩
    · obtain ⟨h1, h2, h3, h4, h5, h6, h7, h8, h9, h10, h11, h12⟩ := start_facts hS
      have z := hS.main
      have hl := hp.late
      simp [move, h1, h2, h3, z, mainMove, h5] at hm
      split at hm
      · exact absurd (by rw [h5]) (hl rfl)
      · exact .inr (.inl (Option.some.inj hm).symm)
      · simp at hm
    · obtain ⟨h1, h2, h3, h4, _⟩ := boot_facts hS
      have z := hS.main
      have z' := hS.mgr
      obtain ⟨j, hc, hf⟩ := boot_ok hS
      simp [move, h1, h2, h3, z.1.symm, z'.2] at hm
      rw [← hm]
      exact .inr (.inr (.inl ⟨hc ▸ j, hc ▸ hS.zero.2.2.1, hf⟩))
    · rcases move_ok hS j hz hp hm with ⟨j', hz', hf'⟩ | ⟨hcm, he, ht⟩
      · exact .inr (.inr (.inl ⟨j', hz', hf'.trans hf⟩))
      · refine .inr (.inr (.inr ⟨s, hr, ?_⟩))
        exact ⟨hcm ▸ j, hcm, he, ht⟩
    · simp [move] at hm

/-! ### While a request is being answered -/

theorem no_conn {S : Ids} (hS : S.Ok) {s : Srv} (j : J S s S.listen) (hl : S.listen ∈ s.tree) (hg : s.got ≠ 0)
    (ha : (s.pc S.listen = .rd ∧ (s.ev S.listen).disc = .psock) ∨ s.pc S.listen = .new ∨ s.pc S.listen = .add) : s.quiesce = true := by
  have hml := hS.mgr.1
  have h3 := j.got
  have h2 : s.got ≠ 2 := by
    intro h
    by_cases ha' : Asked S s S.listen
    · have := j.r2a h ha' _ hl hml.symm; have := j.stop _ hl; simp only [Told] at *; grind
    · exact hml.symm (j.r2b h ha' _ hl)
  have h : s.got = 1 := by omega
  by_cases ha' : Asked S s S.listen
  · have := j.r1a h ha' hl; have := j.stop _ hl; simp only [Told] at *; grind
  · have := (j.r1b h ha').1 hl; have := j.stop _ hl; grind

/-- what a move of a fiber other than `main` and the idle fiber leaves before the next fiber runs, after the first value -/
structure Sh (S : Ids) (s t : Srv) : Prop where
  runq : t.runq = s.runq ∨ (s.cur ≠ S.mgr ∧ t.runq = S.mgr :: s.runq)
  pc : ∀ f, f ≠ s.cur → t.pc f = s.pc f
  got : t.got = s.got
  sock : ∀ f, t.sock f = true → s.sock f = true ∨ f = S.listen
  tree : ∀ f, f ∈ t.tree → f ∈ s.tree
  treem : ∀ f, f ∈ s.tree → s.pc f ≠ .stop → f ∈ t.tree
  ev : ∀ f, f ≠ S.mgr → t.ev f = s.ev f
  free : ∀ f, s.free f = true → t.free f = true
  mgr : s.cur = S.mgr → ∀ f, s.ev S.mgr = ⟨.mgmt, MGMT_FIBER_STOP, f⟩ → f ∈ s.tree → t.free f = true
  ends : ∀ f, f = s.cur → f ≠ S.listen → f ≠ S.mgr → (s.ev f).disc ≠ .psock → s.pc f = .rd ∨ s.pc f = .wr → t.pc f = .stop

theorem sh_finish {S : Ids} (hS : S.Ok) {s : Srv} (j : J S s s.cur) (hm : s.cur ≠ S.mgr) {k : Nat → Bool} {b : Bool}
    (hk : ∀ f, k f = true → s.sock f = true ∨ f = S.listen) :
    Sh S s (at_ (stopH { s with sock := k, bad := b } s.cur) .stop) := by
  have hm0 := j.mgmt.2 hm
  have h0 := hS.zero.2.1
  constructor
  all_goals simp only [at_, stopH, report, front, hm0, upd]
  all_goals simp only [ne_eq, h0, not_false_eq_true, if_true, upd]
  all_goals grind

theorem sh_at {S : Ids} {s : Srv} {p : Pc} {q : Bool} {k : Nat → Bool} (hm : s.cur ≠ S.mgr)
    (hk : ∀ f, k f = true → s.sock f = true ∨ f = S.listen)
    (he : s.cur = S.listen ∨ (s.ev s.cur).disc = .psock ∨ s.pc s.cur = .new ∨ s.pc s.cur = .add) :
    Sh S s (at_ { s with quiesce := q, sock := k } p) := by
  constructor
  all_goals simp only [at_, upd]
  all_goals grind

theorem accept_sh {S : Ids} (hS : S.Ok) {s s' : Srv} {c : Choice} {k : Nat → Bool} (j : J S s S.listen) (hcur : s.cur = S.listen)
    (hl : S.listen ∈ s.tree) (hg : s.got ≠ 0) (hk : ∀ f, k f = true → s.sock f = true ∨ f = S.listen)
    (ha : (s.pc S.listen = .rd ∧ (s.ev S.listen).disc = .psock) ∨ s.pc S.listen = .new ∨ s.pc S.listen = .add)
    (h : acceptMove S { s with sock := k } c = some s') : ∃ t, s' = pop S t ∧ Sh S s t := by
  have hml := hS.mgr.1
  have hq := no_conn hS j hl hg ha
  have hm : s.cur ≠ S.mgr := hcur ▸ hml.symm
  unfold acceptMove at h
  split at h
  · simp [hq] at h
  · exact ⟨_, (Option.some.inj h).symm, sh_at (q := s.quiesce) hm hk (.inl hcur)⟩
  · refine ⟨_, (Option.some.inj h).symm, ?_⟩
    refine sh_finish hS (hcur ▸ j) hm ?_
    intro f; simp only [upd]; have := hk f; grind
  · simp at h

theorem move_sh {S : Ids} (hS : S.Ok) {s s' : Srv} {c : Choice} (j : J S s s.cur) (hz : s.cur ≠ 0) (hg : s.got ≠ 0)
    (hnm : s.cur ≠ S.main) (hni : s.cur ≠ S.idle) (h : move S s c = some s') : ∃ t, s' = pop S t ∧ Sh S s t := by
  have hc : s.cur ∈ s.tree := by have := j.cur; grind
  have hml := hS.mgr.1
  unfold move at h
  split at h
  · simp at h
  · split at h
    · rename_i e
      have j := e ▸ j
      rw [← Option.some.inj h]
      rcases j.ev rfl with ⟨f, he⟩ | ⟨f, he, hf, hp⟩
      · have e' : mgrMove S s = pop S { s with mgmt := S.mgr, pc := upd s.pc S.mgr .recv } := by
          have hd : MGMT_FIBER_ADD ≠ MGMT_FIBER_STOP := by decide
          simp [mgrMove, e, he, hd, at_, recvH]
        refine ⟨_, e', ?_⟩
        have hd : MGMT_FIBER_ADD ≠ MGMT_FIBER_STOP := by decide
        constructor
        all_goals simp only [upd]
        all_goals grind
      · have e' : mgrMove S s = pop S { s with
            tree := s.tree.erase f, free := upd s.free f true, mgmt := S.mgr, pc := upd s.pc S.mgr .recv } := by
          simp [mgrMove, e, he, at_, recvH, j.mgrpc, hf, j.tfree f hf]
        refine ⟨_, e', ?_⟩
        have := j.tfree
        constructor
        case tree => intro g hg; exact List.mem_of_mem_erase hg
        case treem => intro g hg hg'; exact (List.mem_erase_of_ne (by grind)).2 hg
        all_goals simp only [upd]
        all_goals grind
    · rename_i hm
      split at h
      · rename_i hcur
        have j' := hcur ▸ j
        have hl := hcur ▸ hc
        have hpc := j'.pcs _ hl hml.symm
        have hns : s.pc S.listen ≠ .stop := fun h => hml.symm (j'.stop _ hl h).1
        have hw := j'.lwr
        unfold listenMove at h
        simp only [hcur] at h
        split at h
        · rename_i hp
          split at h
          · refine ⟨_, (Option.some.inj h).symm, ?_⟩
            exact sh_finish (k := s.sock) (b := s.bad) hS j hm (fun f h => .inl h)
          · refine accept_sh (k := upd s.sock S.listen true) hS j' hcur hl hg ?_ (.inr (.inl hp)) h
            intro f; simp only [upd]; grind
        · rename_i hp
          split at h
          · rename_i he
            exact accept_sh (k := s.sock) hS j' hcur hl hg (fun f h => .inl h) (.inl ⟨hp, he⟩) h
          · split at h
            · refine ⟨_, (Option.some.inj h).symm, ?_⟩
              have := sh_at (S := S) (p := .rd) (q := true) hm (k := s.sock) (fun f h => .inl h) (.inl hcur)
              rw [show ({ s with quiesce := true, cur := S.listen } : Srv) = { s with quiesce := true, sock := s.sock } by rw [← hcur]]
              exact this
            · refine ⟨_, (Option.some.inj h).symm, ?_⟩
              rw [← hcur]
              refine sh_finish hS j hm ?_
              intro f; simp only [upd]; grind
        · rename_i h1 h2
          exact accept_sh (k := s.sock) hS j' hcur hl hg (fun f h => .inl h) (by grind) h
      · rename_i hnl
        have hpc := j.pcs _ hc hm
        have hns : s.pc s.cur ≠ .stop := fun h => hm (j.stop _ hc h).1
        unfold echoMove at h
        split at h
        · refine ⟨_, (Option.some.inj h).symm, ?_⟩
          refine sh_finish hS j hm ?_
          intro f; simp only [upd]; grind
        · rename_i hne
          have he : s.cur = S.listen ∨ (s.ev s.cur).disc = .psock ∨ s.pc s.cur = .new ∨ s.pc s.cur = .add := by grind
          split at h
          · exact ⟨_, (Option.some.inj h).symm, sh_at (q := s.quiesce) hm (k := s.sock) (fun f h => .inl h) he⟩
          · exact ⟨_, (Option.some.inj h).symm, sh_at (q := s.quiesce) hm (k := s.sock) (fun f h => .inl h) he⟩
          · refine ⟨_, (Option.some.inj h).symm, ?_⟩
            refine sh_finish hS j hm ?_
            intro f; simp only [upd]; grind
          · simp at h

/-- how much can happen before the main fiber runs -/
def mu (S : Ids) (s : Srv) : Nat := 2 * s.runq.length + (if s.cur = S.mgr then 1 else 2)

theorem mu_le (S : Ids) (s : Srv) : mu S s ≤ 2 * s.runq.length + 2 := by unfold mu; split <;> omega

theorem pop_pc (S : Ids) (t : Srv) : (pop S t).pc = t.pc := by unfold pop; split <;> rfl
theorem pop_got (S : Ids) (t : Srv) : (pop S t).got = t.got := by unfold pop; split <;> rfl
theorem pop_sock (S : Ids) (t : Srv) : (pop S t).sock = t.sock := by unfold pop; split <;> rfl
theorem pop_tree (S : Ids) (t : Srv) : (pop S t).tree = t.tree := by unfold pop; split <;> rfl
theorem pop_free (S : Ids) (t : Srv) : (pop S t).free = t.free := by unfold pop; split <;> rfl

theorem pop_queue {S : Ids} {t : Srv} (h : t.runq ≠ []) : (pop S t).cur :: (pop S t).runq = t.runq := by
  unfold pop
  split
  · rename_i f q hq; simp [enter, hq]
  · contradiction

theorem pop_ev {S : Ids} {t : Srv} (h : t.runq ≠ []) : (pop S t).ev = t.ev := by
  unfold pop
  split
  · rename_i f q hq; simp only [enter]; funext g; simp only [upd]; grind
  · contradiction

/-- one move while the main fiber waits for the result of a request -/
theorem asked_step {S : Ids} (hS : S.Ok) {s s' : Srv} {c : Choice} (j : J S s s.cur) (hz : s.cur ≠ 0) (ha : Asking S s)
    (h : move S s c = some s') : ∃ t, s' = pop S t ∧ Sh S s t ∧ t.runq ≠ [] ∧ s'.pc S.main = .ask ∧ s'.got = s.got ∧ mu S s' < mu S s := by
  have hg : s.got ≠ 0 := by intro h; have := j.r0 h; have := ha.1; grind
  obtain ⟨q, hq⟩ := j.rq ha
  have hi : s.cur ≠ S.idle := by intro h; have := j.idlec h; simp [this] at hq
  obtain ⟨t, rfl, sh⟩ := move_sh hS j hz hg ha.2 hi h
  have hne : t.runq ≠ [] := by rcases sh.runq with h | h <;> simp [h, hq]
  refine ⟨t, rfl, sh, hne, ?_, ?_, ?_⟩
  · rw [pop_pc, sh.pc _ ha.2.symm]; exact ha.1
  · rw [pop_got]; exact sh.got
  · have hp := pop_queue (S := S) hne
    have hl : (pop S t).runq.length + 1 = t.runq.length := by rw [← hp]; rfl
    have hmq := j.mgrq
    unfold mu
    rcases sh.runq with h | ⟨hm, h⟩
    · have : (pop S t).cur ∈ s.runq := by rw [← h, ← hp]; simp
      have hc : (pop S t).cur ≠ S.mgr := by grind
      rw [h] at hl
      rw [if_neg hc]
      split <;> omega
    · rw [h] at hp
      have hc := (List.cons.inj hp).1
      rw [h] at hl
      simp only [List.length_cons] at hl
      rw [if_pos hc, if_neg hm]
      omega

theorem asking_j {S : Ids} (hS : S.Ok) {s : Srv} (h : Run S (Calm S) s) (ha : Asking S s) : J S s s.cur ∧ s.cur ≠ 0 ∧ s.fate = .runs := by
  rcases run_ok hS h with rfl | rfl | h | ⟨t, _, _, hc, rfl, _⟩
  · exact absurd (start_facts hS).2.2.1 ha.2
  · have := ha.1; rw [(boot_facts hS).2.2.2.2.1] at this; simp [upd] at this
  · exact h
  · exact absurd hc ha.2

theorem aside_run {S : Ids} {P : Srv → Choice → Prop} {n : Nat} {s s' : Srv} (hr : Run S P s) (h : Aside S P n s s') : Run S P s' := by
  induction h with
  | refl => exact hr
  | step c _ _ hp hm ih => exact .move c (ih hr) hp hm

theorem aside_mu {S : Ids} (hS : S.Ok) {n : Nat} {s s' : Srv} (hr : Run S (Calm S) s) (ha : s.pc S.main = .ask)
    (h : Aside S (Calm S) n s s') : s'.pc S.main = .ask ∧ s'.got = s.got ∧ n + mu S s' ≤ mu S s := by
  induction h with
  | refl => exact ⟨ha, rfl, by omega⟩
  | step c hs hc hp hm ih =>
    obtain ⟨h1, h2, h3⟩ := ih hr ha
    obtain ⟨j, hz, _⟩ := asking_j hS (aside_run hr hs) ⟨h1, hc⟩
    obtain ⟨t, _, _, _, h4, h5, h6⟩ := asked_step hS j hz ⟨h1, hc⟩ hm
    exact ⟨h4, h5.trans h2, by omega⟩

/-- a fiber that was told of a request ends before the main fiber runs -/
def Going (s : Srv) (f : Nat) : Prop :=
  s.free f = true ∨ (f ∈ s.tree ∧ s.pc f = .stop) ∨ (f ∈ s.tree ∧ (s.pc f = .rd ∨ s.pc f = .wr) ∧ (s.ev f).disc = .mgmt ∧ (f ∈ s.runq ∨ f = s.cur))

theorem going_step {S : Ids} (hS : S.Ok) {s s' : Srv} {c : Choice} (j : J S s s.cur) (hz : s.cur ≠ 0) (ha : Asking S s)
    {f : Nat} (hfm : f ≠ S.mgr) (hfl : f ≠ S.listen) (hg : Going s f) (h : move S s c = some s') : Going s' f := by
  obtain ⟨t, rfl, sh, hne, _⟩ := asked_step hS j hz ha h
  unfold Going
  rw [pop_free, pop_tree, pop_pc, pop_ev hne]
  have hq := pop_queue (S := S) hne
  rcases hg with hg | ⟨ht, hg⟩ | ⟨ht, hp, he, hr⟩
  · exact .inl (sh.free f hg)
  · have hc := j.stop f ht hg
    exact .inl (sh.mgr hc.1 f hc.2.1 ht)
  · have ht' := sh.treem f ht (by grind)
    by_cases hc : f = s.cur
    · exact .inr (.inl ⟨ht', sh.ends f hc hfl hfm (by rw [he]; nofun) hp⟩)
    · have hr : f ∈ s.runq := by grind
      refine .inr (.inr ⟨ht', ?_, ?_, ?_⟩)
      · rw [sh.pc f hc]; exact hp
      · rw [sh.ev f hfm]; exact he
      · have : f ∈ t.runq := by rcases sh.runq with h | h <;> grind
        grind

theorem going_aside {S : Ids} (hS : S.Ok) {n : Nat} {s s' : Srv} (hr : Run S (Calm S) s) (ha : s.pc S.main = .ask)
    (h : Aside S (Calm S) n s s') {f : Nat} (hfm : f ≠ S.mgr) (hfl : f ≠ S.listen) (hg : Going s f) : Going s' f := by
  induction h with
  | refl => exact hg
  | step c hs hc hp hm ih =>
    have h1 := (aside_mu hS hr ha hs).1
    obtain ⟨j, hz, _⟩ := asking_j hS (aside_run hr hs) ⟨h1, hc⟩
    exact going_step hS j hz ⟨h1, hc⟩ hfm hfl (ih hr ha hg) hm

/-- the state after a value was read -/
theorem value_asks {S : Ids} (hS : S.Ok) {s s' : Srv} (hr : Run S (Calm S) s) (hc : s.cur = S.main) (hn : s.pc S.main ≠ .new)
    (h : move S s .value = some s') (hg : s'.got ≠ s.got) : s'.pc S.main = .ask ∧
      ∀ f ∈ s.tree, f ≠ S.mgr → s.pc f ≠ .new → Going s' f := by
  have hx : J S s S.main := by
    rcases run_ok hS hr with rfl | rfl | ⟨h, _⟩ | ⟨t, _, _, _, rfl, _⟩
    · rw [(start_facts hS).2.2.2.2.1] at hn; exact absurd rfl hn
    · have := (boot_facts hS).2.2.1; have := hS.main.1; grind
    · exact hc ▸ h
    · simp [move] at h
  have z0 := hS.zero
  have z1 := hS.main
  have z2 := hS.mgr
  have hcur : upd s.pc s.cur Pc.ask = upd s.pc S.main Pc.ask := by rw [hc]
  have key : ∀ code n, s' = pop S (at_ (requestAllH code { s with got := n } S.main) .ask) → s'.pc S.main = .ask ∧
      ∀ f ∈ s.tree, f ≠ S.mgr → s.pc f ≠ .new → Going s' f := by
    intro code n e
    rw [ask_eq hx] at e
    simp only [at_, hcur] at e
    have hne : s.runq ++ targets s S.main s.tree ++ [S.main] ≠ [] := by simp
    subst e
    refine ⟨by rw [pop_pc]; simp [upd], ?_⟩
    intro f hf hfm hp
    unfold Going
    rw [pop_free, pop_tree, pop_pc, pop_ev hne]
    have hq := pop_queue (S := S) (t := { s with
      got := n
      runq := s.runq ++ targets s S.main s.tree ++ [S.main]
      ev := fun g => if g = S.main then ⟨.mgmt, MGMT_REQUEST_RESULT, SUCCESS.toNat⟩ else
                 if g ∈ targets s S.main s.tree then ⟨.mgmt, code, 0⟩ else s.ev g
      pc := upd s.pc S.main .ask }) hne
    have hst : s.pc f ≠ .stop := fun h => by have := (hx.stop f hf h).1; grind
    have hpc := hx.pcs f hf hfm
    have hrun := hx.run f hf (.inl ⟨hp, hst⟩)
    have hfmain : f ≠ S.main := by have := hx.tid; grind
    have htg : f ∈ targets s S.main s.tree := by
      simp only [targets, List.mem_filter, decide_eq_true_eq]
      refine ⟨hf, hfmain.symm, ?_, hrun⟩
      rw [hx.mgmt.2 z1.1]; exact hfm.symm
    refine .inr (.inr ⟨hf, ?_, ?_, ?_⟩)
    · simp only [upd]; grind
    · simp only [htg, hfmain]; simp
    · have : f ∈ s.runq ++ targets s S.main s.tree ++ [S.main] := by simp [htg]
      simp only at hq
      rw [← hq] at this
      grind
  have hrd := hx.mainrd (.inl rfl)
  have hask := hx.mainask
  unfold move at h
  split at h
  · simp at h
  · have hi : s.cur ≠ S.idle := by rw [hc]; exact z1.2.2
    rw [if_neg hi] at h
    unfold mainMove at h
    simp only at h
    rw [hc] at h
    have hgg : ∀ n, ({ s with cur := S.main, got := n } : Srv) = { s with got := n } := by intro n; rw [← hc]
    split at h
    · rename_i h1
      have := (hask h1.1).2
      rw [this] at h1; simp at h1
    · split at h
      · rename_i h1; exact absurd (hrd h1.1) h1.2
      · split at h
        · rw [← Option.some.inj h] at hg; exact absurd rfl hg
        · split at h
          · rw [hgg] at h
            exact key _ _ (Option.some.inj h).symm
          · rw [hgg] at h
            exact key _ _ (Option.some.inj h).symm

/-- after the first value nothing but the listener gets a psock, and no fiber is added -/
theorem no_more {S : Ids} (hS : S.Ok) {s s' : Srv} {c : Choice} (hr : Run S (Calm S) s) (hg : s.got ≠ 0) (hp : Calm S s c)
    (h : move S s c = some s') : (∀ f, s'.sock f = true → s.sock f = true ∨ f = S.listen) ∧ ∀ f ∈ s'.tree, f ∈ s.tree := by
  have hx : J S s s.cur ∧ s.cur ≠ 0 := by
    rcases run_ok hS hr with rfl | rfl | ⟨h, h', _⟩ | ⟨t, _, _, _, rfl, _⟩
    · exact absurd (start_facts hS).2.2.2.2.2.2.2.2.2.2.1 hg
    · exact absurd (boot_facts hS).2.2.2.2.2.2.2.2.2.2.1 hg
    · exact ⟨h, h'⟩
    · simp [move] at h
  obtain ⟨j, hz⟩ := hx
  by_cases hi : s.cur = S.idle
  · unfold move at h
    split at h
    · simp at h
    · unfold idleMove at h
      split at h
      · split at h
        · rename_i fs hf
          rw [← Option.some.inj h]
          rw [pop_sock, pop_tree]
          rw [wake_eq fs s (by
            intro f hm
            have := waiting_known (hi ▸ j) (hf.2.2 f hm).2
            have := j.tfree f
            have := j.fid
            grind)]
          exact ⟨fun f h => .inl h, fun f h => h⟩
        · simp at h
      · simp at h
  · by_cases hm : s.cur = S.main
    · have j' := hm ▸ j
      unfold move at h
      split at h
      · simp at h
      · unfold mainMove at h
        simp only at h
        split at h
        · rw [← Option.some.inj h]; exact ⟨fun f h => .inl h, fun f h => h⟩
        · split at h
          · rw [← Option.some.inj h]; exact ⟨fun f h => .inl h, fun f h => h⟩
          · split at h
            · rw [← Option.some.inj h]; exact ⟨fun f h => .inl h, fun f h => h⟩
            · split at h
              · rw [← Option.some.inj h, hm, pop_sock, pop_tree,
                  show ({ s with cur := S.main, got := 2 } : Srv) = { s with got := 2 } by rw [← hm], ask_eq j']
                exact ⟨fun f h => .inl h, fun f h => h⟩
              · rw [← Option.some.inj h, pop_sock, pop_tree]; exact ⟨fun f h => .inl h, fun f h => h⟩
              · simp at h
    · obtain ⟨t, rfl, sh⟩ := move_sh hS j hz hg hm hi h
      rw [pop_sock, pop_tree]
      exact ⟨sh.sock, sh.tree⟩

/-- the main fiber runs after the second request -/
theorem main_ends {S : Ids} (hS : S.Ok) {s s' : Srv} {c : Choice} (j : J S s S.main) (hc : s.cur = S.main) (hg : s.got = 2)
    (h : move S s c = some s') : s' = { s with fate := .ended } := by
  have hp := j.g2 hg
  have he := (j.mainask hp).2
  have hi : s.cur ≠ S.idle := by rw [hc]; exact hS.main.2.2
  unfold move at h
  split at h
  · simp at h
  · unfold mainMove at h
    simp only [hc, hp, he, hg] at h
    simp at h
    rw [← h, ← hc, hg]

theorem steps_end {S : Ids} (hS : S.Ok) {n : Nat} {s s' : Srv} (hr : Run S (Calm S) s) (hg : s.got = 2) (hf : s.fate ≠ .ended)
    (h : Steps S (Calm S) n s s') : Run S (Calm S) s' ∧ s'.got = 2 ∧
      ((s'.fate = .ended ∧ n ≤ mu S s) ∨ (s'.fate ≠ .ended ∧ n + mu S s' ≤ mu S s)) := by
  have hpos : ∀ t, 1 ≤ mu S t := by intro t; unfold mu; split <;> omega
  induction h with
  | refl => exact ⟨hr, hg, .inr ⟨hf, by omega⟩⟩
  | @step n s s' s'' c hs hp hm ih =>
    obtain ⟨hr', hg', h⟩ := ih hr hg hf
    refine ⟨.move c hr' hp hm, ?_⟩
    rcases h with ⟨h, _⟩ | ⟨h, hn⟩
    · simp [move, h] at hm
    · have hx : J S s' s'.cur ∧ s'.cur ≠ 0 ∧ s'.fate = .runs := by
        rcases run_ok hS hr' with rfl | rfl | h | ⟨t, _, _, _, rfl, _⟩
        · rw [(start_facts hS).2.2.2.2.2.2.2.2.2.2.1] at hg'; nomatch hg'
        · rw [(boot_facts hS).2.2.2.2.2.2.2.2.2.2.1] at hg'; nomatch hg'
        · exact h
        · exact absurd rfl h
      obtain ⟨j, hz, hf'⟩ := hx
      by_cases hc : s'.cur = S.main
      · rw [main_ends hS (hc ▸ j) hc hg' hm]
        have := hpos s'
        exact ⟨hg', .inl ⟨rfl, by omega⟩⟩
      · obtain ⟨t, ht, _, _, h4, h5, h6⟩ := asked_step hS j hz ⟨j.g2 hg', hc⟩ hm
        refine ⟨h5.trans hg', .inr ⟨?_, by omega⟩⟩
        rcases move_ok hS j hz hp hm with ⟨_, _, h⟩ | ⟨h, _⟩
        · rw [h, hf']; nofun
        · exact absurd h hc

end Rcpr.EchoStop
