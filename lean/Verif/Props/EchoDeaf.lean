import Verif.Props.EchoStop

/-! Property C97: as long as the echo server runs it listens. -/
namespace Rcpr.EchoStop

open Io (Did Ev)
open Fiber (FState RESUME_IDLE RESUME_RUN RESUME_ADD_FIBER MGMT_FIBER_ADD MGMT_FIBER_STOP MGMT_QUIESCE_REQUEST
  MGMT_TERMINATION_REQUEST MGMT_REQUEST_RESULT insertFib)

/-! ### Specification -/

/-- No signal: the signal thread writes nothing. The order of the sockets in a batch is as in `Calm`. -/
structure Quiet (S : Ids) (s : Srv) (c : Choice) : Prop where
  calm : Calm S s c
  none : c ≠ .value

/-- And no call of the listen fiber fails: neither the creation of the listening psock nor `psock_accept`. -/
structure Sound (S : Ids) (s : Srv) (c : Choice) : Prop where
  quiet : Quiet S s c
  works : s.cur = S.listen → c ≠ .fail

/-! ### Helper lemmas -/

/-- what the other fibers leave as it is -/
structure Kept (S : Ids) (s t : Srv) : Prop where
  sock : ∀ f, t.sock f = true → s.sock f = true
  pc : t.pc S.listen = s.pc S.listen
  tree : ∀ f ∈ t.tree, f ∈ s.tree
  got : t.got = s.got
  fate : t.fate = s.fate

theorem Kept.trans {S : Ids} {s t u : Srv} (h : Kept S s t) (k : Kept S t u) : Kept S s u :=
  ⟨fun f x => h.sock f (k.sock f x), k.pc.trans h.pc, fun f x => h.tree f (k.tree f x), k.got.trans h.got, k.fate.trans h.fate⟩

theorem Kept.refl {S : Ids} (s : Srv) : Kept S s s := ⟨fun _ h => h, rfl, fun _ h => h, rfl, rfl⟩

theorem kept_pop {S : Ids} (s : Srv) : Kept S s (pop S s) := by
  unfold pop
  split <;> exact ⟨fun _ h => h, rfl, fun _ h => h, rfl, rfl⟩

theorem kept_at {S : Ids} {s : Srv} (h : s.cur ≠ S.listen) (p : Pc) : Kept S s (at_ s p) :=
  ⟨fun _ h => h, by simp only [at_, upd]; grind, fun _ h => h, rfl, rfl⟩

theorem kept_wake {S : Ids} : ∀ (l : List Nat) (s : Srv), Kept S s (wake l s) ∧ (wake l s).cur = s.cur
  | [], s => ⟨.refl s, rfl⟩
  | f :: l, s => by
    obtain ⟨h1, h2⟩ := kept_wake l (back s f ⟨.psock, 0, 0⟩)
    have h0 : Kept S s (back s f ⟨.psock, 0, 0⟩) := ⟨fun _ h => h, rfl, fun _ h => h, rfl, rfl⟩
    exact ⟨h0.trans h1, h2⟩

theorem kept_stop {S : Ids} (s : Srv) (y : Nat) : Kept S s (stopH s y) ∧ (stopH s y).cur = s.cur := by
  unfold stopH report
  split <;> exact ⟨⟨fun _ h => h, rfl, fun _ h => h, rfl, rfl⟩, rfl⟩

theorem kept_finish {S : Ids} {s : Srv} (h : s.cur ≠ S.listen) : Kept S s (finish S s) := by
  obtain ⟨h1, h2⟩ := kept_stop (S := S) s s.cur
  have h3 : (stopH s s.cur).cur ≠ S.listen := by rw [h2]; exact h
  exact h1.trans ((kept_at h3 .stop).trans (kept_pop _))

theorem kept_close {S : Ids} (s : Srv) (f : Nat) : Kept S s (closeSock s f) :=
  ⟨fun g h => by simp only [closeSock, upd] at h; grind, rfl, fun _ h => h, rfl, rfl⟩

theorem kept_mgr {S : Ids} {s : Srv} (h : s.cur ≠ S.listen) : Kept S s (mgrMove S s) := by
  unfold mgrMove
  refine Kept.trans ?_ (kept_pop _)
  have key : ∀ t : Srv, t.cur ≠ S.listen → Kept S s t → Kept S s (at_ (recvH t t.cur) .recv) := by
    intro t ht hk
    have h0 : Kept S t (recvH t t.cur) := ⟨fun _ h => h, rfl, fun _ h => h, rfl, rfl⟩
    exact hk.trans (h0.trans (kept_at (s := recvH t t.cur) ht _))
  refine key _ ?_ ?_
  · split <;> try split
    all_goals exact h
  · split <;> try split
    · exact ⟨fun _ h => h, rfl, fun _ h => List.mem_of_mem_erase h, rfl, rfl⟩
    · exact .refl s
    · exact .refl s

/-- Without a value, what is not the listen fiber opens nothing, adds nothing, and does not let the loop in `main` end. -/
theorem kept_move {S : Ids} {s s' : Srv} {c : Choice} (hl : s.cur ≠ S.listen) (hv : c ≠ .value) (hm : s.cur = S.main → s'.fate = s.fate)
    (h : move S s c = some s') : Kept S s s' := by
  unfold move at h
  split at h
  · nomatch h
  split at h
  · unfold idleMove at h
    split at h
    · split at h
      · rw [← Option.some.inj h]
        obtain ⟨h1, h2⟩ := kept_wake (S := S) ‹_› s
        exact h1.trans ((kept_at (h2 ▸ hl) .idle).trans (kept_pop _))
      · nomatch h
    · nomatch h
  split at h
  · rename_i hcm
    have hf := hm hcm
    unfold mainMove at h
    dsimp only at h
    split at h
    · rw [← Option.some.inj h] at hf ⊢; exact ⟨fun _ h => h, rfl, fun _ h => h, rfl, hf⟩
    split at h
    · rw [← Option.some.inj h] at hf ⊢; exact ⟨fun _ h => h, rfl, fun _ h => h, rfl, hf⟩
    split at h
    · rw [← Option.some.inj h] at hf ⊢; exact ⟨fun _ h => h, rfl, fun _ h => h, rfl, hf⟩
    split at h
    · exact absurd rfl hv
    · rw [← Option.some.inj h]; exact (kept_at hl _).trans (kept_pop _)
    · nomatch h
  split at h
  · rw [← Option.some.inj h]; exact kept_mgr hl
  unfold echoMove at h
  split at h
  · rw [← Option.some.inj h]; exact (kept_close s _).trans (kept_finish (s := closeSock s s.cur) hl)
  split at h
  · rw [← Option.some.inj h]; exact (kept_at hl _).trans (kept_pop _)
  · rw [← Option.some.inj h]; exact (kept_at hl _).trans (kept_pop _)
  · rw [← Option.some.inj h]; exact (kept_close s _).trans (kept_finish (s := closeSock s s.cur) hl)
  · nomatch h

theorem Run.mono {S : Ids} {P Q : Srv → Choice → Prop} (hpq : ∀ s c, P s c → Q s c) {s : Srv} (h : Run S P s) : Run S Q s := by
  induction h with
  | start => exact .start
  | move c _ hp hm ih => exact .move c ih (hpq _ _ hp) hm

/-- without a value the loop in `main` goes on -/
theorem main_fate {S : Ids} {s s' : Srv} {c : Choice} (hi : S.main ≠ S.idle) (hc : s.cur = S.main) (hv : c ≠ .value)
    (ha : s.pc S.main ≠ .ask) (he : s.pc S.main = .rd → (s.ev S.main).disc = .psock) (h : move S s c = some s') :
    s'.fate = s.fate ∧ s'.got = s.got := by
  unfold move at h
  split at h
  · nomatch h
  rw [hc, if_neg hi] at h
  unfold mainMove at h
  dsimp only at h
  rw [hc, if_neg (fun x => ha x.1), if_neg (fun x => x.2 (he x.1)), if_neg (fun x => ha x.1)] at h
  split at h
  · exact absurd rfl hv
  · rw [← Option.some.inj h]; unfold pop; split <;> exact ⟨rfl, rfl⟩
  · nomatch h

theorem pop_same (S : Ids) (s : Srv) : (pop S s).fate = s.fate ∧ (pop S s).got = s.got := by
  unfold pop; split <;> exact ⟨rfl, rfl⟩

theorem finish_same (S : Ids) (s : Srv) : (finish S s).fate = s.fate ∧ (finish S s).got = s.got := by
  unfold finish
  rw [(pop_same S _).1, (pop_same S _).2]
  unfold stopH report
  split <;> exact ⟨rfl, rfl⟩

theorem add_same (s : Srv) (y f : Nat) : (addH s y f).fate = s.fate ∧ (addH s y f).got = s.got := by
  unfold addH report
  split <;> exact ⟨rfl, rfl⟩

theorem accept_same {S : Ids} {s s' : Srv} {c : Choice} (h : acceptMove S s c = some s') : s'.fate = s.fate ∧ s'.got = s.got := by
  unfold acceptMove at h
  split at h
  · split at h
    · rw [← Option.some.inj h, (pop_same S _).1, (pop_same S _).2]; exact add_same _ _ _
    · nomatch h
  · rw [← Option.some.inj h, (pop_same S _).1, (pop_same S _).2]; exact ⟨rfl, rfl⟩
  · rw [← Option.some.inj h]; exact finish_same S (closeSock s s.cur)
  · nomatch h

theorem listen_same {S : Ids} {s s' : Srv} {c : Choice} (h : listenMove S s c = some s') : s'.fate = s.fate ∧ s'.got = s.got := by
  unfold listenMove at h
  dsimp only at h
  split at h
  · split at h
    · rw [← Option.some.inj h]; exact finish_same S s
    · exact accept_same (s := openSock s s.cur) h
  · split at h
    · exact accept_same h
    · split at h
      · rw [← Option.some.inj h, (pop_same S _).1, (pop_same S _).2]; exact ⟨rfl, rfl⟩
      · rw [← Option.some.inj h]; exact finish_same S (closeSock s s.cur)
  · exact accept_same h

/-- one move without a value -/
theorem quiet_move {S : Ids} (hS : S.Ok) {s s' : Srv} {c : Choice} (hr : Run S (Calm S) s) (hg : s.got = 0) (hf : s.fate = .runs)
    (hv : c ≠ .value) (h : move S s c = some s') :
    (s'.got = 0 ∧ s'.fate = .runs) ∧ (s.cur ≠ S.listen → Kept S s s') := by
  obtain ⟨z0, z1, z2, z3⟩ := hS
  have hm : s.cur = S.main → s'.fate = s.fate ∧ s'.got = s.got := by
    intro hc
    have key : s.pc S.main ≠ .ask ∧ (s.pc S.main = .rd → (s.ev S.main).disc = .psock) := by
      rcases run_ok ⟨z0, z1, z2, z3⟩ hr with rfl | rfl | ⟨j, _, _⟩ | ⟨t, _, _, _, rfl, _⟩
      · rw [(start_facts ⟨z0, z1, z2, z3⟩).2.2.2.2.1]; exact ⟨nofun, nofun⟩
      · have := (boot_facts ⟨z0, z1, z2, z3⟩).2.2.1; grind
      · have := j.r0 hg; have := j.mainrd (.inl hc); grind
      · nomatch hf
    exact main_fate (by grind) hc hv key.1 key.2 h
  by_cases hl : s.cur = S.listen
  · have h' := h
    unfold move at h'
    split at h'
    · nomatch h'
    rw [hl, if_neg (by grind), if_neg (by grind), if_neg (by grind)] at h'
    obtain ⟨a, b⟩ := listen_same h'
    exact ⟨⟨b.trans hg, a.trans hf⟩, fun x => absurd hl x⟩
  · have k := kept_move hl hv (fun hc => (hm hc).1) h
    exact ⟨⟨k.got.trans hg, k.fate.trans hf⟩, fun _ => k⟩

theorem quiet_run {S : Ids} (hS : S.Ok) {s : Srv} (h : Run S (Quiet S) s) : s.got = 0 ∧ s.fate = .runs := by
  induction h with
  | start => obtain ⟨_, h2, _, _, _, _, _, _, _, _, h11, _⟩ := start_facts hS; exact ⟨h11, h2⟩
  | move c hr hp hm ih => exact (quiet_move hS (hr.mono fun _ _ h => h.calm) ih.1 ih.2 hp.none hm).1

/-- a fiber that has ended does not run -/
theorem ended_not_cur {S : Ids} (hS : S.Ok) {s : Srv} (h : Run S (Calm S) s) (hf : s.fate = .runs) (hp : s.pc S.listen = .stop) :
    s.cur ≠ S.listen := by
  have z2 := hS.mgr
  have z3 := hS.listen
  have z1 := hS.main
  have z0 := hS.zero
  intro hc
  rcases run_ok hS h with rfl | rfl | ⟨j, _, _⟩ | ⟨t, _, _, _, rfl, _⟩
  · rw [(start_facts hS).2.2.2.2.1] at hp; nomatch hp
  · have := (boot_facts hS).2.2.1; grind
  · have := j.cur; have := j.stop S.listen; grind
  · nomatch hf

/-- the listen fiber has not ended, and while it waits for its socket it is only run for its socket; `c` is the running fiber -/
structure K (S : Ids) (s : Srv) (c : Nat) : Prop where
  ev : (c = S.listen ∨ S.listen ∈ s.runq) → s.pc S.listen = .rd → (s.ev S.listen).disc = .psock
  pc : s.pc S.listen ≠ .stop

theorem k_pop {S : Ids} (hi : S.listen ≠ S.idle) {s : Srv} (k : K S s 0) : K S (pop S s) (pop S s).cur := by
  obtain ⟨h1, h2⟩ := k
  unfold pop
  split
  · rename_i f q hq
    refine ⟨fun a b => ?_, h2⟩
    have := h1 (.inr (by rw [hq]; simp only [enter] at a; grind)) b
    simp only [enter, upd]; grind
  · rename_i hq
    refine ⟨fun a b => ?_, h2⟩
    simp only [enter] at a
    grind

theorem k_back {S : Ids} {s : Srv} {f : Nat} {e : Ev} (k : K S s 0) (h : f = S.listen → e.disc = .psock) : K S (back s f e) 0 := by
  obtain ⟨h1, h2⟩ := k
  refine ⟨fun a b => ?_, h2⟩
  simp only [back, upd] at a b ⊢
  grind

theorem k_wake {S : Ids} : ∀ (l : List Nat) {s : Srv}, K S s 0 → K S (wake l s) 0
  | [], _, k => k
  | _ :: l, _, k => k_wake l (k_back k fun _ => rfl)

theorem k_at {S : Ids} {s : Srv} {p : Pc} (k : K S s 0) (h : s.cur ≠ S.listen) : K S (at_ s p) 0 := by
  obtain ⟨h1, h2⟩ := k
  refine ⟨fun a b => ?_, ?_⟩
  · simp only [at_, upd] at a b ⊢; grind
  · simp only [at_, upd]; grind

theorem k_finish {S : Ids} (hi : S.listen ≠ S.idle) {s : Srv} (k : K S s 0) (h : s.cur ≠ S.listen) (hm : s.mgmt ≠ S.listen) :
    K S (finish S s) (finish S s).cur := by
  refine k_pop hi (k_at ?_ ?_)
  · obtain ⟨h1, h2⟩ := k
    unfold stopH report
    split
    · refine ⟨fun a b => ?_, h2⟩
      simp only [front, upd] at a b ⊢
      grind
    · exact ⟨h1, h2⟩
  · rw [(kept_stop (S := S) s s.cur).2]; exact h

theorem k_accept {S : Ids} (hS : S.Ok) {s s' : Srv} {c : Choice} (hc : s.cur = S.listen) (hq : S.listen ∉ s.runq) (hf : c ≠ .fail)
    (h : acceptMove S s c = some s') : K S s' s'.cur := by
  have z := hS.zero
  unfold acceptMove at h
  split at h
  · split at h
    · rw [← Option.some.inj h]
      refine k_pop hS.listen ⟨fun _ b => ?_, ?_⟩
      · have e : (addH (openSock s ‹_›) s.cur ‹_›).cur = s.cur := by unfold addH report; split <;> rfl
        simp only [at_, upd] at b; rw [e, hc, if_pos rfl] at b; nomatch b
      · have e : (addH (openSock s ‹_›) s.cur ‹_›).cur = s.cur := by unfold addH report; split <;> rfl
        simp only [at_, upd]; rw [e, hc, if_pos rfl]; nofun
    · nomatch h
  · rw [← Option.some.inj h]
    refine k_pop hS.listen ⟨fun a _ => ?_, ?_⟩
    · simp only [at_] at a; grind
    · simp [at_, upd, hc]
  · exact absurd rfl hf
  · nomatch h

theorem k_move {S : Ids} (hS : S.Ok) {s s' : Srv} {c : Choice} (k : K S s s.cur) (hm : s.mgmt ≠ S.listen) (hq : s.cur = S.listen → S.listen ∉ s.runq)
    (hf : s.cur = S.listen → c ≠ .fail) (hv : c ≠ .value) (hmain : s.cur = S.main → s'.fate = .runs) (h : move S s c = some s') : K S s' s'.cur := by
  have zi := hS.listen
  have k0 : K S s 0 := ⟨fun a => k.ev (.inr (by have := hS.zero; grind)), k.pc⟩
  unfold move at h
  split at h
  · nomatch h
  split at h
  · rename_i hc
    unfold idleMove at h
    split at h
    · split at h
      · rw [← Option.some.inj h]
        refine k_pop zi (k_at (k_wake _ k0) ?_)
        rw [(kept_wake (S := S) _ s).2, hc]; exact zi.symm
      · nomatch h
    · nomatch h
  split at h
  · rename_i hc
    have hl : s.cur ≠ S.listen := by have := hS.main; grind
    have hr := hmain hc
    unfold mainMove at h
    dsimp only at h
    split at h
    · rw [← Option.some.inj h] at hr; nomatch hr
    split at h
    · rw [← Option.some.inj h] at hr; nomatch hr
    split at h
    · rw [← Option.some.inj h] at hr; nomatch hr
    split at h
    · exact absurd rfl hv
    · rw [← Option.some.inj h]; exact k_pop zi (k_at k0 hl)
    · nomatch h
  split at h
  · rename_i hc
    have hl : s.cur ≠ S.listen := by have := hS.mgr; grind
    rw [← Option.some.inj h]
    unfold mgrMove
    refine k_pop zi (k_at ?_ ?_)
    · split <;> try split
      all_goals exact ⟨k0.ev, k0.pc⟩
    · split <;> try split
      all_goals exact hl
  split at h
  · rename_i hc
    have hq := hq hc
    have hf := hf hc
    unfold listenMove at h
    dsimp only at h
    split at h
    · split at h
      · exact absurd rfl hf
      · exact k_accept hS (s := openSock s s.cur) hc hq hf h
    · rename_i hp
      have he := k.ev (.inl hc) (hc ▸ hp)
      rw [hc, if_pos he] at h
      exact k_accept hS hc hq hf h
    · exact k_accept hS hc hq hf h
  · rename_i hl
    unfold echoMove at h
    split at h
    · rw [← Option.some.inj h]; exact k_finish zi (s := closeSock s s.cur) ⟨k0.ev, k0.pc⟩ hl hm
    split at h
    · rw [← Option.some.inj h]; exact k_pop zi (k_at k0 hl)
    · rw [← Option.some.inj h]; exact k_pop zi (k_at k0 hl)
    · rw [← Option.some.inj h]; exact k_finish zi (s := closeSock s s.cur) ⟨k0.ev, k0.pc⟩ hl hm
    · nomatch h

theorem k_run {S : Ids} (hS : S.Ok) {s : Srv} (h : Run S (Sound S) s) : K S s s.cur := by
  induction h with
  | start =>
    obtain ⟨_, _, _, _, h5, _⟩ := start_facts hS
    rw [show K S (start S) (start S).cur ↔ _ from ⟨fun k => And.intro k.ev k.pc, fun a => ⟨a.1, a.2⟩⟩, h5]
    exact ⟨nofun, nofun⟩
  | @move s s' c hr hp hm ih =>
    have hc : Run S (Calm S) s := hr.mono fun _ _ h => h.quiet.calm
    have hg := quiet_run hS (hr.mono fun _ _ h => h.quiet)
    have hn := quiet_move hS hc hg.1 hg.2 hp.quiet.none hm
    have z0 := hS.zero
    have z2 := hS.mgr
    have z1 := hS.main
    have key : s.mgmt ≠ S.listen ∧ (s.cur = S.listen → S.listen ∉ s.runq) := by
      rcases run_ok hS hc with rfl | rfl | ⟨j, _, _⟩ | ⟨t, _, _, _, rfl, _⟩
      · obtain ⟨_, _, h3, _, _, h6, _⟩ := start_facts hS; grind
      · obtain ⟨_, _, h3, _, _, h6, _⟩ := boot_facts hS; grind
      · have := j.mgmt; have := j.cq; grind
      · nomatch hg.2
    exact k_move hS ih key.1 key.2 hp.works hp.quiet.none (fun _ => hn.1.2) hm

/-! ### Theorems -/

/-- As long as no signal comes and no call of the listen fiber fails, the server runs, and from the moment the listen fiber is
first left its psock is open and the scheduler has it. -/
theorem listens_partial {S : Ids} (hS : S.Ok) {s : Srv} (h : Run S (Sound S) s) :
    s.fate = .runs ∧ S.listen ∈ s.tree ∧ s.free S.listen = false ∧ (s.pc S.listen ≠ .new → s.sock S.listen = true) := by
  have hc : Run S (Calm S) s := h.mono fun _ _ h => h.quiet.calm
  have hg := quiet_run hS (h.mono fun _ _ h => h.quiet)
  have k := k_run hS h
  refine ⟨hg.2, ?_⟩
  have z2 := hS.mgr
  rcases run_ok hS hc with rfl | rfl | ⟨j, _, _⟩ | ⟨t, _, _, _, rfl, _⟩
  · obtain ⟨_, _, _, _, h5, _, h7, h8, _⟩ := start_facts hS
    rw [h5, h7, h8]; exact ⟨(start_mem _).2 (.inr rfl), rfl, fun h => absurd rfl h⟩
  · obtain ⟨_, _, _, _, h5, _, h7, h8, _⟩ := boot_facts hS
    rw [h5, h7, h8]
    refine ⟨(start_mem _).2 (.inr rfl), rfl, fun h => absurd ?_ h⟩
    have := hS.main
    simp only [upd]; grind
  · have a := j.gone S.listen
    have b := j.lend
    have d := k.pc
    have e := j.sock S.listen
    have g := j.tfree S.listen
    grind
  · nomatch hg.2

/-- Once the listen fiber has ended, which without a signal it does if its psock cannot be made or a call of `psock_accept` fails,
the process stays: until a signal comes the loop in `main` does not end, and no connection is taken. -/
theorem deaf_violated {S : Ids} (hS : S.Ok) {n : Nat} {s s' : Srv} (hr : Run S (Quiet S) s) (hp : s.pc S.listen = .stop)
    (h : Steps S (Quiet S) n s s') :
    s'.fate = .runs ∧ s'.pc S.listen = .stop ∧ s'.sock S.listen = false ∧ (∀ f ∈ s'.tree, f ∈ s.tree) ∧
      ∀ f, s'.sock f = true → s.sock f = true := by
  have key : Run S (Quiet S) s' ∧ s'.pc S.listen = .stop ∧ (∀ f ∈ s'.tree, f ∈ s.tree) ∧ ∀ f, s'.sock f = true → s.sock f = true := by
    induction h with
    | refl s => exact ⟨hr, hp, fun _ h => h, fun _ h => h⟩
    | @step n s t t' c _ hq hm ih =>
      obtain ⟨i1, i2, i3, i4⟩ := ih hr hp
      have hc : Run S (Calm S) t := i1.mono fun _ _ h => h.calm
      have hg := quiet_run hS i1
      have k := (quiet_move hS hc hg.1 hg.2 hq.none hm).2 (ended_not_cur hS hc hg.2 i2)
      exact ⟨.move c i1 hq hm, k.pc.trans i2, fun f h => i3 f (k.tree f h), fun f h => i4 f (k.sock f h)⟩
  obtain ⟨h1, h2, h3, h4⟩ := key
  have hg := quiet_run hS h1
  refine ⟨hg.2, h2, ?_, h3, h4⟩
  rcases run_ok hS (h1.mono fun _ _ h => h.calm) with rfl | rfl | ⟨j, _, _⟩ | ⟨t, _, _, _, rfl, _⟩
  · rw [(start_facts hS).2.2.2.2.2.2.2.2.1]
  · rw [(boot_facts hS).2.2.2.2.2.2.2.2.1]
  · have a := j.gone S.listen
    have b := j.lend
    have c := j.stop S.listen
    grind
  · nomatch hg.2

/-! ### Examples -/

instance (S : Ids) (s : Srv) (c : Choice) : Decidable (Quiet S s c) :=
  match c with
  | .value => .isFalse fun h => h.none rfl
  | .poll fs => decidable_of_iff (Calm S s (.poll fs)) ⟨fun h => ⟨h, nofun⟩, fun h => h.calm⟩
  | .dry | .full | .conn _ | .fail | .go => .isTrue ⟨⟨nofun, nofun⟩, nofun⟩

/-- The port is taken: the listen fiber ends at once, and the process goes on with the other fibers. -/
def taken : List Choice := [.dry, .go, .fail, .go]

/-- A client is served, then `psock_accept` fails once, as it does when there are no descriptors left. -/
def spent : List Choice := [.dry, .go, .dry, .poll [3], .conn 10, .go, .dry, .dry, .poll [3], .fail, .go, .poll [10], .fail, .go]

example : ∃ s, Run S₀ (Quiet S₀) s ∧ s.pc S₀.listen = .stop ∧ s.tree = [2] ∧ s.fate = .runs ∧ s.cur = S₀.idle := by
  have h : (plays S₀ (Quiet S₀) taken (start S₀)).isSome = true := by decide
  obtain ⟨s, hs⟩ := Option.isSome_iff_exists.1 h
  refine ⟨s, run_plays .start hs, ?_⟩
  have h1 : (plays S₀ (Quiet S₀) taken (start S₀)).map (fun s => (s.pc S₀.listen, s.tree, s.fate, s.cur)) = some (.stop, [2], .runs, 4) := by decide
  rw [hs] at h1
  simpa [S₀] using h1

example : ∃ s, Run S₀ (Quiet S₀) s ∧ s.pc S₀.listen = .stop ∧ s.tree = [2] ∧ s.fate = .runs ∧ s.cur = S₀.idle := by
  have h : (plays S₀ (Quiet S₀) spent (start S₀)).isSome = true := by decide
  obtain ⟨s, hs⟩ := Option.isSome_iff_exists.1 h
  refine ⟨s, run_plays .start hs, ?_⟩
  have h1 : (plays S₀ (Quiet S₀) spent (start S₀)).map (fun s => (s.pc S₀.listen, s.tree, s.fate, s.cur)) = some (.stop, [2], .runs, 4) := by decide
  rw [hs] at h1
  simpa [S₀] using h1

/-- the process of `taken` still answers two signals -/
example : (plays S₀ (Calm S₀) (taken ++ [.poll [1], .value, .dry, .poll [1], .value, .go]) (start S₀)).map (fun s => (s.got, s.fate)) = some (2, .ended) := by
  decide

/-- the listen fiber waits with its psock open: the hypotheses of `listens_partial` -/
example : (plays S₀ (Quiet S₀) (spent.take 8) (start S₀)).map (fun s => (s.pc S₀.listen, s.sock S₀.listen, s.tree)) = some (.rd, true, [2, 3, 10]) := by
  decide

end Rcpr.EchoStop
