import Verif.EchoStopRun

/-! Property C92: the echo server shuts down. -/
namespace Rcpr.EchoStop

open Fiber (FState MGMT_REQUEST_RESULT)

/-- choices that were played are an execution -/
theorem run_plays {S : Ids} {P : Srv → Choice → Prop} [∀ s c, Decidable (P s c)] {cs : List Choice} {s s' : Srv} (hr : Run S P s)
    (h : plays S P cs s = some s') : Run S P s' := by
  induction cs generalizing s with
  | nil => rw [← Option.some.inj h]; exact hr
  | cons c cs ih =>
    unfold plays at h
    split at h
    · rename_i hp
      obtain ⟨t, h1, h2⟩ := Option.bind_eq_some_iff.1 h
      exact ih (.move c hr hp h1) h2
    · simp at h

theorem j_fate {S : Ids} {s : Srv} {c : Nat} {a : Fate} (j : J S s c) : J S { s with fate := a } c := by
  cases j; constructor <;> assumption

/-- **C92** (partial: the signal is reported last in its batch, and comes after the main fiber has begun to wait): nothing
is used after it was released, no psock is closed twice, no fiber is resumed after its end, and the loop in `main`
does not fail. -/
theorem server_sound_partial {S : Ids} (hS : S.Ok) {s : Srv} (h : Run S (Calm S) s) : s.bad = false ∧ s.fate ≠ .failed := by
  rcases run_ok hS h with rfl | rfl | ⟨j, _, hf⟩ | ⟨t, _, j, _, rfl, _⟩
  · exact ⟨(start_facts hS).1, by rw [(start_facts hS).2.1]; nofun⟩
  · exact ⟨(boot_facts hS).1, by rw [(boot_facts hS).2.1]; nofun⟩
  · exact ⟨j.bad, by rw [hf]; nofun⟩
  · exact ⟨j.bad, nofun⟩

/-- **C92** (partial, as above): a fiber of a connection that runs, and the listen fiber, is one the scheduler has, was not
released, has not ended, and its psock is open, but for the listen fiber before it has made it. This does not speak of the
flag `bad`. -/
theorem server_open_partial {S : Ids} (hS : S.Ok) {s : Srv} (h : Run S (Calm S) s) (he : s.fate = .runs) (h1 : s.cur ≠ S.main)
    (h2 : s.cur ≠ S.mgr) (h3 : s.cur ≠ S.idle) (h0 : s.cur ≠ 0) :
    s.cur ∈ s.tree ∧ s.free s.cur = false ∧ s.st s.cur = .running ∧
      (s.sock s.cur = true ∨ s.cur = S.listen ∧ s.pc S.listen = .new ∧ s.sock S.listen = false) := by
  rcases run_ok hS h with rfl | rfl | ⟨j, _, hf⟩ | ⟨t, _, j, _, rfl, _⟩
  · exact absurd (start_facts hS).2.2.1 h1
  · exact absurd (boot_facts hS).2.2.1 h2
  · have ht : s.cur ∈ s.tree := by have := j.cur; grind
    have hs : s.pc s.cur ≠ .stop := fun h => h2 (j.stop _ ht h).1
    refine ⟨ht, j.tfree _ ht, j.run _ ht (.inr rfl), ?_⟩
    have := j.sock _ ht h2 hs
    have := j.lsock
    grind
  · nomatch he

/-- **C92** (partial, as above): when the loop in `main` has ended every psock of the server is closed, the management fiber is the
only one the scheduler still has, and every fiber of a connection that was ever added, and the listen fiber, was released. -/
theorem server_closed_partial {S : Ids} (hS : S.Ok) {s : Srv} (h : Run S (Calm S) s) (he : s.fate = .ended) :
    (∀ f, s.sock f = false) ∧ (∀ f, f ∈ s.tree ↔ f = S.mgr) ∧ s.free S.listen = true ∧ s.free S.mgr = false ∧
      ∀ f, f ≠ S.main → f ≠ S.mgr → f ≠ S.idle → s.free f = true ∨ s.st f = .created := by
  rcases run_ok hS h with rfl | rfl | ⟨_, _, hf⟩ | ⟨t, _, j, hc, rfl, ht⟩
  · rw [(start_facts hS).2.1] at he; nomatch he
  · rw [(boot_facts hS).2.1] at he; nomatch he
  · rw [hf] at he; nomatch he
  · have hi := j.sockid
    have hm := j.mgrtree
    refine ⟨fun f => ?_, fun f => ⟨ht f, fun h => h ▸ hm⟩, ?_, j.tfree _ hm, fun f h1 h2 h3 => ?_⟩
    · have := j.fresh f
      have := j.gone f
      have := ht f
      show t.sock f = false
      by_cases hf : f ∈ t.tree
      · grind
      · by_cases h2 : t.free f = true
        · exact (j.gone f h2).1
        · grind
    · have := j.lend
      have := ht S.listen
      have := hS.mgr
      show t.free S.listen = true
      grind
    · have := j.fresh f
      have := ht f
      show t.free f = true ∨ t.st f = .created
      grind

/-- **C92** (partial, as above): unless the loop in `main` has ended, there is something that can happen next. -/
theorem server_goes_on_partial {S : Ids} (hS : S.Ok) {s : Srv} (h : Run S (Calm S) s) (he : s.fate ≠ .ended) :
    ∃ c s', Calm S s c ∧ move S s c = some s' := by
  have z1 := hS.main
  have z2 := hS.mgr
  have z3 := hS.listen
  have hd : ∀ t : Srv, Calm S t .dry := fun t => ⟨nofun, nofun⟩
  rcases run_ok hS h with rfl | rfl | ⟨j, hz, hf⟩ | ⟨t, _, j, hc, rfl, ht⟩
  · obtain ⟨h1, h2, h3, h4, h5, _⟩ := start_facts hS
    refine ⟨.dry, boot S, hd _, ?_⟩
    simp [move, h1, h2, h3, z1, mainMove, h5]
    rfl
  · obtain ⟨h1, h2, h3, h4, h5, _⟩ := boot_facts hS
    refine ⟨.dry, mgrMove S (boot S), hd _, ?_⟩
    simp [move, h1, h2, h3, z1.1.symm, z2]
  · have hb := j.bad
    by_cases hi : s.cur = S.idle
    · have j' := hi ▸ j
      have hq := j'.idlec rfl
      have hp : s.pc S.main = .rd := by
        have := j'.mainpc
        have := j'.mainask
        grind
      refine ⟨.poll [S.main], pop S (at_ (wake [S.main] s) .idle), ⟨nofun, ?_⟩, ?_⟩
      · intro fs h hm; cases h; rfl
      · simp [move, hb, hf, hi, idleMove, Waiting, hp, z1.2.2]
    · have hs : (move S s .dry).isSome = true := by
        unfold move
        rw [if_neg (by simp [hb, hf]), if_neg hi]
        split
        · unfold mainMove
          simp only
          repeat' split
          all_goals rfl
        · split
          · rfl
          · split
            · unfold listenMove
              simp only
              repeat' split
              all_goals (first | rfl | (simp at *; done))
            · unfold echoMove
              repeat' split
              all_goals (first | rfl | (simp at *; done))
      obtain ⟨s', h⟩ := Option.isSome_iff_exists.1 hs
      exact ⟨.dry, s', hd _, h⟩
  · exact absurd rfl he

/-- **C92** (partial, as above): a request to quiesce or to terminate is answered. While the main fiber waits for the answer at most
`2 * n + 2` moves can happen, where `n` is the length of the run queue, whatever the peers do; and when it runs it is told of success. -/
theorem server_answers_partial {S : Ids} (hS : S.Ok) {n : Nat} {s s' : Srv} (hr : Run S (Calm S) s) (ha : s.pc S.main = .ask)
    (h : Aside S (Calm S) n s s') : n ≤ 2 * s.runq.length + 2 ∧
      (s'.cur = S.main → s'.ev S.main = ⟨.mgmt, MGMT_REQUEST_RESULT, SUCCESS.toNat⟩) := by
  obtain ⟨h1, _, h2⟩ := aside_mu hS hr ha h
  refine ⟨?_, fun hc => ?_⟩
  · have := mu_le S s
    omega
  · rcases run_ok hS (aside_run hr h) with rfl | rfl | ⟨j, _⟩ | ⟨t, _, j, _, rfl, _⟩
    · rw [(start_facts hS).2.2.2.2.1] at h1; nomatch h1
    · have := (boot_facts hS).2.2.1; have := hS.main.1; grind
    · exact (j.mainask h1).2
    · exact (j.mainask h1).2

/-- **C92** (partial, as above): when the main fiber goes on after a request, every connection whose fiber had been entered before the request
is closed and its fiber released. -/
theorem server_quiesced_partial {S : Ids} (hS : S.Ok) {n : Nat} {s s₁ s₂ : Srv} (hr : Run S (Calm S) s) (hc : s.cur = S.main)
    (hn : s.pc S.main ≠ .new) (hm : move S s .value = some s₁) (hg : s₁.got ≠ s.got) (h : Aside S (Calm S) n s₁ s₂) (hc₂ : s₂.cur = S.main)
    (f : Nat) (hf : f ∈ s.tree) (hfm : f ≠ S.mgr) (hfl : f ≠ S.listen) (hp : s.pc f ≠ .new) : s₂.free f = true ∧ s₂.sock f = false := by
  have hcalm : Calm S s .value := ⟨fun _ => hn, nofun⟩
  have hr₁ := Run.move _ hr hcalm hm
  obtain ⟨ha, hgo⟩ := value_asks hS hr hc hn hm hg
  have hg₂ := going_aside hS hr₁ ha h hfm hfl (hgo f hf hfm hp)
  have hr₂ := aside_run hr₁ h
  obtain ⟨ha₂, _⟩ := aside_mu hS hr₁ ha h
  have j : J S s₂ S.main := by
    rcases run_ok hS hr₂ with rfl | rfl | ⟨h, _⟩ | ⟨t, _, h', _, rfl, _⟩
    · rw [(start_facts hS).2.2.2.2.1] at ha₂; nomatch ha₂
    · have := (boot_facts hS).2.2.1; have := hS.main.1; grind
    · exact hc₂ ▸ h
    · exact j_fate h'
  rcases hg₂ with h | ⟨ht, h⟩ | ⟨ht, _, _, h⟩
  · exact ⟨h, (j.gone f h).1⟩
  · have := (j.stop f ht h).1
    exact absurd this hS.main.1
  · have := j.rc ha₂ rfl
    have := j.tid
    grind

/-- **C92** (partial, as above): after the first value no connection is taken and no fiber added. -/
theorem server_no_more_partial {S : Ids} (hS : S.Ok) {s s' : Srv} {c : Choice} (hr : Run S (Calm S) s) (hg : s.got ≠ 0) (hp : Calm S s c)
    (h : move S s c = some s') : (∀ f, f ≠ S.listen → s'.sock f = true → s.sock f = true) ∧ ∀ f ∈ s'.tree, f ∈ s.tree := by
  obtain ⟨h1, h2⟩ := no_more hS hr hg hp h
  exact ⟨fun f h3 h4 => (h1 f h4).resolve_right h3, h2⟩

/-- **C92** (partial, as above): once the second value is read the loop in `main` ends after at most `2 * n + 2` moves, where `n` is the length of
the run queue, whatever the peers do (and there is a next move until then: `server_goes_on_partial`). -/
theorem server_ends_partial {S : Ids} (hS : S.Ok) {n : Nat} {s s' : Srv} (hr : Run S (Calm S) s) (hg : s.got = 2) (hf : s.fate ≠ .ended)
    (h : Steps S (Calm S) n s s') : n ≤ 2 * s.runq.length + 2 := by
  have := mu_le S s
  rcases (steps_end hS hr hg hf h).2.2 with ⟨_, h⟩ | ⟨_, h⟩ <;> omega

/-! ### What the code does when the signal comes at another time -/

/-- A server. -/
def S₀ : Ids := ⟨1, 2, 3, 4⟩

theorem S₀_ok : S₀.Ok := ⟨by decide, by decide, by decide, by decide⟩

/-- The signal and data on a connection come at the same time, and `epoll_wait` names the signal first. -/
def together : List Choice := [.dry, .go, .dry, .poll [3], .conn 10, .go, .dry, .dry, .poll [1, 10], .value, .go, .go, .go]

/-- **C92**, not so without the assumption on the order: the fiber of the connection is in the run queue twice, ends, is released, and is
resumed. -/
theorem released_used_violated : ∃ s, Run S₀ Any s ∧ s.bad = true ∧ s.free 10 = true ∧ s.cur = 10 := by
  have h : (plays S₀ Any together (start S₀)).isSome = true := by decide
  obtain ⟨s, hs⟩ := Option.isSome_iff_exists.1 h
  refine ⟨s, run_plays .start hs, ?_⟩
  have h1 : (plays S₀ Any together (start S₀)).map (fun s => (s.bad, s.free 10, s.cur)) = some (true, true, 10) := by decide
  rw [hs] at h1
  simpa using h1

/-- The signal is reported last. -/
def Last (S : Ids) (_ : Srv) (c : Choice) : Prop := ∀ fs, c = .poll fs → S.main ∈ fs → fs.getLast? = some S.main

instance (S : Ids) (s : Srv) (c : Choice) : Decidable (Last S s c) :=
  match c with
  | .poll fs => decidable_of_iff (S.main ∈ fs → fs.getLast? = some S.main) ⟨fun h _ e => by cases e; exact h, fun h => h fs rfl⟩
  | .value | .dry | .full | .conn _ | .fail | .go => .isTrue nofun

/-- The first value is there when the main fiber reads for the first time; the second comes with a connection. -/
def early : List Choice := [.value, .go, .dry, .dry, .poll [3, 1], .conn 10, .go, .dry, .value, .dry, .go, .go, .go]

/-- **C92**, not so if the first value is there at the start: the listen fiber is not told to quiesce and takes a connection after it; this one is
not told to terminate, and is open when the loop in `main` has ended. -/
theorem left_open_violated : ∃ s, Run S₀ (Last S₀) s ∧ s.fate = .ended ∧ s.sock 10 = true ∧ 10 ∈ s.tree := by
  have h : (plays S₀ (Last S₀) early (start S₀)).isSome = true := by decide
  obtain ⟨s, hs⟩ := Option.isSome_iff_exists.1 h
  refine ⟨s, run_plays .start hs, ?_⟩
  have h1 : (plays S₀ (Last S₀) early (start S₀)).map (fun s => (s.fate, s.sock 10, decide (10 ∈ s.tree))) = some (.ended, true, true) := by decide
  rw [hs] at h1
  simpa using h1

/-! ### Examples -/

/-- A connection is served, the first value comes with data on it, the second later. -/
def day : List Choice := [.dry, .go, .dry, .poll [3], .conn 10, .go, .dry, .dry, .poll [10, 1], .dry, .value, .go, .go, .go, .dry, .poll [1], .value, .go, .go, .go]

example : ∃ s, Run S₀ (Calm S₀) s ∧ s.fate = .ended ∧ s.free 10 = true := by
  have h : (plays S₀ (Calm S₀) day (start S₀)).isSome = true := by decide
  obtain ⟨s, hs⟩ := Option.isSome_iff_exists.1 h
  refine ⟨s, run_plays .start hs, ?_⟩
  have h1 : (plays S₀ (Calm S₀) day (start S₀)).map (fun s => (s.fate, s.free 10)) = some (.ended, true) := by decide
  rw [hs] at h1
  simpa using h1

/-- with the connection open, before and after the first value is read: the hypotheses of `server_quiesced_partial` -/
example : (plays S₀ (Calm S₀) (day.take 10) (start S₀)).map (fun s => (s.cur, s.tree, s.pc 10, s.sock 10, s.got)) = some (1, [2, 3, 10], .rd, true, 0) ∧
    (plays S₀ (Calm S₀) (day.take 11) (start S₀)).map (fun s => (s.cur, s.pc 1, s.got, s.runq)) = some (3, .ask, 1, [10, 1]) ∧
    (plays S₀ (Calm S₀) (day.take 14) (start S₀)).map (fun s => (s.cur, s.tree, s.free 10, s.sock 10)) = some (1, [2, 3], true, false) := by decide

/-- the second value is read: the hypotheses of `server_ends_partial` -/
example : (plays S₀ (Calm S₀) (day.take 17) (start S₀)).map (fun s => (s.got, s.fate, s.runq)) = some (2, .runs, [1]) := by decide

end Rcpr.EchoStop
