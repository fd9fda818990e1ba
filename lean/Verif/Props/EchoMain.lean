import Verif.EchoMain
import Verif.Props.EchoLife

/-!
C95: what the echo server acquires for itself is given back when `main` returns.
-/
namespace Rcpr.EchoLife

open Rcpr Rcpr.Life

variable {α β : Type} {e : Env} {c : Heap}

/-! ### Lemmas -/

def SigCtx.own (h : SigCtx) : Heap := fun i j => one h.p .mem i j + match h.sock with
  | some d => d.own .desc i j
  | none => 0

def threadOwn (h : Thread) : Heap := fun i j => one h.p .mem i j + one h.t .thread i j

def Wrap.own (h : Wrap) : Heap := fun i j => one h.p .mem i j + h.child.own .desc i j

def Sig.own (h : Sig) : Heap := fun i j => threadOwn h.th i j + one h.right .desc i j + h.ctx.own i j

theorem socketPair_tri : Tri e c socketPair fun r c' =>
    (∃ a, r = .error a ∧ a ≠ SUCCESS ∧ ¬ e.Willing ∧ ∀ i j, c' i j = c i j) ∨
    ∃ x y, r = .ok (x, y) ∧ ∀ i j, c' i j = one x .desc i j + one y .desc i j + c i j := by
  intro s hs
  unfold wp socketPair
  by_cases h : e.ask s.asks = SUCCESS
  · rw [if_pos h]
    refine ⟨_, _, rfl, fun i j => one s.next .desc i j + one (s.next + 1) .desc i j + c i j, ⟨?_, ?_⟩,
      .inr ⟨_, _, rfl, fun _ _ => rfl⟩⟩
    · intro i hi
      dsimp only at hi ⊢
      rw [if_neg (by omega)]
      exact hs.ok i (by omega)
    · intro i j
      dsimp only
      rw [hs.eq i j]
      have h0 := hs.ok s.next (Nat.le_refl _)
      have h1 := hs.ok (s.next + 1) (by omega)
      unfold one
      by_cases x : i = s.next
      · subst x; simp [h0, eq_comm]
      · by_cases y : i = s.next + 1
        · subst y; simp [h1, eq_comm]
        · simp [x, y]
  · rw [if_neg h]
    refine ⟨_, _, rfl, c, ⟨fun i hi => hs.ok i hi, hs.eq⟩, .inl ⟨_, rfl, by decide, fun w => h (w _), fun _ _ => rfl⟩⟩

theorem descCreate_tri {fd : Nat} : Tri e c (descCreate fd) fun r c1 =>
    (∃ q, r = (SUCCESS, .set ⟨q, fd⟩) ∧ ∀ i j, c1 i j = one q .mem i j + c i j) ∨
    (r.1 ≠ SUCCESS ∧ r.2 = .untouched ∧ ¬ e.Willing ∧ ∀ i j, c1 i j = c i j) := by
  unfold descCreate; tri
  · exact .inr ⟨by assumption, rfl, by assumption, fun _ _ => rfl⟩
  · exact .inl ⟨_, rfl, by assumption⟩

theorem threadCreate_tri (g : e.Good) : Tri e c threadCreate (Made e threadOwn c) := by
  unfold threadCreate; tri
  all_goals first
    | (left; refine ⟨_, rfl, ?_⟩; intro i j; simp only [threadOwn]; cnt)
    | (right
       have := oom_ne
       have : ERROR_THREAD_ATTRIBUTE_INIT ≠ SUCCESS := by decide
       have : ERROR_THREAD_ATTRIBUTE_SETSTACKSIZE ≠ SUCCESS := by decide
       have : ERROR_THREAD_CREATE ≠ SUCCESS := by decide
       refine ⟨?_, rfl, ?_, ?_⟩ <;> cnt)

theorem threadRelease_tri (g : e.Good) {x : Status} {h : Thread} {c' : Heap}
    (hc : ∀ i j, c i j = threadOwn h i j + c' i j) :
    Tri e c (threadRelease x h) fun r c1 => r = x ∧ ∀ i j, c i j = threadOwn h i j + c1 i j := by
  unfold threadRelease
  simp only [threadOwn] at hc
  tri
  all_goals exact ⟨by simp [over], fun i j => by simp only [threadOwn]; cnt⟩

theorem sigRelease_tri (g : e.Good) {h : SigCtx} {c' : Heap} (hc : ∀ i j, c i j = h.own i j + c' i j) :
    Tri e c (sigRelease h) (Freed h.own c) := by
  obtain ⟨p, sock⟩ := h
  unfold sigRelease
  cases sock with
  | none =>
    simp only [SigCtx.own] at hc
    tri
    all_goals exact ⟨by cnt, fun i j => by simp only [SigCtx.own]; cnt⟩
  | some d =>
    simp only [SigCtx.own, Two.own] at hc
    unfold descRelease
    tri
    all_goals exact ⟨by cnt, fun i j => by simp only [SigCtx.own, Two.own]; cnt⟩

/-- `signal_thread_create` as the ledger sees it -/
theorem sigCreate_tri (g : e.Good) : Tri e c sigCreate fun r c1 =>
    (∃ sg d, r = (SUCCESS, .set sg) ∧ sg.ctx.sock = some d ∧ ∀ i j, c1 i j = sg.own i j + c i j) ∨
    (r.1 ≠ SUCCESS ∧ r.2 = .untouched ∧ ¬ e.Willing ∧ ∀ i j, c1 i j = c i j) := by
  unfold sigCreate
  apply Tri.bind
  refine socketPair_tri.mono ?_
  rintro r c1 (⟨a, rfl, ha, hw, h1⟩ | ⟨x, y, rfl, h1⟩)
  · exact Tri.pure (.inr ⟨ha, rfl, hw, h1⟩)
  dsimp only
  apply Tri.bind
  apply Tri.get
  · intro a ha hw
    unfold closeFds
    tri
    exact .inr ⟨ha, rfl, hw, fun i j => by cnt⟩
  intro p c2 h2
  dsimp only
  unfold descCreate
  apply Tri.bind
  apply Tri.bind
  apply Tri.get
  · intro a ha hw
    unfold closeFds sigRelease
    tri
    exact .inr ⟨by cnt, rfl, hw, fun i j => by cnt⟩
  intro q c3 h3
  apply Tri.pure
  dsimp only
  apply Tri.bind
  refine Tri.use (by cnt) ?_
  apply Tri.bind
  refine (threadCreate_tri g).mono ?_
  rintro ⟨a, o⟩ c4 (⟨th, heq, h4⟩ | ⟨ha, ho, hw, h4⟩)
  · cases heq
    refine Tri.pure (.inl ⟨_, _, rfl, rfl, fun i j => ?_⟩)
    rw [h4, h3, h2, h1]; simp only [Sig.own, SigCtx.own, Two.own]; omega
  · dsimp only at ha ho
    subst ho
    dsimp only
    unfold closeFds sigRelease descRelease
    tri
    exact .inr ⟨by cnt, rfl, hw, fun i j => by cnt⟩


theorem total_append {X : Type} {own : X → Heap} {l l' : List X} (i : Nat) (j : Kind) :
    total own (l ++ l') i j = total own l i j + total own l' i j := by
  induction l with
  | nil => simp [total]
  | cons x l ih => simp only [List.cons_append, total, ih]; omega

theorem listenCreate_tri : Tri e c listenCreate (Made e (Two.own .desc) c) := by
  unfold listenCreate listenCleanup descCreate; tri
  all_goals first
    | (left; refine ⟨_, rfl, ?_⟩; intro i j; simp only [Two.own]; cnt)
    | (right
       have : ERROR_PSOCK_CREATE_FROM_ADDRESS_SOCKET_CREATE ≠ SUCCESS := by decide
       have : ERROR_PSOCK_CREATE_FROM_ADDRESS_CLOSE ≠ SUCCESS := by decide
       have : ERROR_PSOCK_CREATE_FROM_ADDRESS_BIND ≠ SUCCESS := by decide
       have : ERROR_PSOCK_CREATE_FROM_ADDRESS_LISTEN ≠ SUCCESS := by decide
       refine ⟨?_, rfl, ?_, ?_⟩ <;> cnt)

theorem wrapCreate_tri (g : e.Good) {d : Two} (hd : 0 < c d.p .mem) :
    Tri e c (wrapCreate d) fun r c1 =>
      (∃ p, r = (SUCCESS, .set ⟨p, d⟩) ∧ ∀ i j, c1 i j = one p .mem i j + c i j) ∨
      (r.1 ≠ SUCCESS ∧ r.2 = .untouched ∧ ¬ e.Willing ∧ ∀ i j, c1 i j = c i j) := by
  unfold wrapCreate; tri
  all_goals first
    | (left; exact ⟨_, rfl, by assumption⟩)
    | (right; refine ⟨?_, rfl, ?_, ?_⟩ <;> cnt)

theorem wrapRelease_tri (g : e.Good) {h : Wrap} {c' : Heap} (hc : ∀ i j, c i j = h.own i j + c' i j) :
    Tri e c (wrapRelease h) (Freed h.own c) := by
  unfold wrapRelease descRelease
  simp only [Wrap.own, Two.own] at hc
  tri
  all_goals exact ⟨by cnt, fun i j => by simp only [Wrap.own, Two.own]; cnt⟩

/-- `psock_create_wrap_async` when the scheduler has the socket discipline -/
theorem wrapAsync_there (g : e.Good) {sch : Sch} {d : Two} {c' : Heap} (hd : 0 < c d.p .mem)
    (hc : ∀ i j, c i j = sch.own i j + c' i j) (hio : ∃ en ∈ sch.discs, en.id = IO_ID) :
    Tri e c (wrapAsync sch d) fun r c1 =>
      (∃ p, r = (SUCCESS, .set ⟨p, d⟩, sch) ∧ ∀ i j, c1 i j = one p .mem i j + c i j) ∨
      (r.1 ≠ SUCCESS ∧ r.2 = (.untouched, sch) ∧ ¬ e.Willing ∧ ∀ i j, c1 i j = c i j) := by
  obtain ⟨en, hen, hid⟩ := hio
  unfold wrapAsync
  apply Tri.bind
  refine Tri.use hd ?_
  apply Tri.bind
  have hfind : Tri e c (ioGetOrCreate sch) fun r c1 => r.1 = SUCCESS ∧ r.2.2 = sch ∧ c = c1 := by
    unfold ioGetOrCreate
    apply Tri.bind
    refine (find_tri (c' := fun i j => total nodeOwn sch.fibers i j + vecOwn sch.vec i j + vecOwn sch.cvec i j +
      idleOwn sch.idle i j + c' i j) fun i j => by rw [hc]; simp only [Sch.own]; omega).mono ?_
    rintro r c1 ⟨rfl, rfl⟩
    cases hf : sch.discs.find? (fun en => decide (en.id = IO_ID)) with
    | some en => exact Tri.pure ⟨rfl, rfl, rfl⟩
    | none =>
      have hno : ∀ en ∈ sch.discs, en.id ≠ IO_ID := by simpa using hf
      exact absurd hid (hno en hen)
  refine hfind.mono ?_
  rintro ⟨a, o, sch'⟩ c1 ⟨h1, h2, rfl⟩
  dsimp only at h1 h2 ⊢
  subst h1 h2
  rw [if_neg (fun c => c rfl)]
  apply Tri.bind
  refine (wrapCreate_tri g hd).mono ?_
  rintro ⟨a, o⟩ c2 (⟨p, heq, h⟩ | ⟨ha, ho, hw, h⟩)
  · cases heq
    exact Tri.pure (.inl ⟨p, rfl, h⟩)
  · dsimp only at ho ha
    subst ho
    exact Tri.pure (.inr ⟨ha, rfl, hw, h⟩)

/-- `psock_create_wrap_async` -/
theorem wrapAsync_tri (g : e.Good) {sch : Sch} {d : Two} {c' : Heap} (hd : 0 < c' d.p .mem)
    (hc : ∀ i j, c i j = sch.own i j + c' i j) (hidle : sch.idle = none) :
    Tri e c (wrapAsync sch d) fun r c1 =>
      r.2.2.fibers = sch.fibers ∧
      ((∃ p, r.1 = SUCCESS ∧ r.2.1 = .set ⟨p, d⟩ ∧ (∃ en ∈ r.2.2.discs, en.id = IO_ID) ∧
          ∀ i j, c1 i j = one p .mem i j + r.2.2.own i j + c' i j) ∨
        (r.1 ≠ SUCCESS ∧ r.2.1 = .untouched ∧ ¬ e.Willing ∧
          (r.2.2.discs = sch.discs → ∀ i j, c1 i j = r.2.2.own i j + c' i j))) := by
  unfold wrapAsync
  apply Tri.bind
  refine Tri.use (by rw [hc]; omega) ?_
  apply Tri.bind
  refine (ioGetOrCreate_tri g hc).mono ?_
  rintro ⟨a, o, sch'⟩ c1 ⟨h1, h2, h3, h4, h5, h6, h7⟩
  dsimp only at h1 h2 h3 h4 h5 h6 h7 ⊢
  have h7' : (sch'.discs ≠ sch.discs ∧ a ≠ SUCCESS) ∨ ∀ i j, c1 i j = sch'.own i j + c' i j := by
    rcases h7 with ⟨_, h, h', _⟩ | ⟨h, _⟩ | h
    · exact .inl ⟨h, h'⟩
    · exact absurd hidle h
    · exact .inr h
  apply Tri.ite
  · intro ha
    refine Tri.pure ⟨h2, .inr ⟨ha, rfl, fun w => ha (h4 w).1, fun hd => ?_⟩⟩
    rcases h7' with ⟨h, _⟩ | h
    · exact absurd hd h
    · exact h
  · intro ha
    have ha : a = SUCCESS := Decidable.byContradiction ha
    have h8 : ∀ i j, c1 i j = sch'.own i j + c' i j := by
      rcases h7' with ⟨_, h⟩ | h
      · exact absurd ha h
      · exact h
    have hio : ∃ en ∈ sch'.discs, en.id = IO_ID := by
      by_cases h : ∃ en ∈ sch.discs, en.id = IO_ID
      · obtain ⟨en, hen, hid⟩ := h
        rw [h3 en hen hid]; exact ⟨en, hen, hid⟩
      · have := h5 ha fun en hen hid => h ⟨en, hen, hid⟩
        rcases h6 with h6 | ⟨_, h6⟩
        · exact absurd (h6.trans hidle) this
        · exact h6
    apply Tri.bind
    refine (wrapCreate_tri g (by rw [h8]; omega)).mono ?_
    rintro ⟨b, o⟩ c2 (⟨p, heq, h⟩ | ⟨hb, ho, hw, h⟩)
    · cases heq
      exact Tri.pure ⟨h2, .inl ⟨p, rfl, rfl, hio, fun i j => by rw [h, h8]; dsimp only; omega⟩⟩
    · dsimp only at ho hb
      subst ho
      exact Tri.pure ⟨h2, .inr ⟨hb, rfl, hw, fun _ i j => by rw [h, h8]⟩⟩

/-- `fiber_scheduler_add` without a management fiber, in full -/
theorem fiberAdd_full (g : e.Good) {sch : Sch} {f : Fiber} (hf : 0 < c f.p .mem) :
    Tri e c (fiberAdd false sch f) fun r c1 =>
      (∃ n, r = (SUCCESS, { sch with fibers := (n, f) :: sch.fibers }) ∧ ∀ i j, c1 i j = one n .mem i j + c i j) ∨
      (r.1 ≠ SUCCESS ∧ ¬ e.Willing ∧ r.2 = sch ∧ ∀ i j, c1 i j = c i j) ∨
      (r.1 ≠ SUCCESS ∧ ¬ e.Willing ∧ ∃ n, r.2 = { sch with fibers := (n, f) :: sch.fibers } ∧
        ∀ i j, c1 i j = one n .mem i j + c i j) := by
  unfold fiberAdd
  tri
  all_goals first
    | contradiction
    | (left; exact ⟨_, rfl, by assumption⟩)
    | (right; left; exact ⟨by cnt, by cnt, rfl, by cnt⟩)
    | (right; right; exact ⟨by cnt, by cnt, _, rfl, by assumption⟩)

theorem cons_ne {sch : Sch} {x : Nat × Fiber} : { sch with fibers := x :: sch.fibers } ≠ sch := by
  intro h
  have := congrArg (fun s => s.fibers.length) h
  simp at this

theorem managerAdd_tri (g : e.Good) {sch : Sch} {c' : Heap} (hc : ∀ i j, c i j = sch.own i j + c' i j) :
    Tri e c (managerAdd sch) fun r c1 =>
      (∃ x, r = (SUCCESS, { sch with fibers := x :: sch.fibers }) ∧ ∀ i j, c1 i j = r.2.own i j + c' i j) ∨
      (r.1 ≠ SUCCESS ∧ ¬ e.Willing ∧ (r.2 = sch → ∀ i j, c1 i j = c i j)) := by
  unfold managerAdd
  apply Tri.bind
  refine (fiberCreate_tri g).mono ?_
  rintro ⟨a, o⟩ c1 (⟨f, heq, h1⟩ | ⟨ha, ho, hw, h1⟩)
  · cases heq
    dsimp only
    apply Tri.bind
    refine (fiberAdd_full g (by rw [h1]; simp only [Fiber.own, one_self]; omega)).mono ?_
    rintro ⟨a, s1⟩ c2 (⟨n, heq, h2⟩ | ⟨ha, hw, hs, h2⟩ | ⟨ha, hw, n, hs, h2⟩)
    · cases heq
      dsimp only
      rw [if_neg (fun c => c rfl)]
      refine Tri.pure (.inl ⟨_, rfl, fun i j => ?_⟩)
      rw [h2, h1, hc]; simp only [Sch.own, total, nodeOwn]; omega
    · dsimp only at ha hs ⊢
      rw [if_pos ha]
      apply Tri.bind
      refine (fiberRelease_tri g (c' := c) fun i j => by rw [h2, h1]).mono ?_
      rintro _ c3 ⟨rfl, h3⟩
      simp only [over_ok]
      refine Tri.pure (.inr ⟨ha, hw, fun _ i j => ?_⟩)
      have := h3 i j; rw [h2, h1] at this; omega
    · dsimp only at ha hs ⊢
      rw [if_pos ha]
      apply Tri.bind
      refine (fiberRelease_tri g (c' := fun i j => one n .mem i j + c i j) fun i j => by rw [h2, h1]; omega).mono ?_
      rintro _ c3 ⟨rfl, h3⟩
      simp only [over_ok]
      refine Tri.pure (.inr ⟨ha, hw, fun h => ?_⟩)
      dsimp only at h
      rw [hs] at h
      exact absurd h cons_ne
  · dsimp only at ha ho
    subst ho
    exact Tri.pure (.inr ⟨ha, hw, fun _ => h1⟩)

theorem listenContextRelease_tri (g : e.Good) {p : Nat} (hp : 0 < c p .mem) :
    Tri e c (listenContextRelease p) (Freed (one p .mem) c) := by
  unfold listenContextRelease
  tri
  exact ⟨rfl, by assumption⟩

theorem listenAdd_tri (g : e.Good) {sch : Sch} {c' : Heap} (hc : ∀ i j, c i j = sch.own i j + c' i j) :
    Tri e c (listenAdd sch) fun r c1 =>
      (∃ x p, r = (SUCCESS, some p, { sch with fibers := x :: sch.fibers }) ∧
        ∀ i j, c1 i j = r.2.2.own i j + one p .mem i j + c' i j) ∨
      (r.1 ≠ SUCCESS ∧ r.2.1 = none ∧ ¬ e.Willing ∧ (r.2.2 = sch → ∀ i j, c1 i j = c i j)) := by
  unfold listenAdd
  apply Tri.bind
  apply Tri.get
  · intro a ha hw
    exact Tri.pure (.inr ⟨ha, rfl, hw, fun _ _ _ => rfl⟩)
  intro p c0 h0
  dsimp only
  apply Tri.bind
  refine (fiberCreate_tri g).mono ?_
  rintro ⟨a, o⟩ c1 (⟨f, heq, h1⟩ | ⟨ha, ho, hw, h1⟩)
  · cases heq
    dsimp only
    apply Tri.bind
    refine Tri.use (by rw [h1, h0, one_self]; omega) ?_
    apply Tri.bind
    refine Tri.use (by rw [h1]; simp only [Fiber.own, one_self]; omega) ?_
    apply Tri.bind
    refine (fiberAdd_full g (by rw [h1]; simp only [Fiber.own, one_self]; omega)).mono ?_
    rintro ⟨a, s1⟩ c2 (⟨n, heq, h2⟩ | ⟨ha, hw, hs, h2⟩ | ⟨ha, hw, n, hs, h2⟩)
    · cases heq
      dsimp only
      rw [if_neg (fun c => c rfl)]
      refine Tri.pure (.inl ⟨_, p, rfl, fun i j => ?_⟩)
      rw [h2, h1, h0, hc]; simp only [Sch.own, total, nodeOwn]; omega
    · dsimp only at ha hs ⊢
      rw [if_pos ha]
      apply Tri.bind
      refine (fiberRelease_tri g (c' := c0) fun i j => by rw [h2, h1]).mono ?_
      rintro _ c3 ⟨rfl, h3⟩
      have h3' : ∀ i j, c3 i j = c0 i j := fun i j => by have := h3 i j; rw [h2, h1] at this; omega
      apply Tri.bind
      refine (listenContextRelease_tri g (by rw [h3', h0, one_self]; omega)).mono ?_
      rintro _ c4 ⟨rfl, h4⟩
      simp only [over_ok]
      refine Tri.pure (.inr ⟨ha, rfl, hw, fun _ i j => ?_⟩)
      have := h4 i j; rw [h3', h0] at this; omega
    · dsimp only at ha hs ⊢
      rw [if_pos ha]
      apply Tri.bind
      refine (fiberRelease_tri g (c' := fun i j => one n .mem i j + c0 i j) fun i j => by rw [h2, h1]; omega).mono ?_
      rintro _ c3 ⟨rfl, h3⟩
      have h3' : ∀ i j, c3 i j = one n .mem i j + c0 i j := fun i j => by have := h3 i j; rw [h2, h1] at this; omega
      apply Tri.bind
      refine (listenContextRelease_tri g (by rw [h3', h0, one_self]; omega)).mono ?_
      rintro _ c4 ⟨rfl, h4⟩
      simp only [over_ok]
      refine Tri.pure (.inr ⟨ha, rfl, hw, fun h => ?_⟩)
      dsimp only at h
      rw [hs] at h
      exact absurd h cons_ne
  · dsimp only at ha ho
    subst ho
    dsimp only
    apply Tri.bind
    refine (listenContextRelease_tri g (by rw [h1, h0, one_self]; omega)).mono ?_
    rintro _ c2 ⟨rfl, h2⟩
    simp only [over_ok]
    refine Tri.pure (.inr ⟨ha, rfl, hw, fun _ i j => ?_⟩)
    have := h2 i j; rw [h1, h0] at this; omega

/-- `listen_entry` up to its loop, when the scheduler has the socket discipline -/
theorem listenStart_tri (g : e.Good) {sch : Sch} {p : Nat} {c' : Heap}
    (hc : ∀ i j, c i j = sch.own i j + one p .mem i j + c' i j) (hio : ∃ en ∈ sch.discs, en.id = IO_ID) :
    Tri e c (listenStart sch p) fun r c1 =>
      (∃ lw : Wrap, r = (SUCCESS, some lw, sch) ∧ ∀ i j, c1 i j = lw.own i j + c i j) ∨
      (r.1 ≠ SUCCESS ∧ r.2 = (none, sch) ∧ ¬ e.Willing ∧ ∀ i j, c i j = one p .mem i j + c1 i j) := by
  unfold listenStart
  have hp : 0 < c p .mem := by rw [hc, one_self]; omega
  apply Tri.bind
  refine Tri.use hp ?_
  apply Tri.bind
  refine listenCreate_tri.mono ?_
  rintro ⟨a, o⟩ c1 (⟨d, heq, h1⟩ | ⟨ha, ho, hw, h1⟩)
  · cases heq
    dsimp only
    apply Tri.bind
    refine Tri.use (by rw [h1]; omega) ?_
    apply Tri.bind
    refine (wrapAsync_there g (by rw [h1]; simp only [Two.own, one_self]; omega)
      (c' := fun i j => d.own .desc i j + one p .mem i j + c' i j) (fun i j => by rw [h1, hc]; omega) hio).mono ?_
    rintro ⟨a, o, s1⟩ c2 (⟨q, heq, h2⟩ | ⟨ha, ho, hw, h2⟩)
    · cases heq
      exact Tri.pure (.inl ⟨_, rfl, fun i j => by rw [h2, h1]; simp only [Wrap.own]; omega⟩)
    · dsimp only at ho ha
      cases ho
      dsimp only
      apply Tri.bind
      refine (descRelease_tri g (c' := c) fun i j => by rw [h2, h1]).mono ?_
      rintro _ c3 ⟨rfl, h3⟩
      have h3' : ∀ i j, c3 i j = c i j := fun i j => by have := h3 i j; rw [h2, h1] at this; omega
      apply Tri.bind
      refine (listenContextRelease_tri g (by rw [h3']; exact hp)).mono ?_
      rintro _ c4 ⟨rfl, h4⟩
      simp only [over_ok]
      exact Tri.pure (.inr ⟨ha, rfl, hw, fun i j => by rw [← h3', h4]⟩)
  · dsimp only at ha ho
    subst ho
    dsimp only
    apply Tri.bind
    refine (listenContextRelease_tri g (by rw [h1]; exact hp)).mono ?_
    rintro _ c2 ⟨rfl, h2⟩
    simp only [over_ok]
    exact Tri.pure (.inr ⟨ha, rfl, hw, fun i j => by rw [← h1, h2]⟩)

theorem listenEnd_tri (g : e.Good) {a : Status} {lw : Wrap} {p : Nat} {c' : Heap}
    (hc : ∀ i j, c i j = lw.own i j + one p .mem i j + c' i j) :
    Tri e c (listenEnd a lw p) fun r c1 => r = a ∧ ∀ i j, c1 i j = c' i j := by
  unfold listenEnd
  apply Tri.bind
  refine (wrapRelease_tri g (c' := fun i j => one p .mem i j + c' i j) fun i j => by rw [hc]; omega).mono ?_
  rintro _ c1 ⟨rfl, h1⟩
  have h1' : ∀ i j, c1 i j = one p .mem i j + c' i j := fun i j => by have := h1 i j; rw [hc] at this; omega
  apply Tri.bind
  refine (listenContextRelease_tri g (by rw [h1', one_self]; omega)).mono ?_
  rintro _ c2 ⟨rfl, h2⟩
  simp only [over_ok]
  exact Tri.pure ⟨rfl, fun i j => by have := h2 i j; rw [h1'] at this; omega⟩

/-- the management fiber removes and releases a fiber -/
theorem reap_tri (g : e.Good) {sch : Sch} {n : Nat} {x : Nat × Fiber} {c' : Heap} (hn : sch.fibers[n]? = some x)
    (hc : ∀ i j, c i j = sch.own i j + c' i j) :
    Tri e c (reap n sch) fun r c1 => r = { sch with fibers := sch.fibers.eraseIdx n } ∧
      ∀ i j, c1 i j = r.own i j + c' i j := by
  obtain ⟨node, f⟩ := x
  have ht := total_erase (own := nodeOwn) hn
  unfold reap fiberRemove
  rw [hn]
  dsimp only
  have hpos : 0 < c node .mem := by rw [hc]; simp only [Sch.own]; rw [ht]; simp only [nodeOwn, one_self]; omega
  apply Tri.bind
  apply Tri.bind
  refine Tri.use hpos ?_
  apply Tri.bind
  refine Tri.put g hpos ?_
  intro c1 h1
  apply Tri.pure
  dsimp only
  rw [if_neg (fun c => c rfl)]
  apply Tri.bind
  have h1' : ∀ i j, c1 i j = f.own i j + (Sch.own { sch with fibers := sch.fibers.eraseIdx n } i j + c' i j) := fun i j => by
    have := h1 i j; rw [hc] at this; simp only [Sch.own] at this ⊢; rw [ht] at this; simp only [nodeOwn] at this; omega
  refine (fiberRelease_tri g h1').mono ?_
  rintro _ c2 ⟨rfl, h2⟩
  exact Tri.pure ⟨rfl, fun i j => by have := h2 i j; rw [h1'] at this; omega⟩

theorem TriF.mono {F : Prop} {m : M α} {P Q : α → Heap → Prop} (h : TriF F e c m P) (hq : ∀ a c', P a c' → Q a c') :
    TriF F e c m Q := by
  intro s hs
  rcases h s hs with h | ⟨a, s', c', h1, h2, h3⟩
  · exact .inl h
  · exact .inr ⟨a, s', c', h1, h2, hq _ _ h3⟩

/-- a server over its scheduler, and what it owns -/
theorem Inv.total {base : Heap} {sch0 : Sch} {w : Server} (h : Inv (fun i j => sch0.own i j + base i j) sch0 w c) (i : Nat) (j : Kind) :
    c i j = w.sch.own i j + total Client.own w.clients i j + base i j := by
  obtain ⟨⟨fs, hsch, hlen, hc⟩, _⟩ := h
  rw [hc, hsch]
  simp only [Sch.own, total_append]
  omega

/-- what the listen fiber owns -/
def listenOwn (p : Nat) : Option Wrap → Heap
  | some lw => fun i j => lw.own i j + one p .mem i j
  | none => fun _ _ => 0

theorem serve_tri (g : e.Good) {os : List Ev} {how : End} {sch : Sch} {p : Nat} {c' : Heap} {x : Nat × Fiber}
    {l : List (Nat × Fiber)} (hf : sch.fibers = x :: l)
    (hc : ∀ i j, c i j = sch.own i j + one p .mem i j + c' i j) (hio : ∃ en ∈ sch.discs, en.id = IO_ID) :
    TriF (¬ e.Willing) e c (serve os how sch p) fun r c1 =>
      (∀ i j, c1 i j = r.2.2.sch.own i j + total Client.own r.2.2.clients i j + listenOwn p r.2.1 i j + c' i j) ∧
      (∀ a, how = .fail a → r.1 = a ∧ (e.Willing → r.2.1 ≠ none)) ∧
      (∀ a b l, how = .stop a b l → r.1 = SUCCESS ∧ r.2.1 = none) := by
  unfold serve
  apply TriF.then (listenStart_tri g hc hio)
  rintro ⟨a, o, s1⟩ c1 (⟨lw, heq, h1⟩ | ⟨ha, ho, hw, h1⟩)
  · cases heq
    dsimp only
    apply TriF.bind
    have hinv : Inv (fun i j => sch.own i j + (lw.own i j + one p .mem i j + c' i j)) sch ⟨sch, []⟩ c1 :=
      ⟨⟨[], by simp, rfl, fun i j => by rw [h1, hc]; simp only [total]; omega⟩, by simp⟩
    refine (run_tri g os hinv).mono ?_
    intro w c2 h2
    have h2' := h2.total
    cases how with
    | fail a =>
      refine TriF.pure ⟨fun i j => by rw [h2']; simp only [listenOwn]; omega, fun a' h => by cases h; exact ⟨rfl, by simp⟩, fun _ _ _ h => by cases h⟩
    | stop a told byes =>
      dsimp only
      apply TriF.then (listenEnd_tri g (c' := fun i j => w.sch.own i j + total Client.own w.clients i j + c' i j)
        fun i j => by rw [h2']; omega)
      rintro r3 c3 ⟨-, h3⟩
      obtain ⟨⟨fs, hsch, hlen, _⟩, hsk⟩ := h2
      have last : ∀ (sch0 : Sch) (c4 : Heap), (∀ i j, c4 i j = Sch.own { sch0 with fibers := fs ++ sch0.fibers } i j +
          total Client.own w.clients i j + c' i j) →
          TriF (¬ e.Willing) e c4 (do
            let w ← Server.run { w with sch := { sch0 with fibers := fs ++ sch0.fibers } } (byes.map Ev.bye)
            Pure.pure (SUCCESS, (none : Option Wrap), w)) fun r c1 =>
          (∀ i j, c1 i j = r.2.2.sch.own i j + total Client.own r.2.2.clients i j + listenOwn p r.2.1 i j + c' i j) ∧
          (∀ a_1, End.stop a told byes = .fail a_1 → r.1 = a_1 ∧ (e.Willing → r.2.1 ≠ none)) ∧
          (∀ a_1 b l, End.stop a told byes = .stop a_1 b l → r.1 = SUCCESS ∧ r.2.1 = none) := by
        intro sch0 c4 h4
        apply TriF.bind
        have hinv' : Inv (fun i j => sch0.own i j + c' i j) sch0
            { w with sch := { sch0 with fibers := fs ++ sch0.fibers } } c4 :=
          ⟨⟨fs, rfl, hlen, fun i j => by
            rw [h4]; simp only [Sch.own, total_append]; omega⟩, hsk⟩
        refine (run_tri g _ hinv').mono ?_
        intro w' c5 h5
        exact TriF.pure ⟨fun i j => by rw [h5.total]; simp only [listenOwn]; omega, nofun, fun _ _ _ _ => ⟨rfl, rfl⟩⟩
      cases told with
      | false =>
        apply TriF.bind
        apply TriF.pure
        rw [hsch]
        refine last sch c3 fun i j => ?_
        rw [h3, hsch]
      | true =>
        have hx : w.sch.fibers[w.clients.length]? = some x := by
          rw [hsch, ← hlen]
          show (fs ++ sch.fibers)[fs.length]? = _
          rw [List.getElem?_append_right (Nat.le_refl _), hf]
          simp
        apply TriF.bind
        refine TriF.of ((reap_tri g hx (c' := fun i j => total Client.own w.clients i j + c' i j) fun i j => by
          rw [h3]; omega).mono ?_)
        rintro _ c4 ⟨rfl, h4⟩
        have herase : ({ w.sch with fibers := w.sch.fibers.eraseIdx w.clients.length } : Sch) =
            { ({ sch with fibers := l } : Sch) with fibers := fs ++ l } := by
          rw [hsch, ← hlen]
          show ({ sch with fibers := (fs ++ sch.fibers).eraseIdx fs.length } : Sch) = { sch with fibers := fs ++ l }
          rw [List.eraseIdx_append_of_length_le (Nat.le_refl _), hf]
          simp
        rw [herase] at h4 ⊢
        exact last { sch with fibers := l } c4 fun i j => by rw [h4]; dsimp only; omega
  · dsimp only at ho ha
    cases ho
    dsimp only
    apply TriF.then (reap_tri g (n := 0) (x := x) (by rw [hf]; rfl) (c' := c') fun i j => by
      have := h1 i j; rw [hc] at this; omega)
    rintro _ c2 ⟨rfl, h2⟩
    refine TriF.pure ⟨fun i j => by rw [h2]; simp only [total, listenOwn]; omega, ?_, ?_⟩
    · intro a h
      cases h
      exact ⟨rfl, fun w => absurd w hw⟩
    · intro a b l h
      cases h
      exact ⟨rfl, rfl⟩

/-- `m`, started on the heap `c`, either cannot be carried out, and then `F`, or ends in a state with `Q`. -/
def TriS (F : Prop) (e : Env) (c : Heap) (m : M α) (Q : α → St → Prop) : Prop :=
  ∀ s, Holds s c → (m e s = none ∧ F) ∨ ∃ a s', m e s = some (a, s') ∧ Q a s'

theorem TriS.pure {F : Prop} {a : α} {Q : α → St → Prop} (h : ∀ s, Holds s c → Q a s) : TriS F e c (Pure.pure a) Q :=
  fun s hs => .inr ⟨a, s, rfl, h s hs⟩

theorem TriS.thenF {F : Prop} {m : M α} {f : α → M β} {P : α → Heap → Prop} {Q : β → St → Prop}
    (h : TriF F e c m P) (hq : ∀ a c', P a c' → TriS F e c' (f a) Q) : TriS F e c (m >>= f) Q := by
  intro s hs
  rw [bind_apply]
  rcases h s hs with ⟨h1, h2⟩ | ⟨a, s', c', h1, h2, h3⟩
  · rw [h1]; exact .inl ⟨rfl, h2⟩
  · rw [h1]; exact hq a c' h3 s' h2

theorem TriS.then {F : Prop} {m : M α} {f : α → M β} {P : α → Heap → Prop} {Q : β → St → Prop}
    (h : Tri e c m P) (hq : ∀ a c', P a c' → TriS F e c' (f a) Q) : TriS F e c (m >>= f) Q :=
  TriS.thenF (TriF.of h) hq

/-- Whatever `m` does, if it can be carried out its answer satisfies `P`. -/
def Ends (m : M α) (P : α → Prop) : Prop := ∀ e s a s', m e s = some (a, s') → P a

theorem Ends.pure {a : α} {P : α → Prop} (h : P a) : Ends (Pure.pure a) P := by
  intro e s b s' hb
  rw [pure_apply] at hb
  cases hb
  exact h

theorem Ends.bind {m : M α} {f : α → M β} {P : β → Prop} (h : ∀ a, Ends (f a) P) : Ends (m >>= f) P := by
  intro e s b s' hb
  rw [bind_apply] at hb
  cases hm : m e s with
  | none => rw [hm] at hb; cases hb
  | some r => rw [hm] at hb; exact h _ e _ b s' hb

theorem TriS.any {F : Prop} {m : M α} {Q : α → St → Prop} (hF : F) (h : Ends m fun a => ∀ s, Q a s) : TriS F e c m Q := by
  intro s _
  cases hm : m e s with
  | none => exact .inl ⟨rfl, hF⟩
  | some r => exact .inr ⟨r.1, r.2, rfl, h e s r.1 r.2 hm r.2⟩

theorem cleanupSched_tri (g : e.Good) {a : Status} {sch : Sch} {c' : Heap} (hc : ∀ i j, c i j = sch.own i j + c' i j) :
    Tri e c (cleanupSched a sch) fun r c1 => r = a ∧ ∀ i j, c1 i j = c' i j := by
  unfold cleanupSched
  apply Tri.bind
  refine (schRelease_tri g hc).mono ?_
  rintro _ c1 ⟨rfl, h1⟩
  exact Tri.pure ⟨over_ok, fun i j => by have := h1 i j; rw [hc] at this; omega⟩

theorem joinSignal_tri (g : e.Good) {x a : Status} {th : Thread} {sch : Sch} {c' : Heap}
    (hc : ∀ i j, c i j = threadOwn th i j + sch.own i j + c' i j) :
    Tri e c (joinSignal x a th sch) fun r c1 => r = over a x ∧ ∀ i j, c1 i j = c' i j := by
  unfold joinSignal
  apply Tri.bind
  refine (threadRelease_tri g (c' := fun i j => sch.own i j + c' i j) fun i j => by rw [hc]; omega).mono ?_
  rintro _ c1 ⟨rfl, h1⟩
  exact cleanupSched_tri g fun i j => by have := h1 i j; rw [hc] at this; omega

/-! ### C95 -/

/-- What is left when `main` has returned, by where it ended: the context of the listen fiber, which never
ran; the context of the signal thread with its psock; the descriptor or the psock for signals; whatever
belongs to connections that have not ended, and to a listen fiber that has not ended. -/
def Stage.left : Stage → Heap
  | .manager _ | .listen _ => fun _ _ => 0
  | .signal p => one p .mem
  | .psock p sg => fun i j => one p .mem i j + sg.ctx.own i j + one sg.right .desc i j
  | .wrap p sg _ => fun i j => one p .mem i j + sg.ctx.own i j
  | .served p sg w lw cl => fun i j => sg.ctx.own i j + w.own i j + total Client.own cl i j + listenOwn p lw i j

/-- The step that was refused left the scheduler's trees as they were. -/
def Stage.clean : Stage → Prop
  | .manager b | .listen b | .wrap _ _ b => b = true
  | _ => True

def End.status : End → Status
  | .fail a => a
  | .stop .. => SUCCESS

theorem main_triS (g : e.Good) {os : List Ev} {how : End} {x : Status} {sch : Sch} {base : Heap} (hidle : sch.idle = none)
    (hc : ∀ i j, c i j = sch.own i j + base i j) :
    TriS (¬ e.Willing) e c (main os how x sch) fun r s' =>
      (r.2.clean → Holds s' fun i j => r.2.left i j + base i j) ∧
      (e.Willing → r.1 = over how.status x ∧
        ∃ p sg w lw cl, r.2 = .served p sg w lw cl ∧ (lw = none ↔ ∃ a b l, how = .stop a b l) ∧
          ∃ d, sg.ctx.sock = some d) := by
  unfold main
  apply TriS.then (managerAdd_tri g hc)
  rintro ⟨a, s1⟩ c1 (⟨x1, heq, h1⟩ | ⟨ha, hw, h1⟩)
  rotate_left
  · dsimp only at ha h1 ⊢
    rw [if_pos ha]
    by_cases hs : s1 = sch
    · subst hs
      apply TriS.then (cleanupSched_tri g (c' := base) fun i j => by rw [h1 rfl, hc])
      rintro _ c2 ⟨rfl, h2⟩
      apply TriS.pure
      intro s hs
      refine ⟨fun _ => ?_, fun w => absurd w hw⟩
      refine ⟨hs.ok, fun i j => ?_⟩
      rw [← hs.eq, h2]; simp [Stage.left]
    · refine TriS.any hw (Ends.bind fun st => Ends.pure fun s => ⟨fun h => ?_, fun w => absurd w hw⟩)
      simp [Stage.clean, hs] at h
  cases heq
  dsimp only at h1 ⊢
  rw [if_neg (fun c => c rfl)]
  apply TriS.then (listenAdd_tri g h1)
  rintro ⟨a, o, s2⟩ c2 (⟨x2, p, heq, h2⟩ | ⟨ha, ho, hw, h2⟩)
  rotate_left
  · dsimp only at ha ho h2 ⊢
    subst ho
    dsimp only
    by_cases hs : s2 = { sch with fibers := x1 :: sch.fibers }
    · subst hs
      apply TriS.then (cleanupSched_tri g (c' := base) fun i j => by rw [h2 rfl, h1])
      rintro _ c2 ⟨rfl, h2⟩
      apply TriS.pure
      intro s hs
      refine ⟨fun _ => ?_, fun w => absurd w hw⟩
      refine ⟨hs.ok, fun i j => ?_⟩
      rw [← hs.eq, h2]; simp [Stage.left]
    · refine TriS.any hw (Ends.bind fun st => Ends.pure fun s => ⟨fun h => ?_, fun w => absurd w hw⟩)
      simp [Stage.clean, hs] at h
  cases heq
  dsimp only at h2 ⊢
  apply TriS.then (sigCreate_tri g)
  rintro ⟨a, o⟩ c3 (⟨sg, sd, heq, hsd, h3⟩ | ⟨ha, ho, hw, h3⟩)
  rotate_left
  · dsimp only at ho ⊢
    subst ho
    dsimp only
    apply TriS.then (cleanupSched_tri g (c' := fun i j => one p .mem i j + base i j) fun i j => by rw [h3, h2]; omega)
    rintro _ c4 ⟨rfl, h4⟩
    apply TriS.pure
    intro s hs
    refine ⟨fun _ => ⟨hs.ok, fun i j => ?_⟩, fun w => absurd w hw⟩
    rw [← hs.eq, h4]; rfl
  cases heq
  dsimp only
  have hall : ∀ i j, c3 i j = threadOwn sg.th i j + Sch.own { sch with fibers := x2 :: x1 :: sch.fibers } i j +
      (one p .mem i j + sg.ctx.own i j + one sg.right .desc i j + base i j) := fun i j => by
    rw [h3, h2]; simp only [Sig.own]; omega
  apply TriS.then descCreate_tri
  rintro ⟨a, o⟩ c4 (⟨q, heq, h4⟩ | ⟨ha, ho, hw, h4⟩)
  rotate_left
  · dsimp only at ho ⊢
    subst ho
    dsimp only
    apply TriS.then (joinSignal_tri g fun i j => by rw [h4, hall])
    rintro _ c5 ⟨rfl, h5⟩
    apply TriS.pure
    intro s hs
    refine ⟨fun _ => ⟨hs.ok, fun i j => ?_⟩, fun w => absurd w hw⟩
    rw [← hs.eq, h5]; rfl
  cases heq
  dsimp only
  apply TriS.then (wrapAsync_tri g (d := ⟨q, sg.right⟩) (sch := { sch with fibers := x2 :: x1 :: sch.fibers })
    (c' := fun i j => one q .mem i j + threadOwn sg.th i j +
      (one p .mem i j + sg.ctx.own i j + one sg.right .desc i j + base i j))
    (by dsimp only; rw [one_self]; omega) (fun i j => by rw [h4, hall]; omega) hidle)
  rintro ⟨a, o, s3⟩ c5 ⟨hf, ⟨wp, ha, ho, hio, h5⟩ | ⟨ha, ho, hw, h5⟩⟩
  rotate_left
  · dsimp only at ho ha h5 ⊢
    subst ho
    dsimp only
    by_cases hd : s3.discs = sch.discs
    · have h5 := h5 hd
      apply TriS.then (descRelease_tri g (d := ⟨q, sg.right⟩) (c' := fun i j => s3.own i j + threadOwn sg.th i j +
        (one p .mem i j + sg.ctx.own i j + base i j)) fun i j => by rw [h5]; simp only [Two.own]; omega)
      rintro _ c6 ⟨rfl, h6⟩
      apply TriS.then (joinSignal_tri g (c' := fun i j => one p .mem i j + sg.ctx.own i j + base i j) fun i j => by
        have := h6 i j; rw [h5] at this; simp only [Two.own] at this; omega)
      rintro _ c7 ⟨rfl, h7⟩
      apply TriS.pure
      intro s hs
      refine ⟨fun _ => ⟨hs.ok, fun i j => ?_⟩, fun w => absurd w hw⟩
      rw [← hs.eq, h7]; rfl
    · refine TriS.any hw (Ends.bind fun _ => Ends.bind fun st => Ends.pure fun s => ⟨fun h => ?_, fun w => absurd w hw⟩)
      simp [Stage.clean, hd] at h
  dsimp only at ho ha h5 hf hio ⊢
  subst ho ha
  dsimp only
  apply TriS.thenF (serve_tri g (p := p) hf (c' := fun i j => one wp .mem i j + (one q .mem i j + threadOwn sg.th i j +
      (sg.ctx.own i j + one sg.right .desc i j + base i j))) (fun i j => by rw [h5]; omega) hio)
  rintro ⟨a, lw, srv⟩ c6 ⟨h6, h7, h8⟩
  dsimp only at h6 h7 h8 ⊢
  apply TriS.then (joinSignal_tri g (c' := fun i j => total Client.own srv.clients i j + listenOwn p lw i j +
      (one wp .mem i j + one q .mem i j + sg.ctx.own i j + one sg.right .desc i j + base i j)) fun i j => by rw [h6]; omega)
  rintro _ c7 ⟨rfl, h9⟩
  apply TriS.pure
  intro s hs
  refine ⟨fun _ => ⟨hs.ok, fun i j => ?_⟩, fun w => ⟨?_, p, sg, _, lw, _, rfl, ?_, sd, hsd⟩⟩
  · rw [← hs.eq, h9]; simp only [Stage.left, Wrap.own, Two.own]; omega
  · cases how with
    | fail a' => rw [(h7 a' rfl).1]; rfl
    | stop a' b l => rw [(h8 a' b l rfl).1]; rfl
  · cases how with
    | fail a' => exact ⟨fun h => absurd h ((h7 a' rfl).2 w), fun ⟨_, _, _, h⟩ => by cases h⟩
    | stop a' b l => exact ⟨fun _ => ⟨a', b, l, rfl⟩, fun _ => (h8 a' b l rfl).2⟩

/-! ### The theorems -/

/-- What counts of the things held is what is held. -/
theorem held_iff {s : St} (h : Holds s c) (i : Nat) (k : Kind) : s.live i = some k ↔ c i k ≠ 0 := by
  rw [h.eq]
  by_cases hl : s.live i = some k <;> simp [hl]

theorem held_same {s s' : St} (h : Holds s c) (h' : Holds s' c) (i : Nat) : s'.live i = s.live i := by
  have key : ∀ k, s'.live i = some k ↔ s.live i = some k := fun k => by rw [held_iff h', held_iff h]
  cases x : s'.live i with
  | some k => exact ((key k).1 x).symm
  | none =>
    cases y : s.live i with
    | none => rfl
    | some k => rw [(key k).2 y] at x; cases x

/-- what is held, counted -/
theorem counted {s : St} (h : s.Ok) : Holds s fun i k => if s.live i = some k then 1 else 0 := ⟨h, fun _ _ => rfl⟩

/-- C95 (part): `signal_thread_create` is all or nothing, whatever is refused. When it succeeds, the thread
runs, its context holds a psock with one end of the pair of sockets, and the other end is the caller's; when
it fails, the caller's variables are untouched and exactly that is held which was held before. -/
theorem signal_thread_all_or_nothing (g : e.Good) {s : St} (hs : s.Ok) :
    ∃ st o s', sigCreate e s = some ((st, o), s') ∧
      ((st = SUCCESS ∧ ∃ sg d, o = .set sg ∧ sg.ctx.sock = some d ∧ d.q ≠ sg.right ∧
          ∀ i k, s'.live i = some k ↔ s.live i = some k ∨ (i, k) ∈
            [(sg.th.p, Kind.mem), (sg.th.t, .thread), (sg.right, .desc), (sg.ctx.p, .mem), (d.p, .mem), (d.q, .desc)]) ∨
        (st ≠ SUCCESS ∧ o = .untouched ∧ ∀ i, s'.live i = s.live i)) := by
  obtain ⟨⟨st, o⟩, s', c', h1, h2, h3⟩ := Tri.elim (sigCreate_tri g) (counted hs)
  refine ⟨st, o, s', h1, ?_⟩
  rcases h3 with ⟨sg, d, heq, hd, h3⟩ | ⟨ha, ho, hw, h3⟩
  · cases heq
    refine .inl ⟨rfl, sg, d, rfl, hd, ?_, fun i k => ?_⟩
    · intro h
      have k1 := h2.eq d.q .desc
      have k2 := h3 d.q .desc
      simp only [Sig.own, threadOwn, SigCtx.own, hd, Two.own, h, one_self] at k2
      rw [h] at k1
      split at k1 <;> omega
    · rw [held_iff h2, h3]
      simp only [Sig.own, threadOwn, SigCtx.own, hd, Two.own, one, List.mem_cons, List.not_mem_nil, Prod.mk.injEq, or_false]
      by_cases x : s.live i = some k <;> simp [x] <;> grind
  · refine .inr ⟨ha, ho, fun i => held_same (counted hs) ⟨h2.ok, fun i k => ?_⟩ i⟩
    rw [← h2.eq, h3]


/-- C95 (part): `listen_entry` gives back its listening psock and its context, whatever is refused and however
it ends, once the scheduler has the socket discipline: if it does not get to its loop, and if `psock_accept`
fails. -/
theorem listen_entry_balanced (g : e.Good) {sch : Sch} {p : Nat} {base : Heap} {s : St}
    (hs : Holds s fun i j => sch.own i j + one p .mem i j + base i j) (hio : ∃ en ∈ sch.discs, en.id = IO_ID) (a : Status) :
    ∃ st lw s', listenStart sch p e s = some ((st, lw, sch), s') ∧
      match lw with
      | none => st ≠ SUCCESS ∧ s'.live p = none ∧ ∀ i, i ≠ p → s'.live i = s.live i
      | some lw => st = SUCCESS ∧ s'.live lw.child.q = some .desc ∧ s.live lw.child.q = none ∧
        ∃ s'', listenEnd a lw p e s' = some (a, s'') ∧ s''.live p = none ∧ ∀ i, i ≠ p → s''.live i = s.live i := by
  have only : ∀ (t : St) (c1 : Heap), Holds t c1 → (∀ i j, sch.own i j + one p .mem i j + base i j = one p .mem i j + c1 i j) →
      t.live p = none ∧ ∀ i, i ≠ p → t.live i = s.live i := by
    intro t c1 h1 h2
    have hp : s.live p = some .mem := (held_iff hs p .mem).2 (by rw [one_self]; omega)
    constructor
    · cases x : t.live p with
      | none => rfl
      | some k =>
        have k1 := (held_iff h1 p k).1 x
        have k2 := h2 p k
        have k3 := hs.eq p k
        rw [hp] at k3
        by_cases hk : k = .mem
        · subst hk; simp only [one_self, if_true] at k2 k3; omega
        · rw [if_neg (by simpa using Ne.symm hk)] at k3; omega
    · intro i hi
      have key : ∀ k, t.live i = some k ↔ s.live i = some k := fun k => by
        rw [held_iff h1, held_iff hs]
        have := h2 i k
        simp only [one, hi, false_and, if_false] at this ⊢
        omega
      cases x : t.live i with
      | some k => exact ((key k).1 x).symm
      | none =>
        cases y : s.live i with
        | none => rfl
        | some k => rw [(key k).2 y] at x; cases x
  obtain ⟨⟨st, o, sch'⟩, s', c', h1, h2, h3⟩ := Tri.elim (listenStart_tri g (fun _ _ => rfl) hio) hs
  rcases h3 with ⟨lw, heq, h3⟩ | ⟨ha, ho, hw, h3⟩
  · cases heq
    obtain ⟨r, s'', c'', k1, k2, k3, k4⟩ := Tri.elim (listenEnd_tri g (a := a) (lw := lw) (p := p)
      (c' := fun i j => sch.own i j + base i j) fun i j => by rw [h3]; omega) h2
    cases k3
    refine ⟨SUCCESS, some lw, s', h1, rfl, ?_, ?_, s'', k1, ?_⟩
    · rw [held_iff h2, h3]; simp only [Wrap.own, Two.own, one_self]; omega
    · cases x : s.live lw.child.q with
      | none => rfl
      | some k =>
        exfalso
        have k5 := (held_iff hs _ _).1 x
        have k6 : s'.live lw.child.q = some k := (held_iff h2 _ _).2 (by rw [h3]; omega)
        have k7 := h2.eq lw.child.q .desc
        have k8 := h3 lw.child.q .desc
        simp only [Wrap.own, Two.own, one_self] at k8
        rw [k6] at k7
        by_cases hk : k = .desc
        · subst hk; simp only [if_true] at k7; omega
        · rw [if_neg (by simpa using hk)] at k7; omega
    · exact only s'' c'' k2 fun i j => by rw [k4]; omega
  · dsimp only at ho ha
    cases ho
    obtain ⟨k1, k2⟩ := only s' c' h2 h3
    exact ⟨st, none, s', h1, ha, k1, k2⟩

/-- C95 (part): what `main` leaves, whatever is refused, provided that a step of it that was refused left the
scheduler's trees as they were: all that it was given with the scheduler, and everything it acquired, has been
given back, except what `Stage.left` names. Missing: runs in which the scheduler keeps a fiber or a discipline
that its owner then releases (C65). -/
theorem main_left_partial (g : e.Good) {os : List Ev} {how : End} {x : Status} {sch : Sch} {base : Heap} {s s' : St}
    {st : Status} {stage : Stage} (hidle : sch.idle = none) (hs : Holds s fun i j => sch.own i j + base i j)
    (h : main os how x sch e s = some ((st, stage), s')) (hclean : stage.clean) :
    Holds s' fun i j => stage.left i j + base i j := by
  rcases main_triS g (os := os) (how := how) (x := x) hidle (fun _ _ => rfl) s hs with ⟨h1, _⟩ | ⟨r, s1, h1, h2, _⟩
  · rw [h] at h1; cases h1
  · rw [h] at h1; cases h1
    exact h2 hclean

/-- C95 (part): `main` leaves nothing when one of its two fibers is refused and the tree was left alone. -/
theorem main_early_partial (g : e.Good) {os : List Ev} {how : End} {x : Status} {sch : Sch} {base : Heap} {s s' : St}
    {st : Status} {stage : Stage} (hidle : sch.idle = none) (hs : Holds s fun i j => sch.own i j + base i j)
    (h : main os how x sch e s = some ((st, stage), s')) (hst : stage = .manager true ∨ stage = .listen true) :
    Holds s' base := by
  have := main_left_partial g hidle hs h (by rcases hst with rfl | rfl <;> rfl)
  refine ⟨this.ok, fun i k => ?_⟩
  rw [← this.eq]
  rcases hst with rfl | rfl <;> simp [Stage.left]

/-- C95 (part): when nothing is refused, `main` can be carried out and gets to its loop, and its status is that
of the thread if the thread failed, and else that of the loop. -/
theorem main_runs_partial (g : e.Good) (hw : e.Willing) {os : List Ev} {how : End} {x : Status} {sch : Sch} {base : Heap} {s : St}
    (hidle : sch.idle = none) (hs : Holds s fun i j => sch.own i j + base i j) :
    ∃ p sg w lw cl s', main os how x sch e s = some ((if x ≠ SUCCESS then x else how.status, .served p sg w lw cl), s') ∧
      (lw = none ↔ ∃ a b l, how = .stop a b l) := by
  rcases main_triS g (os := os) (how := how) (x := x) hidle (fun _ _ => rfl) s hs with ⟨_, h1⟩ | ⟨⟨st, stage⟩, s1, h1, _, h2⟩
  · exact absurd hw h1
  · obtain ⟨h3, p, sg, w, lw, cl, h4, h5, _⟩ := h2 hw
    dsimp only at h3 h4
    subst h3 h4
    exact ⟨p, sg, w, lw, cl, s1, h1, h5⟩

/-- C95 fails: whenever `main` gets past `listen_fiber_add`, it leaves something behind that was not there when
it was given the scheduler, whether it ends in order or not. -/
theorem main_leaks_violated (g : e.Good) {os : List Ev} {how : End} {x : Status} {sch : Sch} {base : Heap} {s s' : St}
    {st : Status} {stage : Stage} (hidle : sch.idle = none) (hs : Holds s fun i j => sch.own i j + base i j)
    (h : main os how x sch e s = some ((st, stage), s')) (hclean : stage.clean)
    (hst : (∀ b, stage ≠ .manager b) ∧ ∀ b, stage ≠ .listen b) :
    ∃ i k, s'.live i = some k ∧ base i k = 0 := by
  have hl := main_left_partial g hidle hs h hclean
  have wit : ∀ i k, stage.left i k ≠ 0 → ∃ i k, s'.live i = some k ∧ base i k = 0 := by
    intro i k hk
    refine ⟨i, k, (held_iff hl i k).2 (by omega), ?_⟩
    have := hl.eq i k
    split at this <;> omega
  cases stage with
  | manager b => exact absurd rfl (hst.1 b)
  | listen b => exact absurd rfl (hst.2 b)
  | signal p => exact wit p .mem (by simp [Stage.left, one_self])
  | psock p sg => exact wit p .mem (by simp only [Stage.left, one_self]; omega)
  | wrap p sg b => exact wit p .mem (by simp only [Stage.left, one_self]; omega)
  | served p sg w lw cl =>
    exact wit w.child.q .desc (by simp only [Stage.left, Wrap.own, Two.own, one_self]; omega)

/-- C95 fails, in an orderly run in which nothing is refused and all connections have ended: both sockets of
the signal pair are open when `main` returns with success. -/
theorem main_sockets_violated (g : e.Good) (hw : e.Willing) {os : List Ev} {a : Status} {b : Bool} {l : List Nat} {sch : Sch}
    {base : Heap} {s : St} (hidle : sch.idle = none) (hs : Holds s fun i j => sch.own i j + base i j) :
    ∃ stage s' d d', main os (.stop a b l) SUCCESS sch e s = some ((SUCCESS, stage), s') ∧ d ≠ d' ∧
      base d .desc = 0 ∧ base d' .desc = 0 ∧ s'.live d = some .desc ∧ s'.live d' = some .desc := by
  rcases main_triS g (os := os) (how := .stop a b l) (x := SUCCESS) hidle (fun _ _ => rfl) s hs with
    ⟨_, h1⟩ | ⟨⟨st, stage⟩, s1, h1, h2, h3⟩
  · exact absurd hw h1
  · obtain ⟨h3, p, sg, w, lw, cl, h4, _, d, h5⟩ := h3 hw
    dsimp only at h2 h3 h4
    subst h3 h4
    have h2 := h2 trivial
    have k1 := h2.eq d.q .desc
    have k2 := h2.eq w.child.q .desc
    simp only [Stage.left, SigCtx.own, h5, Wrap.own, Two.own, one_self] at k1 k2
    have u1 : s1.live d.q = some .desc := (held_iff h2 _ _).2 (by
      simp only [Stage.left, SigCtx.own, h5, Two.own, one_self]; omega)
    have u2 : s1.live w.child.q = some .desc := (held_iff h2 _ _).2 (by
      simp only [Stage.left, Wrap.own, Two.own, one_self]; omega)
    rw [if_pos u1] at k1
    rw [if_pos u2] at k2
    refine ⟨_, s1, d.q, w.child.q, h1, ?_, by omega, by omega, u1, u2⟩
    intro h
    rw [h, one_self] at k1
    omega

/-! ### The hypotheses are met -/

theorem fresh_holds : Holds freshSt fun i j => fresh.sch.own i j + (fun _ _ => 0) i j := by
  refine ⟨freshSt_ok, fun i k => ?_⟩
  simp only [fresh, freshSt, Sch.own, total, vecOwn, idleOwn, one]
  cases k <;> (repeat' split) <;> simp_all <;> omega

/-- Where `main` ends, its status, and how many things of each kind are held then. -/
def survey (e : Env) (os : List Ev) (how : End) (x : Status) : Option (Status × Stage × List Kind) :=
  (main os how x fresh.sch e freshSt).map fun r => (r.1.1, r.1.2, (List.range r.2.next).filterMap r.2.live)

-- an orderly day: all connections end; what is left is four blocks and two sockets
example : (survey grant day (.stop ERROR_GENERAL_OUT_OF_MEMORY true []) SUCCESS).map (fun r => (r.1, r.2.2)) =
    some (SUCCESS, [.desc, .desc, .mem, .mem, .mem, .mem]) := by decide +kernel
-- a connection that is still there when the fibers are asked to terminate, and then ends
example : (survey grant [.accept false] (.stop ERROR_GENERAL_OUT_OF_MEMORY true [0]) SUCCESS).map (fun r => (r.1, r.2.2)) =
    some (SUCCESS, [.desc, .desc, .mem, .mem, .mem, .mem]) := by decide +kernel
-- one that does not end: its context, its two psocks, its socket
example : (survey grant [.accept false] (.stop ERROR_GENERAL_OUT_OF_MEMORY false []) SUCCESS).map (fun r => r.2.2.length) =
    some 10 := by decide +kernel
-- reading from the signal thread fails: the listening psock and its context stay too
example : (survey grant [] (.fail ERROR_GENERAL_OUT_OF_MEMORY) SUCCESS).map (fun r => (r.1, r.2.2)) =
    some (ERROR_GENERAL_OUT_OF_MEMORY, [.mem, .desc, .desc, .mem, .mem, .mem, .mem, .desc, .mem, .mem]) := by decide +kernel
-- the stack of the management fiber is refused; the second fiber; the socket pair; the thread; the psock
example : (survey (refuse 2) [] (.fail SUCCESS) SUCCESS).map (·.2) = some (.manager true, []) := by decide +kernel
example : (survey (refuse 7) [] (.fail SUCCESS) SUCCESS).map (·.2) = some (.listen true, []) := by decide +kernel
example : (survey (refuse 13) [] (.fail SUCCESS) SUCCESS).map (·.2.2) = some [.mem] := by decide +kernel
example : (survey (refuse 19) [] (.fail SUCCESS) SUCCESS).map (·.2.2) = some [.mem] := by decide +kernel
example : (survey (refuse 20) [] (.fail SUCCESS) SUCCESS).map (·.2.2) = some [.mem, .desc, .desc, .mem, .mem] := by decide +kernel
-- the place of the calling fiber in the run queue is refused: the fiber is released twice
example : survey (refuse 5) [] (.fail SUCCESS) SUCCESS = none := by decide +kernel
/-- a scheduler with the socket discipline, and a listen context -/
def ready : Sch := ⟨[⟨IO_ID, 2, ⟨3, 4, 5⟩, .io ⟨6, 7⟩⟩], [], some 0, some 1, none⟩
def readySt : St := ⟨fun i => if i = 7 then some .desc else if i < 9 then some .mem else none, 9, 0, 0⟩

example : Holds readySt (fun i j => ready.own i j + one 8 .mem i j + (fun _ _ => 0) i j) ∧
    ∃ en ∈ ready.discs, en.id = IO_ID := by
  refine ⟨⟨fun i (hi : 9 ≤ i) => ?_, fun i k => ?_⟩, _, List.mem_cons_self, rfl⟩
  · show (if i = 7 then some Kind.desc else if i < 9 then some .mem else none) = none
    rw [if_neg (by omega), if_neg (by omega)]
  · simp only [ready, readySt, Sch.own, total, Entry.own, Disc.own, Ctx.own, Two.own, vecOwn, idleOwn, one]
    rcases i with _|_|_|_|_|_|_|_|_|i <;> cases k <;> simp +arith
-- the wrapper of the listening psock is refused
example : (listenStart ready 8 (refuse 4) readySt).map (fun r => (r.1.2.1, (List.range r.2.next).filterMap r.2.live)) =
    some (none, [.mem, .mem, .mem, .mem, .mem, .mem, .mem, .desc]) := by decide +kernel
example : ∃ st o s', sigCreate (refuse 3) freshSt = some ((st, o), s') ∧ st ≠ SUCCESS := by
  refine ⟨_, _, _, rfl, ?_⟩; decide

end Rcpr.EchoLife
