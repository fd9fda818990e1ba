import Verif.EchoLife
import Verif.LifeInv

/-!
C86: the echo server closes every accepted connection once and keeps nothing of it.
-/
namespace Rcpr.EchoLife

open Rcpr Rcpr.Life

variable {α β : Type} {e : Env} {c : Heap}

/-! ### Lemmas -/

/-- `m`, started on the heap `c`, either cannot be carried out, and then `F`, or ends with `Q`. -/
def TriF (F : Prop) (e : Env) (c : Heap) (m : M α) (Q : α → Heap → Prop) : Prop :=
  ∀ s, Holds s c → (m e s = none ∧ F) ∨ ∃ a s' c', m e s = some (a, s') ∧ Holds s' c' ∧ Q a c'

theorem TriF.of {F : Prop} {m : M α} {Q : α → Heap → Prop} (h : Tri e c m Q) : TriF F e c m Q := by
  intro s hs
  obtain ⟨a, s', h1, c', h2, h3⟩ := h s hs
  exact .inr ⟨a, s', c', h1, h2, h3⟩

theorem TriF.pure {F : Prop} {a : α} {Q : α → Heap → Prop} (h : Q a c) : TriF F e c (Pure.pure a) Q :=
  TriF.of (Tri.pure h)

theorem TriF.fault {F : Prop} {Q : α → Heap → Prop} (h : F) : TriF F e c EchoLife.fault Q := fun _ _ => .inl ⟨rfl, h⟩

theorem TriF.bind {F : Prop} {m : M α} {f : α → M β} {Q : β → Heap → Prop}
    (h : TriF F e c m fun a c' => TriF F e c' (f a) Q) : TriF F e c (m >>= f) Q := by
  intro s hs
  show ((match m e s with | none => none | some (a, s') => f a e s') = none ∧ F) ∨
    ∃ a s' c', (match m e s with | none => none | some (a, s') => f a e s') = some (a, s') ∧ _
  rcases h s hs with ⟨h1, h2⟩ | ⟨a, s', c', h1, h2, h3⟩
  · rw [h1]; exact .inl ⟨rfl, h2⟩
  · rw [h1]; exact h3 s' h2

theorem TriF.then {F : Prop} {m : M α} {f : α → M β} {P : α → Heap → Prop} {Q : β → Heap → Prop}
    (h : Tri e c m P) (hq : ∀ a c', P a c' → TriF F e c' (f a) Q) : TriF F e c (m >>= f) Q :=
  TriF.bind (TriF.of (h.mono hq))

theorem TriF.ite {F : Prop} {p : Prop} [Decidable p] {m n : M α} {Q : α → Heap → Prop} (h1 : p → TriF F e c m Q)
    (h2 : ¬ p → TriF F e c n Q) : TriF F e c (if p then m else n) Q := by
  by_cases h : p
  · rw [if_pos h]; exact h1 h
  · rw [if_neg h]; exact h2 h

/-- closing a descriptor that is not held -/
theorem TriF.drop_gone {F : Prop} {k : Kind} {p : Nat} {Q : Status → Heap → Prop} (h : c p k = 0) (hF : F) :
    TriF F e c (Life.drop k p) Q := by
  intro s hs
  refine .inl ⟨?_, hF⟩
  have := hs.eq p k
  rw [h] at this
  unfold Life.drop
  rw [if_neg]
  intro hl
  rw [if_pos hl] at this
  omega

/-- what is held is held once -/
theorem TriF.bounded {F : Prop} {m : M α} {Q : α → Heap → Prop} (h : (∀ i j, c i j ≤ 1) → TriF F e c m Q) :
    TriF F e c m Q := by
  intro s hs
  exact h (fun i j => by rw [hs.eq]; split <;> omega) s hs

/-- what a connection owns -/
def Client.own (h : Client) : Heap := fun i j => one h.p .mem i j + match h.sock with
  | some w => one w.p .mem i j + w.child.own .desc i j
  | none => 0

theorem descRelease_tri (g : e.Good) {d : Two} {c' : Heap} (h : ∀ i j, c i j = d.own .desc i j + c' i j) :
    Tri e c (descRelease d) (Freed (d.own .desc) c) := by
  unfold descRelease
  simp only [Two.own] at h
  tri
  all_goals exact ⟨by cnt, fun i j => by simp only [Two.own]; cnt⟩

theorem clientRelease_tri (g : e.Good) {h : Client} (hs : h.sock ≠ none) {c' : Heap}
    (hc : ∀ i j, c i j = h.own i j + c' i j) : Tri e c (clientRelease h) (Freed h.own c) := by
  obtain ⟨p, sock⟩ := h
  cases sock with
  | none => exact absurd rfl hs
  | some w =>
    simp only [Client.own, Two.own] at hc
    unfold clientRelease wrapRelease descRelease
    tri
    all_goals exact ⟨by cnt, fun i j => by simp only [Client.own, Two.own]; cnt⟩

/-- `fiber_scheduler_add` as the ledger sees it -/
theorem fiberAdd_ledger (g : e.Good) {sch : Sch} {f : Fiber} (hf : 0 < c f.p .mem) :
    Tri e c (fiberAdd true sch f) fun r c1 =>
      (∃ n, r = (SUCCESS, { sch with fibers := (n, f) :: sch.fibers }) ∧ ∀ i j, c1 i j = one n .mem i j + c i j) ∨
      (r.1 ≠ SUCCESS ∧ ¬ e.Willing ∧ ∃ x : Heap, ∀ i j, c1 i j = x i j + c i j) := by
  unfold fiberAdd
  tri
  all_goals first
    | (left; exact ⟨_, rfl, by assumption⟩)
    | (right
       refine ⟨by cnt, by cnt, ?_⟩
       first
         | exact ⟨fun _ _ => 0, by cnt⟩
         | exact ⟨one _ .mem, by assumption⟩)

/-! ### C86 -/

/-- What the server owns for its connections, on top of `base`; `fs` are the fibers that were there before. -/
structure Inv (base : Heap) (sch0 : Sch) (w : Server) (c : Heap) : Prop where
  heap : ∃ fs : List (Nat × Fiber), w.sch = { sch0 with fibers := fs ++ sch0.fibers } ∧ fs.length = w.clients.length ∧
    ∀ i j, c i j = total nodeOwn fs i j + total Client.own w.clients i j + base i j
  socks : ∀ x ∈ w.clients, x.sock ≠ none

theorem accept_tri (g : e.Good) {base : Heap} {sch0 : Sch} {w : Server} (q : Bool) (h : Inv base sch0 w c) :
    TriF (¬ e.Willing) e c (accept q w) fun r c' => Inv base sch0 r.2 c' := by
  obtain ⟨⟨fs, hsch, hlen, hc⟩, hsk⟩ := h
  unfold accept
  apply TriF.then (P := fun r c' => (∃ a, r = .error a ∧ ∀ i j, c' i j = c i j) ∨
    ∃ fd, r = .ok fd ∧ ∀ i j, c' i j = one fd .desc i j + c i j)
  · apply Tri.get
    · intro a _ _; exact .inl ⟨a, rfl, fun _ _ => rfl⟩
    · intro p c' h; exact .inr ⟨p, rfl, h⟩
  rintro r c1 (⟨a, rfl, h1⟩ | ⟨fd, rfl, h1⟩)
  · exact TriF.pure ⟨⟨fs, hsch, hlen, fun i j => by rw [h1, hc]⟩, hsk⟩
  dsimp only
  apply TriF.ite
  · intro _
    apply TriF.then (P := fun _ c' => ∀ i j, c1 i j = one fd .desc i j + c' i j)
    · exact Tri.drop (by rw [h1, one_self]; omega) fun _ _ h => h
    intro _ c2 h2
    exact TriF.pure ⟨⟨fs, hsch, hlen, fun i j => by have := h2 i j; rw [h1, hc] at this; dsimp only; omega⟩, hsk⟩
  intro _
  -- what `dispatch` leaves behind, and whether the descriptor can then be closed
  apply TriF.bind
  have hd : TriF (¬ e.Willing) e c1 (dispatch fd w.sch) fun r c' =>
      (r.1 ≠ SUCCESS ∧ r.2 = (w.sch, none) ∧ ∀ i j, c' i j = c1 i j) ∨
      (r.1 ≠ SUCCESS ∧ ¬ e.Willing ∧ c' fd .desc = 0) ∨
      (∃ n f cl, r = (SUCCESS, { w.sch with fibers := (n, f) :: w.sch.fibers }, some cl) ∧ cl.sock ≠ none ∧
        ∀ i j, c' i j = one n .mem i j + f.own i j + cl.own i j + c i j) := by
    unfold dispatch descCreate
    apply TriF.bind
    apply TriF.then (P := fun r c' => (∃ a, r = .error a ∧ a ≠ SUCCESS ∧ c' = c1) ∨
      ∃ p, r = .ok p ∧ ∀ i j, c' i j = one p .mem i j + c1 i j)
    · apply Tri.get
      · intro a h _; exact .inl ⟨a, rfl, h, rfl⟩
      · intro p c' h; exact .inr ⟨p, rfl, h⟩
    rintro r c2 (⟨a, rfl, ha, rfl⟩ | ⟨p, rfl, h2⟩)
    · exact TriF.pure (TriF.pure (.inl ⟨ha, rfl, fun _ _ => rfl⟩))
    dsimp only
    apply TriF.pure
    dsimp only
    unfold clientCreate
    apply TriF.bind
    apply TriF.then (P := fun r c' => (∃ a, r = .error a ∧ a ≠ SUCCESS ∧ ¬ e.Willing ∧ c' = c2) ∨
      ∃ p, r = .ok p ∧ ∀ i j, c' i j = one p .mem i j + c2 i j)
    · apply Tri.get
      · intro a h hw; exact .inl ⟨a, rfl, h, hw, rfl⟩
      · intro p c' h; exact .inr ⟨p, rfl, h⟩
    rintro r c3 (⟨a, rfl, ha, hw, rfl⟩ | ⟨cp, rfl, h3⟩)
    · -- no memory for the context
      apply TriF.pure
      dsimp only
      unfold cleanupSock
      apply TriF.bounded
      intro hb
      apply TriF.bind
      apply TriF.then (descRelease_tri g (c' := c) fun i j => by rw [h2, h1]; simp only [Two.own]; omega)
      rintro _ c4 ⟨rfl, h4⟩
      apply TriF.pure
      apply TriF.pure
      refine .inr (.inl ⟨by cnt, hw, ?_⟩)
      have := h4 fd .desc
      have := hb fd .desc
      simp only [Two.own, one_self] at *
      omega
    dsimp only
    apply TriF.pure
    dsimp only
    apply TriF.then (fiberCreate_tri g)
    intro r c4 hm
    rcases Or.symm hm with ⟨ha, hu, hw, h4⟩ | ⟨f, rfl, h4⟩
    · -- no fiber: the context has no psock yet
      obtain ⟨a, o⟩ := r
      dsimp only at hu
      subst hu
      dsimp only
      apply TriF.bind
      unfold cleanupClient clientRelease
      apply TriF.bind
      apply TriF.then (P := fun _ _ => True)
      · exact Tri.use (by rw [h4, h3, one_self]; omega) trivial
      intro _ _ _
      dsimp only
      apply TriF.bind
      exact TriF.fault hw
    dsimp only
    unfold wrapCreate
    apply TriF.bind
    apply TriF.then (P := fun r c' => (∃ a, r = .error a ∧ a ≠ SUCCESS ∧ ¬ e.Willing ∧ c' = c4) ∨
      ∃ p, r = .ok p ∧ ∀ i j, c' i j = one p .mem i j + c4 i j)
    · apply Tri.get
      · intro a h hw; exact .inl ⟨a, rfl, h, hw, rfl⟩
      · intro p c' h; exact .inr ⟨p, rfl, h⟩
    have nosock : ∀ (a : Status) (c5 x : Heap) (Q : (Status × Sch × Option Client) → Heap → Prop), ¬ e.Willing →
        (∀ i j, c5 i j = x i j + c4 i j) →
        TriF (¬ e.Willing) e c5 (do
          let st ← cleanupFiber a f ⟨cp, none⟩ (some ⟨p, fd⟩)
          Pure.pure (st, w.sch, none)) Q := by
      intro a c5 x Q hw h5
      apply TriF.bind
      unfold cleanupFiber
      apply TriF.then (fiberRelease_tri g (c' := fun i j => x i j + c3 i j) fun i j => by rw [h5, h4]; omega)
      rintro _ c6 ⟨rfl, h6⟩
      unfold cleanupClient clientRelease
      apply TriF.bind
      apply TriF.then (P := fun _ _ => True)
      · refine Tri.use ?_ trivial
        show 0 < c6 cp .mem
        have h6 := h6 cp .mem
        rw [h5, h4, h3, one_self] at h6
        omega
      intro _ _ _
      dsimp only
      apply TriF.bind
      exact TriF.fault hw
    rintro r c5 (⟨a, rfl, ha, hw, rfl⟩ | ⟨wp, rfl, h5⟩)
    · apply TriF.pure
      exact nosock a _ (fun _ _ => 0) _ hw (by simp)
    dsimp only
    apply TriF.then (P := fun _ c' => c5 = c')
    · exact Tri.use (by rw [h5, h4, h3, h2, one_self]; omega) rfl
    rintro _ _ rfl
    apply TriF.then (P := fun a c' => (e.Willing → a = SUCCESS) ∧ c5 = c')
    · exact Tri.ask fun a h => ⟨h, rfl⟩
    rintro a _ ⟨haw, rfl⟩
    apply TriF.ite
    · intro ha
      apply TriF.then (P := fun r c' => r = SUCCESS ∧ ∀ i j, c5 i j = one wp .mem i j + c' i j)
      · exact Tri.put g (by rw [h5, one_self]; omega) fun c' h => ⟨rfl, h⟩
      rintro _ c6 ⟨rfl, h6⟩
      apply TriF.pure
      exact nosock _ _ (fun _ _ => 0) _ (fun hw => ha (haw hw)) fun i j => by
        have := h6 i j; rw [h5] at this; omega
    intro _
    apply TriF.pure
    dsimp only
    apply TriF.then (P := fun _ c' => c5 = c')
    · exact Tri.use (by rw [h5, h4, h3, one_self]; omega) rfl
    rintro _ _ rfl
    have hall : ∀ i j, c5 i j = f.own i j + (Client.own ⟨cp, some ⟨wp, ⟨p, fd⟩⟩⟩ i j + c i j) := fun i j => by
      rw [h5, h4, h3, h2, h1]; simp only [Client.own, Two.own]; omega
    apply TriF.then (fiberAdd_ledger g (by
      rw [hall]; simp only [Fiber.own, one_self]; omega))
    rintro r c6 (⟨n, rfl, h6⟩ | ⟨ha, hw, x, h6⟩)
    · dsimp only
      rw [if_neg (fun c => c rfl)]
      exact TriF.pure (.inr (.inr ⟨n, f, _, rfl, by simp, fun i j => by rw [h6, hall]; omega⟩))
    · obtain ⟨a, sch⟩ := r
      dsimp only at ha ⊢
      rw [if_pos ha]
      apply TriF.bind
      unfold cleanupFiber
      apply TriF.bounded
      intro hb
      apply TriF.then (fiberRelease_tri g (c' := fun i j => x i j + (Client.own ⟨cp, some ⟨wp, ⟨p, fd⟩⟩⟩ i j + c i j))
        fun i j => by rw [h6, hall]; omega)
      rintro _ c7 ⟨rfl, h7⟩
      unfold cleanupClient
      apply TriF.then (clientRelease_tri g (by simp) (c' := fun i j => x i j + c i j) fun i j => by
        have := h7 i j; rw [h6, hall] at this; omega)
      rintro _ c8 ⟨rfl, h8⟩
      unfold cleanupSock
      apply TriF.pure
      apply TriF.pure
      refine .inr (.inl ⟨by cnt, hw, ?_⟩)
      have k1 := h8 fd .desc
      have k2 := h7 fd .desc
      have k3 := hb fd .desc
      simp only [Client.own, Two.own, one_self] at k1
      omega
  intro s hs
  rcases hd s hs with h | ⟨r, s', c', h2, h3, h4⟩
  · exact .inl h
  refine .inr ⟨r, s', c', h2, h3, ?_⟩
  obtain ⟨a, sch, cl⟩ := r
  rcases h4 with ⟨ha, hr, h4⟩ | ⟨ha, hw, h4⟩ | ⟨n, f, cl', hr, hcl, h4⟩
  · cases hr
    dsimp only at ha ⊢
    rw [if_pos ha]
    apply TriF.then (P := fun _ c2 => ∀ i j, c' i j = one fd .desc i j + c2 i j)
    · exact Tri.drop (by rw [h4, h1, one_self]; omega) fun _ _ h => h
    intro _ c2 h5
    exact TriF.pure ⟨⟨fs, hsch, hlen, fun i j => by have := h5 i j; rw [h4, h1, hc] at this; dsimp only; omega⟩, hsk⟩
  · dsimp only at ha ⊢
    rw [if_pos ha]
    apply TriF.bind
    exact TriF.drop_gone h4 hw
  · cases hr
    dsimp only
    rw [if_neg (fun c => c rfl)]
    apply TriF.pure
    refine ⟨⟨(n, f) :: fs, by simp [hsch], by simp [hlen], fun i j => ?_⟩, ?_⟩
    · dsimp only [total, nodeOwn]
      rw [h4, hc]; omega
    · intro x hx
      rcases List.mem_cons.1 hx with rfl | hx
      · exact hcl
      · exact hsk x hx

theorem bye_tri (g : e.Good) {base : Heap} {sch0 : Sch} {w : Server} (n : Nat) (h : Inv base sch0 w c) :
    Tri e c (bye n w) fun r c' => Inv base sch0 r.2 c' := by
  obtain ⟨⟨fs, hsch, hlen, hc⟩, hsk⟩ := h
  unfold bye
  cases hn : w.clients[n]? with
  | none => exact Tri.pure ⟨⟨fs, hsch, hlen, hc⟩, hsk⟩
  | some x =>
    have hlt : n < w.clients.length := (List.getElem?_eq_some_iff.1 hn).1
    have ht := total_erase (own := Client.own) hn
    dsimp only
    apply Tri.bind
    refine (clientRelease_tri g (hsk x (List.mem_of_getElem? hn))
      (c' := fun i j => total nodeOwn fs i j + total Client.own (w.clients.eraseIdx n) i j + base i j)
      fun i j => by rw [hc, ht]; omega).mono ?_
    rintro _ c1 ⟨rfl, h1⟩
    have h1' : ∀ i j, c1 i j = total nodeOwn fs i j + total Client.own (w.clients.eraseIdx n) i j + base i j := fun i j => by
      have := h1 i j; rw [hc, ht] at this; omega
    unfold fiberRemove
    obtain ⟨⟨node, f⟩, hy⟩ : ∃ y, fs[n]? = some y := ⟨fs[n]'(by omega), List.getElem?_eq_getElem (by omega)⟩
    have hy' : w.sch.fibers[n]? = some (node, f) := by
      rw [hsch]; show (fs ++ sch0.fibers)[n]? = _
      rw [List.getElem?_append_left (by omega), hy]
    have hty := total_erase (own := nodeOwn) hy
    rw [hy']
    dsimp only
    have hpos : 0 < c1 node .mem := by rw [h1', hty]; simp only [nodeOwn, one_self]; omega
    apply Tri.bind
    apply Tri.bind
    refine Tri.use hpos ?_
    apply Tri.bind
    refine Tri.put g hpos ?_
    intro c2 h2
    apply Tri.pure
    dsimp only
    rw [if_neg (fun c => c rfl)]
    apply Tri.bind
    have h2' : ∀ i j, c2 i j = f.own i j + (total nodeOwn (fs.eraseIdx n) i j + total Client.own (w.clients.eraseIdx n) i j + base i j) :=
      fun i j => by
        have := h2 i j
        rw [h1', hty] at this
        simp only [nodeOwn] at this
        omega
    refine (fiberRelease_tri g h2').mono ?_
    rintro _ c3 ⟨rfl, h3⟩
    apply Tri.pure
    refine ⟨⟨fs.eraseIdx n, ?_, ?_, fun i j => ?_⟩, ?_⟩
    · dsimp only
      rw [hsch]
      simp only
      rw [List.eraseIdx_append_of_lt_length (by omega)]
    · rw [List.length_eraseIdx, List.length_eraseIdx]; simp [hlen]
    · have := h3 i j; rw [h2'] at this; dsimp only; omega
    · intro y hy; exact hsk y (List.mem_of_mem_eraseIdx hy)

theorem run_tri (g : e.Good) {base : Heap} {sch0 : Sch} (os : List Ev) {w : Server} {c : Heap} (h : Inv base sch0 w c) :
    TriF (¬ e.Willing) e c (w.run os) fun w' c' => Inv base sch0 w' c' := by
  induction os generalizing w c with
  | nil => exact TriF.pure h
  | cons o os ih =>
    unfold Server.run
    apply TriF.bind
    have : TriF (¬ e.Willing) e c (w.step o) fun r c' => Inv base sch0 r.2 c' := by
      cases o with
      | accept q => exact accept_tri g q h
      | bye n => exact TriF.of (bye_tri g n h)
    intro s hs
    rcases this s hs with h1 | ⟨r, s', c', h1, h2, h3⟩
    · exact .inl h1
    · exact .inr ⟨r, s', c', h1, h2, ih h3⟩

/-- a server without connections, over whatever is held -/
theorem start_inv {w : Server} {s : St} (hs : s.Ok) (h0 : w.clients = []) :
    Holds s (fun i j => if s.live i = some j then 1 else 0) ∧
    Inv (fun i j => if s.live i = some j then 1 else 0) w.sch w (fun i j => if s.live i = some j then 1 else 0) := by
  refine ⟨⟨hs, fun _ _ => rfl⟩, ⟨[], by simp, by simp [h0], fun i j => ?_⟩, by simp [h0]⟩
  rw [h0]; simp [total]

/-- C86 (part): a history of the server that can be carried out keeps nothing of the connections that have
ended: when all have ended, exactly that is held which was held before, and the scheduler is as before.
Missing: histories in which something is refused after the psock of a connection has been created; they
cannot be carried out (below). -/
theorem connections_balanced_partial (g : e.Good) {w w' : Server} {s s' : St} (hs : s.Ok) (h0 : w.clients = []) {os : List Ev}
    (h : w.run os e s = some (w', s')) (h1 : w'.clients = []) : w'.sch = w.sch ∧ ∀ i, s'.live i = s.live i := by
  obtain ⟨a, b⟩ := start_inv (w := w) hs h0
  rcases run_tri g os b s a with ⟨c1, _⟩ | ⟨w1, s1, c', c1, c2, ⟨fs, c3, c4, c5⟩, c6⟩
  · rw [h] at c1; cases c1
  · rw [h] at c1
    cases c1
    rw [h1] at c4 c5
    have : fs = [] := List.length_eq_zero_iff.1 c4
    subst this
    refine ⟨by rw [c3]; rfl, fun i => ?_⟩
    have key : ∀ k, s'.live i = some k ↔ s.live i = some k := fun k => by
      have k1 := c2.eq i k
      have k2 := c5 i k
      simp only [total] at k2
      rw [k1] at k2
      by_cases x : s'.live i = some k <;> by_cases y : s.live i = some k <;> simp_all
    cases x : s'.live i with
    | some k => exact ((key k).1 x).symm
    | none =>
      cases y : s.live i with
      | none => rfl
      | some k => rw [(key k).2 y] at x; cases x

/-- C86 (part): as long as a connection has not ended, its descriptor is open, and it is that of no other
connection. Missing: as above. -/
theorem connections_open_partial (g : e.Good) {w w' : Server} {s s' : St} (hs : s.Ok) (h0 : w.clients = []) {os : List Ev}
    (h : w.run os e s = some (w', s')) :
    (∀ x ∈ w'.clients, ∃ k, x.sock = some k ∧ s'.live k.child.q = some .desc) ∧
    (w'.clients.map fun x => x.sock.map fun k => k.child.q).Nodup := by
  obtain ⟨a, b⟩ := start_inv (w := w) hs h0
  rcases run_tri g os b s a with ⟨c1, _⟩ | ⟨w1, s1, c', c1, c2, ⟨fs, c3, c4, c5⟩, c6⟩
  · rw [h] at c1; cases c1
  · rw [h] at c1
    cases c1
    have hb : ∀ i j, total Client.own w'.clients i j ≤ 1 := fun i j => by
      have k1 := c2.eq i j
      have k2 := c5 i j
      split at k1 <;> omega
    refine ⟨fun x hx => ?_, ?_⟩
    · cases hk : x.sock with
      | none => exact absurd hk (c6 x hx)
      | some k =>
        refine ⟨k, rfl, ?_⟩
        have k1 := c2.eq k.child.q .desc
        have k2 := c5 k.child.q .desc
        have k3 := total_mem (own := Client.own) hx k.child.q .desc
        simp only [Client.own, hk, Two.own, one_self] at k3
        by_cases hl : s'.live k.child.q = some .desc
        · exact hl
        · rw [if_neg hl] at k1; omega
    · clear c4 c5 h
      generalize w'.clients = l at *
      induction l with
      | nil => simp
      | cons x l ih =>
        rw [List.map_cons, List.nodup_cons]
        refine ⟨?_, ih (fun y hy => c6 y (List.mem_cons_of_mem _ hy)) fun i j => by
          have := hb i j; simp only [total] at this; omega⟩
        intro hx
        obtain ⟨y, hy, hyx⟩ := List.mem_map.1 hx
        cases hk : x.sock with
        | none => exact absurd hk (c6 x List.mem_cons_self)
        | some k =>
          cases hk' : y.sock with
          | none => exact absurd hk' (c6 y (List.mem_cons_of_mem _ hy))
          | some k' =>
            rw [hk, hk'] at hyx
            simp only [Option.map_some, Option.some.injEq] at hyx
            have k3 := total_mem (own := Client.own) hy k.child.q .desc
            have k4 := hb k.child.q .desc
            simp only [total, Client.own, hk, Two.own, one_self] at k4
            simp only [Client.own, hk', Two.own, hyx, one_self] at k3
            omega

/-- C86 (part): when nothing is refused, every history can be carried out. -/
theorem connections_defined_partial (g : e.Good) (hw : e.Willing) {w : Server} {s : St} (hs : s.Ok) (h0 : w.clients = [])
    (os : List Ev) : ∃ w' s', w.run os e s = some (w', s') := by
  obtain ⟨a, b⟩ := start_inv (w := w) hs h0
  rcases run_tri g os b s a with ⟨_, c1⟩ | ⟨w1, s1, c', c1, _⟩
  · exact absurd hw c1
  · exact ⟨w1, s1, c1⟩

theorem bind_apply {m : M α} {f : α → M β} {s : St} :
    (m >>= f) e s = match m e s with
      | none => none
      | some (a, s') => f a e s' := rfl

theorem pure_apply {a : α} {s : St} : (Pure.pure a : M α) e s = some (a, s) := rfl

/-- C86 fails: when anything is refused for a new connection after its psock has been created, the server
reads through NULL, or closes the descriptor of the connection although it has been closed. The things asked
for are, from the third on: the context, the fiber, its stack (two), the wrapper, non-blocking mode, the node
of the scheduler's tree, and three places in the run queue. -/
theorem refusal_violated (g : e.Good) {w : Server} {s : St} {k : Nat} (h2 : 2 ≤ k) (h11 : k ≤ 11)
    (hb : ∀ j, j < k → e.ask (s.asks + j) = SUCCESS) (hk : e.ask (s.asks + k) ≠ SUCCESS) :
    accept false w e s = none := by
  have b0 := hb 0 (by omega)
  have b1 := hb 1 (by omega)
  have oom := oom_ne
  rw [Nat.add_zero] at b0
  obtain rfl | rfl | rfl | rfl | rfl | rfl | rfl | rfl | rfl | rfl :
    k = 2 ∨ k = 3 ∨ k = 4 ∨ k = 5 ∨ k = 6 ∨ k = 7 ∨ k = 8 ∨ k = 9 ∨ k = 10 ∨ k = 11 := by omega
  all_goals
    try have b2 := hb 2 (by omega)
    try have b3 := hb 3 (by omega)
    try have b4 := hb 4 (by omega)
    try have b5 := hb 5 (by omega)
    try have b6 := hb 6 (by omega)
    try have b7 := hb 7 (by omega)
    try have b8 := hb 8 (by omega)
    try have b9 := hb 9 (by omega)
    try have b10 := hb 10 (by omega)
    clear hb
    simp [accept, dispatch, descCreate, clientCreate, fiberCreate, stackCreate, wrapCreate, fiberAdd, cleanupFiber,
      cleanupClient, cleanupSock, fiberRelease, stackRelease, clientRelease, wrapRelease, descRelease, fault, over, first,
      bind_apply, pure_apply, Life.get, Life.ask, Life.put, Life.drop, Life.use, g _, *, Nat.add_assoc]

/-! ### The hypotheses are met -/

/-- a server with the scheduler's two vectors -/
def fresh : Server := ⟨⟨[], [], some 0, some 1, none⟩, []⟩
def freshSt : St := ⟨fun i => if i < 2 then some .mem else none, 2, 0, 0⟩

theorem freshSt_ok : freshSt.Ok := fun i (hi : 2 ≤ i) => by
  show (if i < 2 then some Kind.mem else none) = none
  rw [if_neg (by omega)]

def grant : Env := ⟨fun _ => SUCCESS, fun _ => SUCCESS⟩
/-- the n-th thing asked for is refused -/
def refuse (n : Nat) : Env := ⟨fun i => if i = n then ERROR_GENERAL_OUT_OF_MEMORY else SUCCESS, fun _ => SUCCESS⟩

/-- three connections, one of them during quiescence, end in another order than they came -/
def day : List Ev := [.accept false, .accept false, .accept true, .bye 1, .accept false, .bye 1, .bye 0]

/-- The connections at the end, and what is held. -/
def look (e : Env) (os : List Ev) : Option (Nat × List (Option Kind)) :=
  (fresh.run os e freshSt).map fun r => (r.1.clients.length, ((List.range r.2.next).map r.2.live).filter (·.isSome))

example : grant.Good ∧ grant.Willing ∧ look grant day = some (0, [some .mem, some .mem]) := by
  refine ⟨fun _ => rfl, fun _ => rfl, by decide +kernel⟩
example : (look grant (day.take 5)).map (·.1) = some 2 := by decide +kernel
-- the psock of the second connection is refused: its descriptor is closed, the rest goes on
example : (refuse 13).Good ∧ look (refuse 13) day = some (0, [some .mem, some .mem]) :=
  ⟨fun _ => rfl, by decide +kernel⟩
-- its context is refused
example : look (refuse 14) day = none := by decide +kernel
example : accept false fresh (refuse 7) freshSt = none :=
  refusal_violated (fun _ => rfl) (k := 7) (by decide) (by decide) (by decide) (by decide)

end Rcpr.EchoLife
