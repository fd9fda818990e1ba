import Verif.PsockMsgSpec

/-! Lemmas about `Verif.PsockMsg`. -/
namespace Rcpr.Msg

open Rcpr

/-- Between `k` and `k'`, `ms` and `cs` were taken from the messages and connections, in order, `sent` was
sent and `os` were set; everything that arrived is still there or was taken. -/
structure Moved (k k' : K) (ms : List (List Nat)) (cs : List Nat) (sent : List (List Nat)) (os : List Nat) :
    Prop where
  msgs : ∃ a, k'.arrived = k.arrived ++ a ∧ k.inq ++ a = ms ++ k'.inq
  cons : ∃ b, k'.backlog = k.backlog ++ b ∧ k.conns ++ b = cs ++ k'.conns
  out : k'.out = k.out ++ sent
  opts : k'.opts = k.opts ++ os
  waits : ∃ w, k.waits = w ++ k'.waits

theorem Moved.refl (k : K) : Moved k k [] [] [] [] :=
  ⟨⟨[], by simp⟩, ⟨[], by simp⟩, by simp, by simp, ⟨[], rfl⟩⟩

theorem Moved.trans {k k1 k2 : K} {ms cs sent os ms' cs' sent' os'}
    (h : Moved k k1 ms cs sent os) (h' : Moved k1 k2 ms' cs' sent' os') :
    Moved k k2 (ms ++ ms') (cs ++ cs') (sent ++ sent') (os ++ os') := by
  obtain ⟨a, ha, ha'⟩ := h.msgs
  obtain ⟨a2, ha2, ha2'⟩ := h'.msgs
  obtain ⟨b, hb, hb'⟩ := h.cons
  obtain ⟨b2, hb2, hb2'⟩ := h'.cons
  obtain ⟨w, hw⟩ := h.waits
  obtain ⟨w2, hw2⟩ := h'.waits
  refine ⟨⟨a ++ a2, by rw [ha2, ha, List.append_assoc], ?_⟩, ⟨b ++ b2, by rw [hb2, hb, List.append_assoc], ?_⟩,
    by rw [h'.out, h.out, List.append_assoc], by rw [h'.opts, h.opts, List.append_assoc],
    ⟨w ++ w2, by rw [hw, hw2, List.append_assoc]⟩⟩
  · rw [← List.append_assoc, ha', List.append_assoc, ha2', List.append_assoc]
  · rw [← List.append_assoc, hb', List.append_assoc, hb2', List.append_assoc]

/-- Nothing was taken or done. -/
structure Quiet (k k' : K) : Prop where
  fds : k'.fds = k.fds
  moved : Moved k k' [] [] [] []

theorem Quiet.refl (k : K) : Quiet k k := ⟨rfl, .refl k⟩

theorem Quiet.trans {k k1 k2 : K} (h : Quiet k k1) (h' : Quiet k1 k2) : Quiet k k2 :=
  ⟨h'.fds.trans h.fds, by simpa using h.moved.trans h'.moved⟩

theorem quiet_next (k : K) : Quiet k k.next.2 := by
  unfold K.next
  split
  · exact .refl k
  · exact ⟨rfl, ⟨⟨[], by simp⟩, ⟨[], by simp⟩, by simp, by simp, ⟨[], rfl⟩⟩⟩

theorem moved_arrive (k : K) (ms : List (List Nat)) (cs : List Nat) : Quiet k (k.arrive ms cs) :=
  ⟨rfl, ⟨⟨ms, rfl, by simp [K.arrive]⟩, ⟨cs, rfl, by simp [K.arrive]⟩, by simp [K.arrive], by simp [K.arrive],
    ⟨[], rfl⟩⟩⟩

theorem quiet_wait {k k' : K} {st : Status} (h : k.wait = some (k', st)) :
    Quiet k k' ∧ (st ≠ SUCCESS → ∃ w ∈ k.waits, w.1 = st) := by
  unfold K.wait at h
  split at h
  · cases h
    exact ⟨.refl k, fun h => (h rfl).elim⟩
  · rename_i st' ms cs ws hw
    cases h
    refine ⟨⟨rfl, ⟨⟨ms, rfl, by simp [K.arrive]⟩, ⟨cs, rfl, by simp [K.arrive]⟩, by simp [K.arrive],
      by simp [K.arrive], ⟨[(st, ms, cs)], by simp [K.arrive, hw]⟩⟩⟩, fun _ => ⟨(st, ms, cs), by simp [hw], rfl⟩⟩

/-- What `accept` does. -/
theorem fdAccept_spec {k k' : K} {st : Status} {r : Option Nat} (h : fdAccept k = some (k', st, r)) :
    (st ≠ SUCCESS ∧ r = none ∧ Quiet k k') ∨
    (st = SUCCESS ∧ ∃ f d, slot k.fds = some d ∧ r = some d ∧ k'.fds = k.fds.set d (some f) ∧
      Moved k k' [] [f] [] []) := by
  have hq := quiet_next k
  unfold fdAccept at h
  split at h
  · rename_i k1 hn
    rw [hn] at hq
    cases h
    exact .inl ⟨by decide, rfl, hq⟩
  · rename_i k1 hn
    rw [hn] at hq
    cases h
    exact .inl ⟨by decide, rfl, hq⟩
  · rename_i k1 hn
    rw [hn] at hq
    split at h
    · cases h
      exact .inl ⟨by decide, rfl, hq⟩
    · rename_i f cs hc
      split at h
      · cases h
        exact .inl ⟨by decide, rfl, hq⟩
      · rename_i d hd
        cases h
        refine .inr ⟨rfl, f, d, by rw [← hq.fds]; exact hd, rfl, by rw [← hq.fds], ?_⟩
        have : Moved k1 { k1 with conns := cs, fds := k1.fds.set d (some f) } [] [f] [] [] :=
          ⟨⟨[], by simp⟩, ⟨[], by simp [hc]⟩, by simp, by simp, ⟨[], rfl⟩⟩
        simpa using hq.moved.trans this

/-- What `recvmsg` does. -/
theorem fdRecvmsg_spec {n : Nat} {k k' : K} {st : Status} {r : Option (List Nat)}
    (h : fdRecvmsg n k = some (k', st, r)) :
    (st ≠ SUCCESS ∧ r = none ∧ Quiet k k') ∨
    (st = SUCCESS ∧ ∃ m, r = some (install k.fds (m.take ((n - CMSGHDR) / 4))).2 ∧
      k'.fds = (install k.fds (m.take ((n - CMSGHDR) / 4))).1 ∧ Moved k k' [m] [] [] []) := by
  have hq := quiet_next k
  unfold fdRecvmsg at h
  split at h
  · rename_i k1 hn
    rw [hn] at hq
    cases h
    exact .inl ⟨by decide, rfl, hq⟩
  · rename_i k1 hn
    rw [hn] at hq
    cases h
    exact .inl ⟨by decide, rfl, hq⟩
  · rename_i k1 hn
    rw [hn] at hq
    split at h
    · cases h
      exact .inl ⟨by decide, rfl, hq⟩
    · rename_i m ms hm
      cases h
      refine .inr ⟨rfl, m, by rw [← hq.fds], by rw [← hq.fds], ?_⟩
      have : Moved k1 { k1 with inq := ms, fds := (install k1.fds (m.take ((n - CMSGHDR) / 4))).1 }
          [m] [] [] [] :=
        ⟨⟨[], by simp [hm]⟩, ⟨[], by simp⟩, by simp, by simp, ⟨[], rfl⟩⟩
      simpa using hq.moved.trans this

/-- What `sendmsg` does. -/
theorem fdSendmsg_spec {d : Nat} {k k' : K} {st : Status} {r : Option Unit}
    (h : fdSendmsg d k = some (k', st, r)) :
    (st ≠ SUCCESS ∧ Quiet k k') ∨
    (st = SUCCESS ∧ ∃ f, k.fds[d]? = some (some f) ∧ k'.fds = k.fds ∧ Moved k k' [] [] [[f]] []) := by
  have hq := quiet_next k
  unfold fdSendmsg at h
  split at h
  · rename_i k1 hn
    rw [hn] at hq
    cases h
    exact .inl ⟨by decide, hq⟩
  · rename_i k1 hn
    rw [hn] at hq
    cases h
    exact .inl ⟨by decide, hq⟩
  · rename_i k1 hn
    rw [hn] at hq
    split at h
    · cases h
      exact .inl ⟨by decide, hq⟩
    · cases h
      exact .inl ⟨by decide, hq⟩
    · rename_i f hf
      cases h
      refine .inr ⟨rfl, f, by rw [← hq.fds]; exact hf, hq.fds, ?_⟩
      have : Moved k1 { k1 with out := k1.out ++ [[f]] } [] [] [[f]] [] :=
        ⟨⟨[], by simp⟩, ⟨[], by simp⟩, by simp, by simp, ⟨[], rfl⟩⟩
      simpa using hq.moved.trans this

/-- What `setsockopt` does. -/
theorem fdSetsockopt_spec {o : Nat} {k k' : K} {st : Status} {r : Option Unit}
    (h : fdSetsockopt o k = some (k', st, r)) :
    (st ≠ SUCCESS ∧ Quiet k k') ∨
    (st = SUCCESS ∧ k'.fds = k.fds ∧ Moved k k' [] [] [] [o]) := by
  have hq := quiet_next k
  unfold fdSetsockopt at h
  split at h
  · rename_i k1 hn
    rw [hn] at hq
    cases h
    refine .inr ⟨rfl, hq.fds, ?_⟩
    have : Moved k1 { k1 with opts := k1.opts ++ [o] } [] [] [] [o] :=
      ⟨⟨[], by simp⟩, ⟨[], by simp⟩, by simp, by simp, ⟨[], rfl⟩⟩
    simpa using hq.moved.trans this
  · rename_i e k1 hne hn
    rw [hn] at hq
    cases h
    exact .inl ⟨by decide, hq⟩

/-- A loop ends with an answer other than would-block, or with a wait that failed. -/
theorem retry_spec {α : Type} {wb : Status} {op : Op K α}
    (hop : ∀ k k' r, op k = some (k', wb, r) → Quiet k k') :
    ∀ (fuel : Nat) (k k' : K) (st : Status) (r : Option α), retry wb op K.wait fuel k = some (k', st, r) →
      (∃ k1, Quiet k k1 ∧ op k1 = some (k', st, r) ∧ st ≠ wb) ∨
      (st ≠ SUCCESS ∧ r = none ∧ Quiet k k' ∧ ∃ w ∈ k.waits, w.1 = st) := by
  intro fuel
  induction fuel with
  | zero => intro k k' st r h; cases h
  | succ n ih =>
    intro k k' st r h
    unfold retry at h
    split at h
    · cases h
    · rename_i k1 st1 r1 h1
      split at h
      · rename_i hwb
        subst hwb
        have q1 := hop _ _ _ h1
        split at h
        · cases h
        · rename_i k2 st2 h2
          obtain ⟨q2, hw2⟩ := quiet_wait h2
          have q := q1.trans q2
          split at h
          · rename_i hst
            cases h
            obtain ⟨w, hw, e⟩ := hw2 hst
            obtain ⟨v, hv⟩ := q1.moved.waits
            exact .inr ⟨hst, rfl, q, w, by rw [hv]; simp [hw], e⟩
          · rcases ih _ _ _ _ h with ⟨k3, q3, h3, h4⟩ | ⟨hs, hr, q3, w, hw, e⟩
            · exact .inl ⟨k3, q.trans q3, h3, h4⟩
            · obtain ⟨v, hv⟩ := q.moved.waits
              exact .inr ⟨hs, hr, q.trans q3, w, by rw [hv]; simp [hw], e⟩
      · rename_i hwb
        cases h
        exact .inl ⟨k, .refl k, h1, hwb⟩

theorem slot_spec {t : List (Option Nat)} {d : Nat} (h : slot t = some d) (f : Nat) :
    file t d = none ∧ file (t.set d (some f)) d = some f ∧ ∀ i, i ≠ d → file (t.set d (some f)) i = file t i := by
  unfold slot at h
  rw [List.findIdx?_eq_some_iff_getElem] at h
  obtain ⟨hd, hn, -⟩ := h
  have hn : t[d] = none := by simpa using hn
  refine ⟨by simp [file, hd, hn], by simp [file, hd], fun i hi => ?_⟩
  simp [file, List.getElem?_set_ne (Ne.symm hi)]

theorem slot_none {t : List (Option Nat)} (h : slot t = none) : ∀ i, i < t.length → file t i ≠ none := by
  unfold slot at h
  rw [List.findIdx?_eq_none_iff] at h
  intro i hi hf
  have := h t[i] (by simp)
  simp only [file, List.getElem?_eq_getElem hi] at hf
  cases hx : t[i] <;> simp_all

theorem install_length (t : List (Option Nat)) (fs : List Nat) : (install t fs).1.length = t.length := by
  induction fs generalizing t with
  | nil => rfl
  | cons f fs ih =>
    unfold install
    split
    · rfl
    · simp [ih]

/-- One step of a history, as `Trace` wants it. -/
structure Step (c : Cmd) (o : Out) (k k' : K) : Prop where
  len : k'.fds.length = k.fds.length
  step : ∃ ms cs sent set, Moved k k' ms cs sent set ∧
    ((∀ m ∈ ms, m.length ≤ 1) → ∀ os ms' cs' sent' set' v,
      Trace k.fds.length (file k'.fds) os ms' cs' sent' set' v →
      Trace k.fds.length (file k.fds) ((c, o) :: os) (ms ++ ms') (cs ++ cs') (sent ++ sent') (set ++ set') v)

theorem Step.quiet {c : Cmd} {o : Out} {k k' : K} (q : Quiet k k')
    (h : ∀ n v os ms cs sent set v', Trace n v os ms cs sent set v' → Trace n v ((c, o) :: os) ms cs sent set v') :
    Step c o k k' :=
  ⟨by rw [q.fds], [], [], [], [], q.moved, fun _ _ _ _ _ _ _ t => by rw [q.fds] at t; exact h _ _ _ _ _ _ _ _ t⟩

theorem read_step {n : Nat} {k k1 k' : K} {st : Status} {r : Option (List Nat)} {o : Out}
    (q : Quiet k k1) (hn : (n - CMSGHDR) / 4 ≠ 0) (h : fdRecvmsg n k1 = some (k', st, r))
    (ho : o = if st ≠ SUCCESS then (st, some (-1)) else
      match r with
      | some (d :: _) => (SUCCESS, some (Int.ofNat d))
      | _ => (ERROR_PSOCK_READ_GENERAL, some (-1))) :
    Step .read o k k' := by
  rcases fdRecvmsg_spec h with ⟨hs, hr, q'⟩ | ⟨hs, m, hr, hf, hm⟩
  · have qq := q.trans q'
    rw [if_pos hs] at ho
    subst ho
    exact .quiet qq fun _ _ _ _ _ _ _ _ t => .noRead hs (.inr rfl) t
  · rw [q.fds] at hr hf
    refine ⟨by rw [hf, install_length], [m], [], [], [], by simpa using q.moved.trans hm, fun h1 os ms' cs' sent' set' v t => ?_⟩
    have h1 := h1 m (by simp)
    rw [if_neg (by simp [hs])] at ho
    match m, h1 with
    | [], _ =>
      have : install k.fds (([] : List Nat).take ((n - CMSGHDR) / 4)) = (k.fds, []) := by simp [install]
      rw [this] at hr hf
      subst hr
      subst ho
      rw [hf] at t
      exact .empty (.inl rfl) t
    | [f], _ =>
      have e : ([f] : List Nat).take ((n - CMSGHDR) / 4) = [f] := by
        rw [List.take_of_length_le]
        simp only [List.length_cons, List.length_nil]
        omega
      rw [e] at hr hf
      cases hsl : slot k.fds with
      | none =>
        have : install k.fds [f] = (k.fds, []) := by simp [install, hsl]
        rw [this] at hr hf
        subst hr
        subst ho
        rw [hf] at t
        exact .empty (.inr (slot_none hsl)) t
      | some d =>
        have : install k.fds [f] = (k.fds.set d (some f), [d]) := by simp [install, hsl]
        rw [this] at hr hf
        subst hr
        subst ho
        rw [hf] at t
        exact .got (slot_spec hsl f) t

theorem accept_step {k k1 k' : K} {st : Status} {r : Option Nat} (q : Quiet k k1)
    (h : fdAccept k1 = some (k', st, r)) : Step .accept (st, r.map Int.ofNat) k k' := by
  rcases fdAccept_spec h with ⟨hs, hr, q'⟩ | ⟨hs, f, d, hd, hr, hf, hm⟩
  · subst hr
    exact .quiet (q.trans q') fun _ _ _ _ _ _ _ _ t => .noAccept hs t
  · subst hs hr
    rw [q.fds] at hd hf
    refine ⟨by rw [hf, List.length_set], [], [f], [], [], by simpa using q.moved.trans hm, fun _ _ _ _ _ _ _ t => ?_⟩
    rw [hf] at t
    exact .accepted (slot_spec hd f) t

theorem write_step {d : Nat} {k k1 k' : K} {st : Status} {r : Option Unit} (q : Quiet k k1)
    (h : fdSendmsg d k1 = some (k', st, r)) : Step (.write d) (st, none) k k' := by
  rcases fdSendmsg_spec h with ⟨hs, q'⟩ | ⟨hs, f, hd, hf, hm⟩
  · exact .quiet (q.trans q') fun _ _ _ _ _ _ _ _ t => .noWrite hs t
  · subst hs
    rw [q.fds] at hd hf
    refine ⟨by rw [hf], [], [], [[f]], [], by simpa using q.moved.trans hm, fun _ _ _ _ _ _ _ t => ?_⟩
    rw [hf] at t
    exact .wrote (by simp [file, hd]) t

/-- Would-block answers are quiet. -/
theorem quiet_of_wb {P Q : Prop} {wb : Status} (hwb : wb ≠ SUCCESS) (h : P ∨ (wb = SUCCESS ∧ Q)) : P :=
  h.elim id fun h => (hwb h.1).elim

theorem exec_step (mode : Option Nat) (ty : Nat) {c : Cmd} {o : Out} {k k' : K}
    (h : exec (sock mode ty) c k = some (k', o)) : Step c o k k' := by
  have room : (CMSG_SPACE_INT - CMSGHDR) / 4 ≠ 0 := by decide
  cases c with
  | close d =>
    cases h
    refine ⟨by simp, [], [], [], [], ⟨⟨[], by simp⟩, ⟨[], by simp⟩, by simp, by simp, ⟨[], rfl⟩⟩,
      fun _ _ _ _ _ _ _ t => .close ?_ ?_ t⟩
    · by_cases hd : d < k.fds.length <;> simp [file, hd]
    · intro i hi
      simp [file, List.getElem?_set_ne (Ne.symm hi)]
  | arrive ms cs =>
    cases h
    exact .quiet (moved_arrive k ms cs) fun _ _ _ _ _ _ _ _ t => .arrive t
  | opt x =>
    simp only [exec, psockSetsockopt] at h
    cases mode with
    | some fuel =>
      simp only [sock, asyncDescriptor, async, Option.map_some, Option.some.injEq] at h
      cases h
      exact .quiet (.refl k) fun _ _ _ _ _ _ _ _ t => .noOpt (by decide) t
    | none =>
      simp only [sock, descriptor, Option.map_eq_some_iff] at h
      obtain ⟨⟨k1, st, r⟩, h, e⟩ := h
      cases e
      rcases fdSetsockopt_spec h with ⟨hs, q⟩ | ⟨hs, hf, hm⟩
      · exact .quiet q fun _ _ _ _ _ _ _ _ t => .noOpt hs t
      · subst hs
        refine ⟨by rw [hf], [], [], [], [x], hm, fun _ _ _ _ _ _ _ t => ?_⟩
        rw [hf] at t
        exact .opt t
  | accept =>
    simp only [exec, psockAccept] at h
    cases mode with
    | none =>
      simp only [sock, descriptor, Option.map_eq_some_iff] at h
      obtain ⟨⟨k1, st, r⟩, h, e⟩ := h
      cases e
      exact accept_step (.refl k) h
    | some fuel =>
      simp only [sock, asyncDescriptor, async, descriptor, Option.map_eq_some_iff] at h
      obtain ⟨⟨k1, st, r⟩, h, e⟩ := h
      cases e
      rcases retry_spec (fun k k' r h => (quiet_of_wb (by decide) (fdAccept_spec h)).2.2) _ _ _ _ _ h with
        ⟨k2, q, h2, -⟩ | ⟨hs, hr, q, -⟩
      · exact accept_step q h2
      · subst hr
        exact .quiet q fun _ _ _ _ _ _ _ _ t => .noAccept hs t
  | write d =>
    simp only [exec, writeRawDescriptor, Option.map_eq_some_iff] at h
    obtain ⟨⟨k1, st, r⟩, h, e⟩ := h
    cases e
    split at h
    · cases h
      exact .quiet (.refl k) fun _ _ _ _ _ _ _ _ t => .noWrite (by show ERROR_PSOCK_UNSUPPORTED_TYPE ≠ SUCCESS; decide) t
    · cases mode with
      | none => exact write_step (.refl k) h
      | some fuel =>
        simp only [sock, asyncDescriptor, async, descriptor] at h
        rcases retry_spec (fun k k' r h => (quiet_of_wb (by decide) (fdSendmsg_spec h)).2) _ _ _ _ _ h with
          ⟨k2, q, h2, -⟩ | ⟨hs, hr, q, -⟩
        · exact write_step q h2
        · exact .quiet q fun _ _ _ _ _ _ _ _ t => .noWrite hs t
  | read =>
    simp only [exec, readRawDescriptor] at h
    split at h
    · cases h
      exact .quiet (.refl k) fun _ _ _ _ _ _ _ _ t => .noRead (by decide) (.inl rfl) t
    · cases mode with
      | none =>
        simp only [sock, descriptor] at h
        split at h
        · cases h
        · rename_i k1 st r h1
          have e : k1 = k' ∧ o = if st ≠ SUCCESS then (st, some (-1)) else
              match r with
              | some (d :: _) => (SUCCESS, some (Int.ofNat d))
              | _ => (ERROR_PSOCK_READ_GENERAL, some (-1)) := by
            split at h
            · cases h; simp_all
            · split at h <;> cases h <;> simp_all
          obtain ⟨rfl, e⟩ := e
          exact read_step (.refl k) room h1 e
      | some fuel =>
        simp only [sock, asyncDescriptor, async, descriptor] at h
        split at h
        · cases h
        · rename_i k1 st r h1
          have e : k1 = k' ∧ o = if st ≠ SUCCESS then (st, some (-1)) else
              match r with
              | some (d :: _) => (SUCCESS, some (Int.ofNat d))
              | _ => (ERROR_PSOCK_READ_GENERAL, some (-1)) := by
            split at h
            · cases h; simp_all
            · split at h <;> cases h <;> simp_all
          obtain ⟨rfl, e⟩ := e
          rcases retry_spec (fun k k' r h => (quiet_of_wb (by decide) (fdRecvmsg_spec h)).2.2) _ _ _ _ _ h1 with
            ⟨k2, q, h2, -⟩ | ⟨hs, hr, q, -⟩
          · exact read_step q room h2 e
          · rw [if_pos hs] at e
            subst e
            exact .quiet q fun _ _ _ _ _ _ _ _ t => .noRead hs (.inr rfl) t

theorem run_step (mode : Option Nat) (ty : Nat) :
    ∀ (cs : List Cmd) (k k' : K) (os : List (Cmd × Out)), run (sock mode ty) cs k = some (k', os) →
      os.map (·.1) = cs ∧
      ∃ ms cn sent set, Moved k k' ms cn sent set ∧
        ((∀ m ∈ ms, m.length ≤ 1) → Trace k.fds.length (file k.fds) os ms cn sent set (file k'.fds)) := by
  intro cs
  induction cs with
  | nil =>
    intro k k' os h
    cases h
    exact ⟨rfl, [], [], [], [], .refl k, fun _ => .nil⟩
  | cons c cs ih =>
    intro k k' os h
    unfold run at h
    split at h
    · cases h
    · rename_i k1 o h1
      split at h
      · cases h
      · rename_i k2 os' h2
        cases h
        obtain ⟨hl, ms, cn, sent, set, hm, ht⟩ := exec_step mode ty h1
        obtain ⟨he, ms', cn', sent', set', hm', ht'⟩ := ih _ _ _ h2
        refine ⟨by simp [he], _, _, _, _, hm.trans hm', fun hs => ?_⟩
        rw [hl] at ht'
        exact ht (fun m h => hs m (by simp [h])) _ _ _ _ _ _ (ht' fun m h => hs m (by simp [h]))

/-- Every status that an asynchronous psock reports is not would-block, or comes from a wait. -/
theorem exec_block (fuel ty : Nat) {c : Cmd} {o : Out} {k k' : K}
    (h : exec (sock (some fuel) ty) c k = some (k', o)) :
    (o.1 ≠ ERROR_PSOCK_ACCEPT_WOULD_BLOCK ∧ o.1 ≠ ERROR_PSOCK_READ_WOULD_BLOCK ∧
      o.1 ≠ ERROR_PSOCK_WRITE_WOULD_BLOCK) ∨ ∃ w ∈ k.waits, w.1 = o.1 := by
  have sa : ∀ k k' st r, fdAccept k = some (k', st, r) → st = SUCCESS ∨ st = ERROR_PSOCK_ACCEPT_WOULD_BLOCK ∨
      st = ERROR_PSOCK_ACCEPT_GENERAL := by
    intro k k' st r h
    unfold fdAccept at h
    split at h
    · cases h; simp
    · cases h; simp
    · split at h
      · cases h; simp
      · split at h <;> cases h <;> simp
  have sr : ∀ n k k' st r, fdRecvmsg n k = some (k', st, r) → st = SUCCESS ∨ st = ERROR_PSOCK_READ_WOULD_BLOCK ∨
      st = ERROR_PSOCK_RECVMSG_FAILED := by
    intro n k k' st r h
    unfold fdRecvmsg at h
    split at h
    · cases h; simp
    · cases h; simp
    · split at h <;> cases h <;> simp
  have sw : ∀ d k k' st r, fdSendmsg d k = some (k', st, r) → st = SUCCESS ∨ st = ERROR_PSOCK_WRITE_WOULD_BLOCK ∨
      st = ERROR_PSOCK_SENDMSG_FAILED := by
    intro n k k' st r h
    unfold fdSendmsg at h
    split at h
    · cases h; simp
    · cases h; simp
    · split at h <;> cases h <;> simp
  cases c with
  | close d => cases h; exact .inl (by decide)
  | arrive ms cs => cases h; exact .inl (by decide)
  | opt x =>
    simp only [exec, psockSetsockopt, sock, asyncDescriptor, async, Option.map_some, Option.some.injEq] at h
    cases h
    exact .inl (by decide)
  | accept =>
    simp only [exec, psockAccept, sock, asyncDescriptor, async, descriptor, Option.map_eq_some_iff] at h
    obtain ⟨⟨k1, st, r⟩, h, e⟩ := h
    cases e
    rcases retry_spec (fun k k' r h => (quiet_of_wb (by decide) (fdAccept_spec h)).2.2) _ _ _ _ _ h with
      ⟨k2, q, h2, h3⟩ | ⟨hs, hr, q, hw⟩
    · rcases sa _ _ _ _ h2 with rfl | rfl | rfl
      · exact .inl (by dsimp only; decide)
      · exact (h3 rfl).elim
      · exact .inl (by dsimp only; decide)
    · exact .inr hw
  | write d =>
    simp only [exec, writeRawDescriptor, Option.map_eq_some_iff] at h
    obtain ⟨⟨k1, st, r⟩, h, e⟩ := h
    cases e
    split at h
    · cases h
      exact .inl (by show ERROR_PSOCK_UNSUPPORTED_TYPE ≠ _ ∧ ERROR_PSOCK_UNSUPPORTED_TYPE ≠ _ ∧ ERROR_PSOCK_UNSUPPORTED_TYPE ≠ _; decide)
    · simp only [sock, asyncDescriptor, async, descriptor] at h
      rcases retry_spec (fun k k' r h => (quiet_of_wb (by decide) (fdSendmsg_spec h)).2) _ _ _ _ _ h with
        ⟨k2, q, h2, h3⟩ | ⟨hs, hr, q, hw⟩
      · rcases sw _ _ _ _ _ h2 with rfl | rfl | rfl
        · exact .inl (by dsimp only; decide)
        · exact (h3 rfl).elim
        · exact .inl (by dsimp only; decide)
      · exact .inr hw
  | read =>
    simp only [exec, readRawDescriptor] at h
    split at h
    · cases h
      exact .inl (by decide)
    · simp only [sock, asyncDescriptor, async, descriptor] at h
      split at h
      · cases h
      · rename_i k1 st r h1
        have e : o.1 = st ∨ o.1 = SUCCESS ∨ o.1 = ERROR_PSOCK_READ_GENERAL := by
          split at h
          · cases h; simp
          · split at h <;> cases h <;> simp
        rcases e with e | e | e
        · rw [e]
          rcases retry_spec (fun k k' r h => (quiet_of_wb (by decide) (fdRecvmsg_spec h)).2.2) _ _ _ _ _ h1 with
            ⟨k2, q, h2, h3⟩ | ⟨hs, hr, q, hw⟩
          · rcases sr _ _ _ _ _ h2 with rfl | rfl | rfl
            · exact .inl (by decide)
            · exact (h3 rfl).elim
            · exact .inl (by decide)
          · exact .inr hw
        · rw [e]; exact .inl (by decide)
        · rw [e]; exact .inl (by decide)

/-- A loop ends when its operation stops answering would-block: `work` counts what is left of the schedule. -/
theorem retry_ends {α : Type} {wb : Status} {op : Op K α} (P : K → Prop) (work : K → Nat)
    (hop : ∀ k, P k → ∃ k' st r, op k = some (k', st, r) ∧
      (st = wb → ∃ k2 st2, K.wait k' = some (k2, st2) ∧ P k2 ∧ work k2 < work k)) :
    ∀ (fuel : Nat) (k : K), P k → work k < fuel → ∃ o, retry wb op K.wait fuel k = some o := by
  intro fuel
  induction fuel with
  | zero => intro k _ h; omega
  | succ n ih =>
    intro k hp hw
    obtain ⟨k', st, r, h, hb⟩ := hop k hp
    unfold retry
    rw [h]
    dsimp only
    split
    · rename_i hst
      obtain ⟨k2, st2, h2, hp2, hlt⟩ := hb hst
      rw [h2]
      dsimp only
      split
      · exact ⟨_, rfl⟩
      · exact ih k2 hp2 (by omega)
    · exact ⟨_, rfl⟩

theorem next_cases (k : K) : (k.script = [] ∧ k.next = (.go, k)) ∨
    ∃ e es, k.script = e :: es ∧ k.next = (e, { k with script := es }) := by
  unfold K.next
  split
  · rename_i h; exact .inl ⟨h, rfl⟩
  · rename_i e es h; exact .inr ⟨e, es, h, rfl⟩

/-- A wait keeps what is there, and shortens the schedule. -/
theorem wait_cases (k : K) : (k.waits = [] ∧ k.wait = some (k, SUCCESS)) ∨
    ∃ st ms cs ws, k.waits = (st, ms, cs) :: ws ∧ k.wait = some ({ k with waits := ws }.arrive ms cs, st) := by
  unfold K.wait
  split
  · rename_i h; exact .inl ⟨h, rfl⟩
  · rename_i st ms cs ws h; exact .inr ⟨st, ms, cs, ws, h, rfl⟩

theorem recv_ends (n : Nat) : ∀ k : K, (k.inq ≠ [] ∨ ∃ w ∈ k.waits, w.2.1 ≠ []) →
    ∃ k' st r, fdRecvmsg n k = some (k', st, r) ∧
      (st = ERROR_PSOCK_READ_WOULD_BLOCK → ∃ k2 st2, K.wait k' = some (k2, st2) ∧
        (k2.inq ≠ [] ∨ ∃ w ∈ k2.waits, w.2.1 ≠ []) ∧
        k2.script.length + k2.waits.length < k.script.length + k.waits.length) := by
  intro k hp
  have key : ∀ k' : K, k'.inq = k.inq → k'.waits = k.waits → k'.script.length ≤ k.script.length →
      (k'.script.length < k.script.length ∨ k.inq = []) → ∃ k2 st2, K.wait k' = some (k2, st2) ∧
        (k2.inq ≠ [] ∨ ∃ w ∈ k2.waits, w.2.1 ≠ []) ∧
        k2.script.length + k2.waits.length < k.script.length + k.waits.length := by
    intro k' hi hw hs hlt
    rcases wait_cases k' with ⟨he, h⟩ | ⟨st, ms, cs, ws, he, h⟩
    · rw [he] at hw
      rw [← hw] at hp
      have hin : k.inq ≠ [] := by simpa using hp
      refine ⟨k', SUCCESS, h, .inl (by rw [hi]; exact hin), ?_⟩
      rcases hlt with hlt | hlt
      · rw [he, ← hw]; simpa using hlt
      · exact (hin hlt).elim
    · rw [he] at hw
      refine ⟨_, st, h, ?_, by simp only [K.arrive]; rw [← hw]; simp only [List.length_cons]; omega⟩
      rcases hp with hp | ⟨w, hm, hne⟩
      · exact .inl (by simp [K.arrive, hi, hp])
      · rw [← hw] at hm
        rcases List.mem_cons.1 hm with rfl | hm
        · exact .inl (by dsimp only at hne; simp [K.arrive, hne])
        · exact .inr ⟨w, hm, hne⟩
  rcases next_cases k with ⟨hs, h⟩ | ⟨e, es, hs, h⟩
  · unfold fdRecvmsg
    rw [h]
    dsimp only
    split
    · rename_i hi
      exact ⟨_, _, _, rfl, fun _ => key k rfl rfl (Nat.le_refl _) (.inr hi)⟩
    · exact ⟨_, _, _, rfl, fun h => absurd h (by decide)⟩
  · unfold fdRecvmsg
    rw [h]
    have hl : es.length < k.script.length := by rw [hs]; simp
    cases e with
    | again => exact ⟨_, _, _, rfl, fun _ => key _ rfl rfl (Nat.le_of_lt hl) (.inl hl)⟩
    | fail => exact ⟨_, _, _, rfl, fun h => absurd h (by decide)⟩
    | go =>
      dsimp only
      split
      · exact ⟨_, _, _, rfl, fun _ => key _ rfl rfl (Nat.le_of_lt hl) (.inl hl)⟩
      · exact ⟨_, _, _, rfl, fun h => absurd h (by decide)⟩

theorem accept_ends' : ∀ k : K, (k.conns ≠ [] ∨ ∃ w ∈ k.waits, w.2.2 ≠ []) →
    ∃ k' st r, fdAccept k = some (k', st, r) ∧
      (st = ERROR_PSOCK_ACCEPT_WOULD_BLOCK → ∃ k2 st2, K.wait k' = some (k2, st2) ∧
        (k2.conns ≠ [] ∨ ∃ w ∈ k2.waits, w.2.2 ≠ []) ∧
        k2.script.length + k2.waits.length < k.script.length + k.waits.length) := by
  intro k hp
  have key : ∀ k' : K, k'.conns = k.conns → k'.waits = k.waits → k'.script.length ≤ k.script.length →
      (k'.script.length < k.script.length ∨ k.conns = []) → ∃ k2 st2, K.wait k' = some (k2, st2) ∧
        (k2.conns ≠ [] ∨ ∃ w ∈ k2.waits, w.2.2 ≠ []) ∧
        k2.script.length + k2.waits.length < k.script.length + k.waits.length := by
    intro k' hi hw hs hlt
    rcases wait_cases k' with ⟨he, h⟩ | ⟨st, ms, cs, ws, he, h⟩
    · rw [he] at hw
      rw [← hw] at hp
      have hin : k.conns ≠ [] := by simpa using hp
      refine ⟨k', SUCCESS, h, .inl (by rw [hi]; exact hin), ?_⟩
      rcases hlt with hlt | hlt
      · rw [he, ← hw]; simpa using hlt
      · exact (hin hlt).elim
    · rw [he] at hw
      refine ⟨_, st, h, ?_, by simp only [K.arrive]; rw [← hw]; simp only [List.length_cons]; omega⟩
      rcases hp with hp | ⟨w, hm, hne⟩
      · exact .inl (by simp [K.arrive, hi, hp])
      · rw [← hw] at hm
        rcases List.mem_cons.1 hm with rfl | hm
        · exact .inl (by dsimp only at hne; simp [K.arrive, hne])
        · exact .inr ⟨w, hm, hne⟩
  rcases next_cases k with ⟨hs, h⟩ | ⟨e, es, hs, h⟩
  · unfold fdAccept
    rw [h]
    dsimp only
    split
    · rename_i hi
      exact ⟨_, _, _, rfl, fun _ => key k rfl rfl (Nat.le_refl _) (.inr hi)⟩
    · split <;> exact ⟨_, _, _, rfl, fun h => absurd h (by decide)⟩
  · unfold fdAccept
    rw [h]
    have hl : es.length < k.script.length := by rw [hs]; simp
    cases e with
    | again => exact ⟨_, _, _, rfl, fun _ => key _ rfl rfl (Nat.le_of_lt hl) (.inl hl)⟩
    | fail => exact ⟨_, _, _, rfl, fun h => absurd h (by decide)⟩
    | go =>
      dsimp only
      split
      · exact ⟨_, _, _, rfl, fun _ => key _ rfl rfl (Nat.le_of_lt hl) (.inl hl)⟩
      · split <;> exact ⟨_, _, _, rfl, fun h => absurd h (by decide)⟩

theorem send_ends (d : Nat) : ∀ k : K, True →
    ∃ k' st r, fdSendmsg d k = some (k', st, r) ∧
      (st = ERROR_PSOCK_WRITE_WOULD_BLOCK → ∃ k2 st2, K.wait k' = some (k2, st2) ∧ True ∧
        k2.script.length < k.script.length) := by
  intro k _
  rcases next_cases k with ⟨hs, h⟩ | ⟨e, es, hs, h⟩
  · unfold fdSendmsg
    rw [h]
    dsimp only
    split <;> exact ⟨_, _, _, rfl, fun h => absurd h (by decide)⟩
  · unfold fdSendmsg
    rw [h]
    have hl : es.length < k.script.length := by rw [hs]; simp
    cases e with
    | again =>
      refine ⟨_, _, _, rfl, fun _ => ?_⟩
      rcases wait_cases { k with script := es } with ⟨-, h⟩ | ⟨st, ms, cs, ws, -, h⟩
      · exact ⟨_, _, h, trivial, hl⟩
      · exact ⟨_, _, h, trivial, hl⟩
    | fail => exact ⟨_, _, _, rfl, fun h => absurd h (by decide)⟩
    | go =>
      dsimp only
      split <;> exact ⟨_, _, _, rfl, fun h => absurd h (by decide)⟩

/-- Every message that a trace sends has one descriptor, and there is one for each successful write. -/
theorem trace_sent {n v os ms cs sent set v'} (h : Trace n v os ms cs sent set v') :
    (∀ m ∈ sent, m.length = 1) ∧
    sent.length = os.countP fun x => (match x.1 with | .write _ => true | _ => false) && x.2.1 == SUCCESS := by
  induction h with
  | noRead hs hx t ih => simpa [hs] using ih
  | noWrite hs t ih => simpa [hs] using ih
  | noAccept hs t ih => simpa [hs] using ih
  | noOpt hs t ih => simpa [hs] using ih
  | wrote hd t ih => simpa using ih
  | _ => simp_all

/-- When no read reports a message without descriptor, each message taken is that of one successful read. -/
theorem trace_read {n v os ms cs sent set v'} (h : Trace n v os ms cs sent set v')
    (hr : ∀ o ∈ os, o.1 = .read → o.2.1 ≠ ERROR_PSOCK_READ_GENERAL) :
    ms.length = os.countP fun x => x.1 == .read && x.2.1 == SUCCESS := by
  induction h with
  | empty hm t ih => exact (hr _ List.mem_cons_self rfl rfl).elim
  | noRead hs hx t ih => simpa [hs] using ih fun o h => hr o (by simp [h])
  | noWrite hs t ih => simpa [hs] using ih fun o h => hr o (by simp [h])
  | noAccept hs t ih => simpa [hs] using ih fun o h => hr o (by simp [h])
  | noOpt hs t ih => simpa [hs] using ih fun o h => hr o (by simp [h])
  | got hg t ih => simpa using ih fun o h => hr o (by simp [h])
  | nil => rfl
  | _ => rename_i ih; simpa using ih fun o h => hr o (by simp [h])

/-- The kernel reports no error, and no wait fails. -/
def Calm (k : K) : Prop := (∀ e ∈ k.script, e ≠ .fail) ∧ ∀ w ∈ k.waits, w.1 = SUCCESS

theorem calm_next {k : K} (h : Calm k) : Calm k.next.2 ∧ k.next.1 ≠ .fail := by
  rcases next_cases k with ⟨hs, hn⟩ | ⟨e, es, hs, hn⟩
  · rw [hn]; exact ⟨h, by simp⟩
  · rw [hn]
    exact ⟨⟨fun x hx => h.1 x (by rw [hs]; simp [hx]), h.2⟩, h.1 e (by rw [hs]; simp)⟩

theorem calm_wait {k k' : K} {st : Status} (h : Calm k) (hw : k.wait = some (k', st)) : Calm k' ∧ st = SUCCESS := by
  rcases wait_cases k with ⟨he, hn⟩ | ⟨st', ms, cs, ws, he, hn⟩
  · rw [hn] at hw; cases hw; exact ⟨h, rfl⟩
  · rw [hn] at hw
    cases hw
    exact ⟨⟨h.1, fun w hw => h.2 w (by rw [he]; simp [show w ∈ ws from hw])⟩, h.2 (st, ms, cs) (by rw [he]; simp)⟩

theorem calm_recv {n : Nat} {k k' : K} {st : Status} {r} (hc : Calm k) (h : fdRecvmsg n k = some (k', st, r)) :
    Calm k' ∧ (st = SUCCESS ∨ st = ERROR_PSOCK_READ_WOULD_BLOCK) := by
  obtain ⟨c, hf⟩ := calm_next hc
  unfold fdRecvmsg at h
  split at h <;> rename_i k1 hn <;> rw [hn] at c hf
  · cases h; exact ⟨c, .inr rfl⟩
  · exact (hf rfl).elim
  · split at h <;> cases h
    · exact ⟨c, .inr rfl⟩
    · exact ⟨c, .inl rfl⟩

theorem calm_accept {k k' : K} {st : Status} {r} (hc : Calm k) (h : fdAccept k = some (k', st, r)) :
    Calm k' ∧ (st = SUCCESS ∨ st = ERROR_PSOCK_ACCEPT_WOULD_BLOCK ∨
      (st = ERROR_PSOCK_ACCEPT_GENERAL ∧ slot k.fds = none)) := by
  obtain ⟨c, hf⟩ := calm_next hc
  have hq := (quiet_next k).fds
  unfold fdAccept at h
  split at h <;> rename_i k1 hn <;> rw [hn] at c hf hq
  · cases h; exact ⟨c, .inr (.inl rfl)⟩
  · exact (hf rfl).elim
  · split at h
    · cases h; exact ⟨c, .inr (.inl rfl)⟩
    · split at h
      · rename_i hs
        cases h
        exact ⟨c, .inr (.inr ⟨rfl, by rw [← hq]; exact hs⟩)⟩
      · cases h; exact ⟨c, .inl rfl⟩

theorem calm_send {d : Nat} {k k' : K} {st : Status} {r} (hc : Calm k) (h : fdSendmsg d k = some (k', st, r)) :
    Calm k' ∧ (st = SUCCESS ∨ st = ERROR_PSOCK_WRITE_WOULD_BLOCK ∨
      (st = ERROR_PSOCK_SENDMSG_FAILED ∧ file k.fds d = none)) := by
  obtain ⟨c, hf⟩ := calm_next hc
  have hq := (quiet_next k).fds
  unfold fdSendmsg at h
  split at h <;> rename_i k1 hn <;> rw [hn] at c hf hq
  · cases h; exact ⟨c, .inr (.inl rfl)⟩
  · exact (hf rfl).elim
  · dsimp only at hq
    split at h
    · rename_i hd; cases h; exact ⟨c, .inr (.inr ⟨rfl, by rw [hq] at hd; simp [file, hd]⟩)⟩
    · rename_i hd; cases h; exact ⟨c, .inr (.inr ⟨rfl, by rw [hq] at hd; simp [file, hd]⟩)⟩
    · cases h; exact ⟨c, .inl rfl⟩

/-- A loop whose waits succeed ends with an answer of its operation, in a state that was reached by waiting. -/
theorem retry_calm {α : Type} {wb : Status} {op : Op K α} (good : K → Status → Prop)
    (hg : ∀ k k' st, Quiet k k' → good k' st → good k st)
    (hq : ∀ k k' r, op k = some (k', wb, r) → Quiet k k')
    (hop : ∀ k k' st r, Calm k → op k = some (k', st, r) → Calm k' ∧ (st = wb ∨ good k st)) :
    ∀ (fuel : Nat) (k k' : K) (st : Status) (r : Option α), Calm k → retry wb op K.wait fuel k = some (k', st, r) →
      good k st := by
  intro fuel
  induction fuel with
  | zero => intro k k' st r _ h; cases h
  | succ n ih =>
    intro k k' st r hc h
    unfold retry at h
    split at h
    · cases h
    · rename_i k1 st1 r1 h1
      obtain ⟨c1, g1⟩ := hop _ _ _ _ hc h1
      split at h
      · rename_i e
        subst e
        split at h
        · cases h
        · rename_i k2 st2 h2
          obtain ⟨c2, rfl⟩ := calm_wait c1 h2
          rw [if_neg (by simp)] at h
          exact hg _ _ _ ((hq _ _ _ h1).trans (quiet_wait h2).1) (ih _ _ _ _ c2 h)
      · rename_i e
        cases h
        exact g1.resolve_left e

end Rcpr.Msg
