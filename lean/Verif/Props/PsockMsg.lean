import Verif.PsockMsgLemmas

/-!
C68: descriptors passed over a datagram psock (and over no other), and connections accepted, over any history.
C69: asynchronous psocks hide would-block from accept and from descriptor passing.
C70: psocks that wrap others, and psocks made from user methods.
-/
namespace Rcpr.Msg

open Rcpr

/-! ### C68 -/

/-- For every history of calls on a psock for a descriptor, blocking or asynchronous, and every schedule of
answers of the kernel: each message and each connection that arrived was taken once, in order, or is still
there; the descriptors of the process change only as the outcomes say.

Missing: messages that carry more than one descriptor, see `two_descriptors_violated`. -/
theorem history_partial (mode : Option Nat) (ty : Nat) {cs : List Cmd} {k k' : K} {os : List (Cmd × Out)}
    (h : run (sock mode ty) cs k = some (k', os)) (hone : ∀ m ∈ k'.arrived, m.length ≤ 1)
    {taken : List (List Nat)} {gone : List Nat} (h0 : k.arrived = taken ++ k.inq) (hc : k.backlog = gone ++ k.conns) :
    os.map (·.1) = cs ∧ ∃ ms cn sent set,
      Trace k.fds.length (file k.fds) os ms cn sent set (file k'.fds) ∧
      k'.arrived = taken ++ ms ++ k'.inq ∧ k'.backlog = gone ++ cn ++ k'.conns ∧
      k'.out = k.out ++ sent ∧ k'.opts = k.opts ++ set := by
  obtain ⟨he, ms, cn, sent, set, hm, ht⟩ := run_step mode ty cs k k' os h
  obtain ⟨a, ha, ha'⟩ := hm.msgs
  obtain ⟨b, hb, hb'⟩ := hm.cons
  have e : k'.arrived = taken ++ ms ++ k'.inq := by
    rw [ha, h0, List.append_assoc, ha', List.append_assoc]
  refine ⟨he, ms, cn, sent, set, ht fun m h => hone m (by rw [e]; simp [h]), e, ?_, hm.out, hm.opts⟩
  rw [hb, hc, List.append_assoc, hb', List.append_assoc]

/-- What one process sends, the other receives: when all that arrives at `B` was sent by `A`, in order, and no
read of `B` says that there was no descriptor, then the files received are the first of those sent, in order:
the `i`-th successful read of `B` gives a new descriptor for the file of the `i`-th successful write of `A`. -/
theorem transfer (mA mB : Option Nat) (tA tB : Nat) {csA csB : List Cmd} {kA kA' kB kB' : K}
    {osA osB : List (Cmd × Out)}
    (hA : run (sock mA tA) csA kA = some (kA', osA)) (hB : run (sock mB tB) csB kB = some (kB', osB))
    (hA0 : kA.out = [] ∧ kA.arrived = [] ∧ kA.inq = [] ∧ kA.backlog = kA.conns) (hAr : kA'.arrived = [])
    (hB0 : kB.arrived = [] ∧ kB.inq = [] ∧ kB.backlog = kB.conns)
    (hAB : kB'.arrived <+: kA'.out)
    (hr : ∀ o ∈ osB, o.1 = .read → o.2.1 ≠ ERROR_PSOCK_READ_GENERAL) :
    ∃ cnA sentA setA ms cnB sentB setB,
      Trace kA.fds.length (file kA.fds) osA [] cnA sentA setA (file kA'.fds) ∧
      Trace kB.fds.length (file kB.fds) osB ms cnB sentB setB (file kB'.fds) ∧
      ms <+: sentA ∧
      sentA.length = (osA.countP fun x => (match x.1 with | .write _ => true | _ => false) && x.2.1 == SUCCESS) ∧
      ms.length = osB.countP fun x => x.1 == .read && x.2.1 == SUCCESS := by
  obtain ⟨hAo, hAa, hAi, hAb⟩ := hA0
  obtain ⟨hBa, hBi, hBb⟩ := hB0
  obtain ⟨-, msA, cnA, sentA, setA, tA, eA, -, oA, -⟩ :=
    history_partial mA tA hA (by simp [hAr]) (taken := []) (gone := []) (by simp [hAa, hAi]) (by simp [hAb])
  have : msA = [] := by
    rw [hAr] at eA
    simp only [List.nil_append] at eA
    exact (List.append_eq_nil_iff.1 eA.symm).1
  subst this
  rw [hAo, List.nil_append] at oA
  obtain ⟨h1, hl⟩ := trace_sent tA
  have hone : ∀ m ∈ kB'.arrived, m.length ≤ 1 := fun m hm => by
    rw [h1 m (by rw [← oA]; exact hAB.subset hm)]
    exact Nat.le_refl 1
  obtain ⟨-, ms, cnB, sentB, setB, tB, eB, -, -, -⟩ :=
    history_partial mB tB hB hone (taken := []) (gone := []) (by simp [hBa, hBi]) (by simp [hBb])
  refine ⟨cnA, sentA, setA, ms, cnB, sentB, setB, tA, tB, ?_, hl, trace_read tB hr⟩
  rw [← oA]
  refine List.IsPrefix.trans ?_ hAB
  rw [eB, List.nil_append]
  exact List.prefix_append _ _

/-- A process with standard input, output and error, a socket as descriptor 3 and a file as descriptor 4. -/
def k0 : K where
  fds := [some 100, some 101, some 102, some 103, some 7, none, none, none]
  inq := []
  arrived := []
  conns := []
  backlog := []
  out := []
  opts := []
  script := []
  waits := []

/-- The sender writes the file 7; the receiver has to wait twice, the message arrives during the second wait. -/
example : (run (sock none DATAGRAM) [.write 4, .write 6, .write 4] k0).map (fun x => (x.1.out, x.2.map (·.2.1))) =
    some ([[7], [7]], [SUCCESS, ERROR_PSOCK_SENDMSG_FAILED, SUCCESS]) := by decide

example : (run (sock (some 9) DATAGRAM) [.read, .close 5, .read]
      { k0 with script := [.again, .go, .again], waits := [(SUCCESS, [], []), (SUCCESS, [[7], [7]], [])] }).map
      (fun x => (x.2.map (·.2), x.1.fds, x.1.inq)) =
    some ([(SUCCESS, some 5), (SUCCESS, none), (SUCCESS, some 5)],
      [some 100, some 101, some 102, some 103, some 7, some 7, none, none], []) := by decide

/-- The hypotheses of `transfer` are met by a plain sender and an asynchronous receiver. -/
example : ∃ kA' kB' osA osB,
    run (sock none DATAGRAM) [.write 4, .write 0] k0 = some (kA', osA) ∧
    run (sock (some 9) DATAGRAM) [.read, .read] { k0 with script := [.again], waits := [(SUCCESS, [[7], [100]], [])] } =
      some (kB', osB) ∧
    kA'.arrived = [] ∧ kB'.arrived <+: kA'.out ∧
    (∀ o ∈ osB, o.1 = .read → o.2.1 ≠ ERROR_PSOCK_READ_GENERAL) ∧ osB.map (·.2.1) = [SUCCESS, SUCCESS] :=
  ⟨_, _, _, _, rfl, rfl, rfl, ⟨[], rfl⟩, by decide, by decide⟩

/-- The read of a message with two descriptors gives the caller one of them. The other is open as well, and
the caller is not told: it cannot be closed. So histories are not explained by their outcomes. -/
theorem two_descriptors_violated :
    ¬ ∀ (mode : Option Nat) (ty : Nat) (cs : List Cmd) (k k' : K) (os : List (Cmd × Out)),
      run (sock mode ty) cs k = some (k', os) → k.arrived = k.inq → k.backlog = k.conns →
      ∃ ms cn sent set, Trace k.fds.length (file k.fds) os ms cn sent set (file k'.fds) := by
  intro h
  have hr : run (sock none DATAGRAM) [.read] { k0 with inq := [[8, 9]], arrived := [[8, 9]] } =
      some ({ k0 with arrived := [[8, 9]], fds := [some 100, some 101, some 102, some 103, some 7, some 8, some 9, none] },
        [(.read, (SUCCESS, some 5))]) := by rfl
  obtain ⟨ms, cn, sent, set, t⟩ := h _ _ _ _ _ _ hr rfl rfl
  generalize hv : file [some 100, some 101, some 102, some 103, some 7, some 8, some 9, none] = v at t
  generalize hw : file k0.fds = w at t
  have h5 : v 6 = some 9 := by rw [← hv]; rfl
  have h6 : w 6 = none := by rw [← hw]; rfl
  cases t with
  | got hg t =>
    rename_i d
    cases t
    obtain ⟨-, -, ho⟩ := hg
    have := ho 6 (by decide)
    rw [h5, h6] at this
    cases this
  | noRead hs _ _ => exact hs rfl

/-- Descriptors are sent and received over sockets that the kernel calls datagram sockets, and over no others: then nothing
happens. The psock, blocking or asynchronous, tells the kind of socket that the kernel told. -/
theorem datagram_only (mode ans : Option Nat) :
    (ans ≠ some SOCK_DGRAM → ∀ k, readRawDescriptor (sock mode (socketType ans)) k = some (k, ERROR_PSOCK_UNSUPPORTED_TYPE, none) ∧
      ∀ d, writeRawDescriptor (sock mode (socketType ans)) d k = some (k, ERROR_PSOCK_UNSUPPORTED_TYPE, none)) ∧
    (ans = some SOCK_DGRAM → ∀ k d f, (sock mode (socketType ans)).vt.sendmsg = some f →
      writeRawDescriptor (sock mode (socketType ans)) d k = f d k) ∧
    (psockSocketType (sock mode (socketType ans)) = STREAM ↔ ans = some SOCK_STREAM) ∧
    (psockSocketType (sock mode (socketType ans)) = DATAGRAM ↔ ans = some SOCK_DGRAM) := by
  have hty : ∀ ty, (sock mode ty).socktype = ty := fun ty => by cases mode <;> rfl
  have hd : socketType ans = DATAGRAM ↔ ans = some SOCK_DGRAM := by
    unfold socketType
    cases ans with
    | none => simp [OTHER, DATAGRAM]
    | some t => simp only [SOCK_STREAM, SOCK_DGRAM, OTHER, DATAGRAM, STREAM, Option.some.injEq]; by_cases h1 : t = 1 <;> by_cases h2 : t = 2 <;> simp [h1, h2] <;> omega
  have hs : socketType ans = STREAM ↔ ans = some SOCK_STREAM := by
    unfold socketType
    cases ans with
    | none => simp [OTHER, STREAM]
    | some t => simp only [SOCK_STREAM, SOCK_DGRAM, OTHER, DATAGRAM, STREAM, Option.some.injEq]; by_cases h1 : t = 1 <;> by_cases h2 : t = 2 <;> simp [h1, h2] <;> omega
  refine ⟨fun h k => ?_, fun h k d f hf => ?_, by rw [psockSocketType, hty]; exact hs, by rw [psockSocketType, hty]; exact hd⟩
  · have hn : (sock mode (socketType ans)).socktype ≠ DATAGRAM := by rw [hty]; exact fun h' => h (hd.1 h')
    exact ⟨by simp [readRawDescriptor, hn], fun d => by simp [writeRawDescriptor, hn]⟩
  · have hn : (sock mode (socketType ans)).socktype = DATAGRAM := by rw [hty]; exact hd.2 h
    simp [writeRawDescriptor, hn, hf]

/-- a stream socket, a sequential-packet socket, a file -/
example : [some 1, some 5, none].map (fun a => (writeRawDescriptor (sock (some 4) (socketType a)) 0 k0).map (·.2.1)) =
    List.replicate 3 (some ERROR_PSOCK_UNSUPPORTED_TYPE) := by decide

/-! ### C69 -/

/-- An asynchronous psock never says would-block, in any history, unless a wait ended with that status. -/
theorem async_never_would_block (fuel ty : Nat) :
    ∀ {cs : List Cmd} {k k' : K} {os : List (Cmd × Out)}, run (sock (some fuel) ty) cs k = some (k', os) →
    (∀ w ∈ k.waits, w.1 ≠ ERROR_PSOCK_ACCEPT_WOULD_BLOCK ∧ w.1 ≠ ERROR_PSOCK_READ_WOULD_BLOCK ∧
      w.1 ≠ ERROR_PSOCK_WRITE_WOULD_BLOCK) →
    ∀ o ∈ os, o.2.1 ≠ ERROR_PSOCK_ACCEPT_WOULD_BLOCK ∧ o.2.1 ≠ ERROR_PSOCK_READ_WOULD_BLOCK ∧
      o.2.1 ≠ ERROR_PSOCK_WRITE_WOULD_BLOCK := by
  intro cs
  induction cs with
  | nil => intro k k' os h _; cases h; simp
  | cons c cs ih =>
    intro k k' os h hw
    unfold run at h
    split at h
    · cases h
    · rename_i k1 o h1
      split at h
      · cases h
      · rename_i k2 os' h2
        cases h
        intro x hx
        rcases List.mem_cons.1 hx with rfl | hx
        · rcases exec_block fuel ty h1 with h | ⟨w, hm, e⟩
          · exact h
          · dsimp only
            rw [← e]
            exact hw w hm
        · obtain ⟨-, ms, cn, sent, set, hm, -⟩ := exec_step (some fuel) ty h1
          obtain ⟨v, hv⟩ := hm.waits
          exact ih h2 (fun w h => hw w (by rw [hv]; simp [h])) x hx

/-- A plain descriptor does say it. -/
example : (run (sock none STREAM) [.accept] k0).map (·.2.map (·.2.1)) = some [ERROR_PSOCK_ACCEPT_WOULD_BLOCK] := by
  decide

/-- Reading a descriptor from an asynchronous psock ends when a message is there or arrives during a wait. If
the kernel reports no error but `EAGAIN` and waits do not fail, it succeeds, or says that the message had no
descriptor to give. -/
theorem async_read_ends (fuel ty : Nat) (k : K) (hp : k.inq ≠ [] ∨ ∃ w ∈ k.waits, w.2.1 ≠ [])
    (hf : k.script.length + k.waits.length < fuel) :
    ∃ k' st r, readRawDescriptor (sock (some fuel) ty) k = some (k', st, r) ∧
      (ty = DATAGRAM → (∀ e ∈ k.script, e ≠ .fail) → (∀ w ∈ k.waits, w.1 = SUCCESS) →
        st = SUCCESS ∨ st = ERROR_PSOCK_READ_GENERAL) := by
  obtain ⟨⟨k', st, r⟩, h⟩ := retry_ends (wb := ERROR_PSOCK_READ_WOULD_BLOCK) _
    (fun k => k.script.length + k.waits.length) (recv_ends CMSG_SPACE_INT) fuel k hp hf
  unfold readRawDescriptor
  split
  · rename_i hty
    exact ⟨_, _, _, rfl, fun e => (hty e).elim⟩
  · simp only [sock, asyncDescriptor, async, descriptor]
    rw [h]
    dsimp only
    split
    · rename_i hs
      refine ⟨_, _, _, rfl, fun _ he hw => (hs ?_).elim⟩
      exact retry_calm (fun _ st => st = SUCCESS) (fun _ _ _ _ h => h)
        (fun k k' r h => (quiet_of_wb (by decide) (fdRecvmsg_spec h)).2.2)
        (fun k k' st r c h => ⟨(calm_recv c h).1, (calm_recv c h).2.symm⟩) _ _ _ _ _ ⟨he, hw⟩ h
    · split
      · exact ⟨_, _, _, rfl, fun _ _ _ => .inl rfl⟩
      · exact ⟨_, _, _, rfl, fun _ _ _ => .inr rfl⟩

/-- Accepting ends when a connection is there or arrives during a wait. If the kernel reports no error but
`EAGAIN` and waits do not fail, it succeeds unless no descriptor is free. -/
theorem async_accept_ends (fuel ty : Nat) (k : K) (hp : k.conns ≠ [] ∨ ∃ w ∈ k.waits, w.2.2 ≠ [])
    (hf : k.script.length + k.waits.length < fuel) :
    ∃ k' st r, psockAccept (sock (some fuel) ty) k = some (k', st, r) ∧
      ((∀ e ∈ k.script, e ≠ .fail) → (∀ w ∈ k.waits, w.1 = SUCCESS) →
        st = SUCCESS ∨ (st = ERROR_PSOCK_ACCEPT_GENERAL ∧ ∀ i, i < k.fds.length → file k.fds i ≠ none)) := by
  obtain ⟨⟨k', st, r⟩, h⟩ := retry_ends (wb := ERROR_PSOCK_ACCEPT_WOULD_BLOCK) _
    (fun k => k.script.length + k.waits.length) accept_ends' fuel k hp hf
  refine ⟨k', st, r, h, fun he hw => ?_⟩
  refine (retry_calm (fun k st => st = SUCCESS ∨ (st = ERROR_PSOCK_ACCEPT_GENERAL ∧ slot k.fds = none))
    (fun k k' st q h => by rw [q.fds] at h; exact h)
    (fun k k' r h => (quiet_of_wb (by decide) (fdAccept_spec h)).2.2)
    (fun k k' st r c h => ⟨(calm_accept c h).1, ?_⟩) _ _ _ _ _ ⟨he, hw⟩ h).imp id fun ⟨e, h⟩ => ⟨e, slot_none h⟩
  rcases (calm_accept c h).2 with e | e | e
  · exact .inr (.inl e)
  · exact .inl e
  · exact .inr (.inr e)

/-- Writing a descriptor ends. If the kernel reports no error but `EAGAIN` and waits do not fail, it succeeds
for every descriptor that is open. -/
theorem async_write_ends (fuel ty d : Nat) (k : K) (hf : k.script.length < fuel) :
    ∃ k' st r, writeRawDescriptor (sock (some fuel) ty) d k = some (k', st, r) ∧
      (ty = DATAGRAM → file k.fds d ≠ none → (∀ e ∈ k.script, e ≠ .fail) → (∀ w ∈ k.waits, w.1 = SUCCESS) →
        st = SUCCESS) := by
  obtain ⟨⟨k', st, r⟩, h⟩ := retry_ends (wb := ERROR_PSOCK_WRITE_WOULD_BLOCK) (fun _ => True)
    (fun k => k.script.length) (send_ends d) fuel k trivial hf
  unfold writeRawDescriptor
  split
  · rename_i hty
    exact ⟨_, _, _, rfl, fun e => (hty e).elim⟩
  · refine ⟨k', st, r, h, fun _ hd he hw => ?_⟩
    refine (retry_calm (fun k st => st = SUCCESS ∨ (st = ERROR_PSOCK_SENDMSG_FAILED ∧ file k.fds d = none))
      (fun k k' st q h => by rw [q.fds] at h; exact h)
      (fun k k' r h => (quiet_of_wb (by decide) (fdSendmsg_spec h)).2)
      (fun k k' st r c h => ⟨(calm_send c h).1, ?_⟩) _ _ _ _ _ ⟨he, hw⟩ h).resolve_right fun h => hd h.2
    rcases (calm_send c h).2 with e | e | e
    · exact .inr (.inl e)
    · exact .inl e
    · exact .inr (.inr e)

/-- Three connections; one arrives late, and the table is full for the last. -/
example : (run (sock (some 9) STREAM) [.accept, .accept, .accept, .accept]
      { k0 with script := [.again, .again], waits := [(SUCCESS, [], []), (SUCCESS, [], [20, 21, 22, 23])] }).map
      (fun x => (x.2.map (·.2), x.1.conns)) =
    some ([(SUCCESS, some 5), (SUCCESS, some 6), (SUCCESS, some 7), (ERROR_PSOCK_ACCEPT_GENERAL, none)], [23]) := by
  decide

/-- For every kind of psock below and every state: when a call on the psock below does not say would-block,
the asynchronous psock gives the same answer and does nothing else. -/
theorem async_direct {σ : Type} (rw ww : σ → Option (σ × Status)) (fuel : Nat) (c : Sock σ) (k : σ) :
    (∀ k' st r, psockAccept c k = some (k', st, r) → st ≠ ERROR_PSOCK_ACCEPT_WOULD_BLOCK →
      psockAccept (async rw ww (fuel + 1) c) k = some (k', st, r)) ∧
    (c.vt.recvmsg ≠ none → ∀ k' st r, readRawDescriptor c k = some (k', st, r) → st ≠ ERROR_PSOCK_READ_WOULD_BLOCK →
      readRawDescriptor (async rw ww (fuel + 1) c) k = some (k', st, r)) ∧
    (c.vt.sendmsg ≠ none → ∀ d k' st r, writeRawDescriptor c d k = some (k', st, r) →
      st ≠ ERROR_PSOCK_WRITE_WOULD_BLOCK →
      writeRawDescriptor (async rw ww (fuel + 1) c) d k = some (k', st, r)) := by
  refine ⟨fun k' st r h hs => ?_, fun hn k' st r h hs => ?_, fun hn d k' st r h hs => ?_⟩
  · simp only [psockAccept, async] at h ⊢
    cases ha : c.vt.accept with
    | none => rw [ha] at h; exact h
    | some f =>
      rw [ha] at h
      dsimp only at h ⊢
      simp [retry, h, hs]
  · simp only [readRawDescriptor, async] at h ⊢
    cases ha : c.vt.recvmsg with
    | none => exact (hn ha).elim
    | some f =>
      rw [ha] at h
      by_cases hty : c.socktype ≠ DATAGRAM
      · rw [if_pos hty] at h
        exact (if_pos hty).trans h
      · rw [if_neg hty] at h
        refine (if_neg hty).trans ?_
        dsimp only at h ⊢
        cases hf : f CMSG_SPACE_INT k with
        | none => rw [hf] at h; cases h
        | some x =>
          obtain ⟨k1, st1, r1⟩ := x
          rw [hf] at h
          dsimp only at h
          have : st1 ≠ ERROR_PSOCK_READ_WOULD_BLOCK := by
            intro e
            subst e
            rw [if_pos (by decide)] at h
            cases h
            exact hs rfl
          simp only [retry, hf, if_neg this]
          exact h
  · simp only [writeRawDescriptor, async] at h ⊢
    cases ha : c.vt.sendmsg with
    | none => exact (hn ha).elim
    | some f =>
      rw [ha] at h
      by_cases hty : c.socktype ≠ DATAGRAM
      · rw [if_pos hty] at h
        exact (if_pos hty).trans h
      · rw [if_neg hty] at h
        refine (if_neg hty).trans ?_
        dsimp only at h ⊢
        simp [retry, h, hs]

example : psockAccept (descriptor STREAM) { k0 with conns := [20] } =
    psockAccept (async K.wait K.wait 1 (descriptor STREAM)) { k0 with conns := [20] } :=
  ((async_direct K.wait K.wait 0 (descriptor STREAM) { k0 with conns := [20] }).1 _ _ _ rfl (by decide)).symm

/-! ### C70 -/

/-- `w` passes a call on to the psock below. -/
def Passes {σ α : Type} (w : Sock σ → Sock σ) (call : Sock σ → Op σ α) : Prop :=
  ∀ s k, call (w s) k = call s k

/-- `n` buffered readers on top of each other. -/
def tower {σ : Type} (n : Nat) (s : Sock σ) : Sock σ :=
  match n with
  | 0 => s
  | n + 1 => br (tower n s)

/-- Accepting passes through any number of buffered readers, whatever the psock below is. -/
theorem br_accept_passes {σ : Type} (n : Nat) : Passes (σ := σ) (tower n) psockAccept := by
  intro s k
  induction n with
  | zero => rfl
  | succ n ih =>
    rw [← ih]
    simp only [tower, br, psockAccept, orUndefined]
    cases (tower n s).vt.accept <;> rfl

example : (psockAccept (tower 3 (sock none STREAM)) { k0 with conns := [20] }).map (·.2) = some (SUCCESS, some 5) := by
  decide

/-- A psock made from a buffer refuses everything that is about sockets, and nothing happens: also through any
number of buffered readers, and also the sending and receiving of a message by the method of a reader on top. -/
theorem buffer_refuses {σ : Type} (n : Nat) (k : σ) :
    psockAccept (tower n buffer) k = some (k, ERROR_PSOCK_UNSUPPORTED_TYPE, none) ∧
    (∀ opt, psockSetsockopt (tower n (buffer (σ := σ))) opt k = some (k, ERROR_PSOCK_METHOD_UNDEFINED, none)) ∧
    (∀ d f, (tower (n + 1) (buffer (σ := σ))).vt.sendmsg = some f →
      f d k = some (k, ERROR_PSOCK_METHOD_UNDEFINED, none)) ∧
    (∀ m f, (tower (n + 1) (buffer (σ := σ))).vt.recvmsg = some f →
      f m k = some (k, ERROR_PSOCK_METHOD_UNDEFINED, none)) := by
  refine ⟨?_, ?_, ?_, ?_⟩
  · rw [br_accept_passes n buffer k]; rfl
  · intro opt
    cases n <;> rfl
  · induction n with
    | zero => intro d f h; cases h; rfl
    | succ n ih =>
      intro d f h
      cases h
      exact ih d _ rfl
  · induction n with
    | zero => intro m f h; cases h; rfl
    | succ n ih =>
      intro m f h
      cases h
      exact ih m _ rfl

example : psockAccept (tower 3 buffer) k0 = some (k0, ERROR_PSOCK_UNSUPPORTED_TYPE, none) :=
  (buffer_refuses 3 k0).1

/-- The optional methods of a user are called if they are there; if not, nothing happens and the status is
`ERROR_PSOCK_METHOD_UNDEFINED`. -/
theorem user_accept {σ : Type} (u : Vt σ) (k : σ) :
    (∀ f, u.accept = some f → psockAccept (user u) k = f k) ∧
    (u.accept = none → psockAccept (user u) k = some (k, ERROR_PSOCK_METHOD_UNDEFINED, none)) := by
  constructor
  · intro f h
    simp [psockAccept, user, orUndefined, h]
  · intro h
    simp [psockAccept, user, orUndefined, h]

/-- Options do not pass through a buffered reader, nor through an asynchronous psock. -/
theorem setsockopt_passes_violated :
    ¬ Passes br (fun s : Sock K => psockSetsockopt s 1) ∧
    ¬ Passes (async K.wait K.wait 9) (fun s : Sock K => psockSetsockopt s 1) := by
  constructor <;> intro h
  · have := congrArg (Option.map (·.2.1)) (h (descriptor STREAM) k0)
    revert this
    decide
  · have := congrArg (Option.map (·.2.1)) (h (descriptor STREAM) k0)
    revert this
    decide

/-- Descriptors do not pass through a buffered reader: it refuses, whatever the psock below is, and its socket
type is none of the types. -/
theorem br_descriptors_violated :
    (∀ (s : Sock K) k, readRawDescriptor (br s) k = some (k, ERROR_PSOCK_UNSUPPORTED_TYPE, none)) ∧
    (∀ (s : Sock K) d k, writeRawDescriptor (br s) d k = some (k, ERROR_PSOCK_UNSUPPORTED_TYPE, none)) ∧
    (∀ s : Sock K, psockSocketType (br s) ≠ STREAM ∧ psockSocketType (br s) ≠ DATAGRAM ∧
      psockSocketType (br s) ≠ OTHER) ∧
    ¬ Passes br (readRawDescriptor (σ := K)) ∧ ¬ Passes br (fun s : Sock K => writeRawDescriptor s 4) := by
  refine ⟨fun s k => rfl, fun s d k => rfl, fun s => by simp only [psockSocketType, br]; decide, fun h => ?_, fun h => ?_⟩
  · have := congrArg (Option.map (·.2.1)) (h (descriptor DATAGRAM) { k0 with inq := [[8]] })
    revert this
    decide
  · have := congrArg (Option.map (·.2.1)) (h (descriptor DATAGRAM) k0)
    revert this
    decide

/-- The method of a user for options, which the documentation requires, is never called; and their methods for
messages are never called to pass descriptors. -/
theorem user_methods_violated :
    (∀ (u : Vt K) o k, psockSetsockopt (user u) o k = some (k, ERROR_PSOCK_METHOD_UNDEFINED, none)) ∧
    (∀ (u : Vt K) k, readRawDescriptor (user u) k = some (k, ERROR_PSOCK_UNSUPPORTED_TYPE, none)) ∧
    (∀ (u : Vt K) d k, writeRawDescriptor (user u) d k = some (k, ERROR_PSOCK_UNSUPPORTED_TYPE, none)) ∧
    ∃ (u : Vt K) (f : Nat → Op K Unit) (k k' : K), u.setsockopt = some f ∧ f 1 k = some (k', SUCCESS, some ()) ∧
      psockSetsockopt (user u) 1 k ≠ f 1 k := by
  refine ⟨fun u o k => rfl, fun u k => rfl, fun u d k => rfl,
    ⟨some fdAccept, some fdSendmsg, some fdRecvmsg, some fdSetsockopt⟩, fdSetsockopt, k0, { k0 with opts := [1] },
    rfl, rfl, fun h => ?_⟩
  have := congrArg (Option.map (·.2.1)) h
  revert this
  decide

end Rcpr.Msg
