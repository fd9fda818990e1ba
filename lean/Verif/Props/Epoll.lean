import Verif.Epoll

/-!
Properties C40 and C52 for the epoll platform: blocked fibers and readiness events.
-/
namespace Rcpr.Epoll

open Rcpr

/-! ### Helper lemmas -/

/-- what one reported event adds to the run queue -/
def wakesOf (s : Sock) (filter : Mask) : List Wake :=
  (if has filter EPOLLIN ∧ s.rd ≠ 0 then [⟨s.rd, 0, readParam filter⟩] else []) ++
  (if has filter EPOLLOUT ∧ s.wr ≠ 0 then [⟨s.wr, 1, writeParam filter⟩] else [])

/-- the socket after one reported event -/
def sockAfter (s : Sock) (filter : Mask) : Sock :=
  ⟨if has filter EPOLLIN then 0 else s.rd, if has filter EPOLLOUT then 0 else s.wr⟩

theorem setSock_same (w : World) (ps : Nat) (s : Sock) : (setSock w ps s).socks ps = s := by
  simp [setSock]

theorem idleOne_spec (env : Env) (hadd : ∀ q, env.add q = SUCCESS) (hctl : ∀ p, env.ctl p = false)
    (w : World) (ps : Nat) (filter : Mask) :
    idleOne env w ps filter =
      ({ socks := fun p => if p = ps then sockAfter (w.socks ps) filter else w.socks p,
         armed := fun p => if p = ps ∧ sockAfter (w.socks ps) filter ≠ ⟨0, 0⟩ then
            some (waitMask (sockAfter (w.socks ps) filter)) else w.armed p,
         runq := w.runq ++ wakesOf (w.socks ps) filter }, SUCCESS) := by
  rcases w with ⟨socks, armed, runq⟩
  rcases hs : socks ps with ⟨r, wt⟩
  unfold idleOne wakeReader wakeWriter rearm arm wakesOf sockAfter
  by_cases h1 : has filter EPOLLIN = true <;> by_cases h2 : has filter EPOLLOUT = true <;>
  by_cases h3 : r = 0 <;> by_cases h4 : wt = 0 <;>
  simp [h1, h2, h3, h4, hadd, hctl, setSock, setArmed, hs] <;>
  first
  | (constructor <;> funext p <;> by_cases hp : p = ps <;> simp [hp, hs, h3, h4])
  | (funext p; by_cases hp : p = ps <;> simp [hp, hs, h3, h4])

theorem idleBatch_spec (env : Env) (hadd : ∀ q, env.add q = SUCCESS) (hctl : ∀ p, env.ctl p = false) :
    ∀ (evs : List (Nat × Mask)) (w : World), (evs.map Prod.fst).Nodup →
    (idleBatch env w evs).2 = SUCCESS ∧
    (idleBatch env w evs).1.runq = w.runq ++ evs.flatMap (fun e => wakesOf (w.socks e.1) e.2) ∧
    (∀ e ∈ evs, (idleBatch env w evs).1.socks e.1 = sockAfter (w.socks e.1) e.2 ∧
      (idleBatch env w evs).1.armed e.1 =
        if sockAfter (w.socks e.1) e.2 ≠ ⟨0, 0⟩ then some (waitMask (sockAfter (w.socks e.1) e.2))
        else w.armed e.1) ∧
    (∀ p, p ∉ evs.map Prod.fst → (idleBatch env w evs).1.socks p = w.socks p ∧
      (idleBatch env w evs).1.armed p = w.armed p)
  | [], w, _ => by simp [idleBatch]
  | (ps, filter) :: evs, w, hnd => by
    simp only [List.map_cons, List.nodup_cons] at hnd
    have hone := idleOne_spec env hadd hctl w ps filter
    have ih := idleBatch_spec env hadd hctl evs (idleOne env w ps filter).1 hnd.2
    have hb : idleBatch env w ((ps, filter) :: evs) = idleBatch env (idleOne env w ps filter).1 evs := by
      simp only [idleBatch]
      rw [if_neg (by rw [hone]; simp)]
    rw [hb]
    rw [hone] at ih ⊢
    obtain ⟨h1, h2, h3, h4⟩ := ih
    have hne : ∀ e ∈ evs, e.1 ≠ ps := by
      intro e he hep
      exact hnd.1 (List.mem_map.2 ⟨e, he, hep⟩)
    refine ⟨h1, ?_, ?_, ?_⟩
    · rw [h2]
      simp only [List.flatMap_cons, List.append_assoc, List.append_cancel_left_eq]
      have hcong : ∀ (l : List (Nat × Mask)), (∀ e ∈ l, e.1 ≠ ps) →
          l.flatMap (fun e => wakesOf (if e.1 = ps then sockAfter (w.socks ps) filter else w.socks e.1) e.2)
            = l.flatMap (fun e => wakesOf (w.socks e.1) e.2) := by
        intro l hl
        induction l with
        | nil => rfl
        | cons a l ih =>
          simp only [List.flatMap_cons]
          rw [if_neg (hl a (by simp)), ih (fun e he => hl e (by simp [he]))]
      exact hcong evs hne
    · intro e he
      rcases List.mem_cons.1 he with rfl | he
      · have := h4 ps hnd.1
        refine ⟨by rw [this.1]; simp, ?_⟩
        rw [this.2]
        simp
      · have := h3 e he
        simp only [if_neg (hne e he)] at this
        refine ⟨this.1, ?_⟩
        rw [this.2]
        simp [hne e he]
    · intro p hp
      simp only [List.map_cons, List.mem_cons, not_or] at hp
      have := h4 p hp.2
      refine ⟨by rw [this.1]; simp [hp.1], ?_⟩
      rw [this.2]
      simp [hp.1]

/-! ### C40, one pass of the idle fiber -/

/-- C40 (part). One pass of the idle fiber over everything `epoll_wait` reported, the scheduler
accepting the fibers and the kernel the registrations:
a blocked reader whose socket is reported readable is put on the run queue with the readable
event and is no longer registered as blocked, in the same way a writer; the run queue gets
nothing else, in the order of the report; a side that is blocked and not reported stays blocked
and is armed; sockets not reported keep their state and their registration.

Missing: a report of an error or a hang-up alone wakes nobody (`epoll_hangup_violated`). -/
theorem epoll_pass_partial (env : Env) (hadd : ∀ q, env.add q = SUCCESS)
    (hctl : ∀ p, env.ctl p = false) (w : World) (evs : List (Nat × Mask))
    (hk : KernelMayReport w evs) :
    (idlePass env w evs).2 = SUCCESS ∧
    (∃ new, (idlePass env w evs).1.runq = w.runq ++ new ∧
      (∀ wake, wake ∈ new ↔ ∃ e ∈ evs,
        (has e.2 EPOLLIN = true ∧ wake.fib ≠ 0 ∧ wake.fib = (w.socks e.1).rd ∧ wake.event = 0 ∧
          wake.param = (if has e.2 EPOLLERR then 1#64 else 0#64) +
            (if has e.2 EPOLLHUP || has e.2 EPOLLRDHUP then 2#64 else 0#64)) ∨
        (has e.2 EPOLLOUT = true ∧ wake.fib ≠ 0 ∧ wake.fib = (w.socks e.1).wr ∧ wake.event = 1 ∧
          wake.param = (if has e.2 EPOLLERR then 1#64 else 0#64) +
            (if has e.2 EPOLLHUP then 2#64 else 0#64))) ∧
      (∀ (pre : List (Nat × Mask)) (e : Nat × Mask) (post : List (Nat × Mask)), evs = pre ++ e :: post →
        ∃ a b c, new = a ++ b ++ c ∧ (∀ x ∈ b, x.fib = (w.socks e.1).rd ∨ x.fib = (w.socks e.1).wr) ∧
          b.length ≤ 2 ∧
          (has e.2 EPOLLIN = true → (w.socks e.1).rd ≠ 0 →
            (b.filter (fun x => x.event == 0)).length = 1) ∧
          (has e.2 EPOLLOUT = true → (w.socks e.1).wr ≠ 0 →
            (b.filter (fun x => x.event == 1)).length = 1) ∧
          (∀ x ∈ a, ∃ e' ∈ pre, x.fib = (w.socks e'.1).rd ∨ x.fib = (w.socks e'.1).wr) ∧
          (∀ x ∈ c, ∃ e' ∈ post, x.fib = (w.socks e'.1).rd ∨ x.fib = (w.socks e'.1).wr))) ∧
    (∀ e ∈ evs,
      (has e.2 EPOLLIN = true → ((idlePass env w evs).1.socks e.1).rd = 0) ∧
      (has e.2 EPOLLOUT = true → ((idlePass env w evs).1.socks e.1).wr = 0) ∧
      (has e.2 EPOLLIN = false → ((idlePass env w evs).1.socks e.1).rd = (w.socks e.1).rd ∧
        ((w.socks e.1).rd ≠ 0 → ∃ m, (idlePass env w evs).1.armed e.1 = some m ∧ has m EPOLLIN = true)) ∧
      (has e.2 EPOLLOUT = false → ((idlePass env w evs).1.socks e.1).wr = (w.socks e.1).wr ∧
        ((w.socks e.1).wr ≠ 0 → ∃ m, (idlePass env w evs).1.armed e.1 = some m ∧ has m EPOLLOUT = true))) ∧
    (∀ p, p ∉ evs.map Prod.fst →
      (idlePass env w evs).1.socks p = w.socks p ∧ (idlePass env w evs).1.armed p = w.armed p) := by
  obtain ⟨h1, h2, h3, h4⟩ := idleBatch_spec env hadd hctl evs (report w evs) hk.1
  have h2 : (idlePass env w evs).1.runq = w.runq ++ evs.flatMap (fun e => wakesOf (w.socks e.1) e.2) := h2
  have hmask : ∀ s : Sock, (s.rd ≠ 0 → has (waitMask s) EPOLLIN = true) ∧
      (s.wr ≠ 0 → has (waitMask s) EPOLLOUT = true) := by
    intro s
    refine ⟨fun h => ?_, fun h => ?_⟩ <;> unfold waitMask <;>
      by_cases hr : s.rd = 0 <;> by_cases hw : s.wr = 0 <;> simp_all <;> decide
  refine ⟨h1, ⟨_, h2, ?_, ?_⟩, ?_, ?_⟩
  · intro wake
    simp only [List.mem_flatMap]
    refine exists_congr fun e => and_congr_right fun _ => ?_
    rcases wake with ⟨f, ev, pr⟩
    have hrp : readParam e.2 = (if has e.2 EPOLLERR then 1#64 else 0#64) +
            (if has e.2 EPOLLHUP || has e.2 EPOLLRDHUP then 2#64 else 0#64) := by
      unfold readParam
      by_cases a : has e.2 EPOLLERR <;> by_cases b : (has e.2 EPOLLHUP || has e.2 EPOLLRDHUP) = true <;>
        simp only [a, b] <;> decide
    have hwp : writeParam e.2 = (if has e.2 EPOLLERR then 1#64 else 0#64) +
            (if has e.2 EPOLLHUP then 2#64 else 0#64) := by
      unfold writeParam
      by_cases a : has e.2 EPOLLERR <;> by_cases b : has e.2 EPOLLHUP = true <;>
        simp only [a, b] <;> decide
    simp only [wakesOf, List.mem_append, ← hrp, ← hwp]
    constructor
    · rintro (h | h)
      · left
        split at h
        · rename_i hc
          simp only [List.mem_singleton, Wake.mk.injEq] at h
          exact ⟨hc.1, by rw [h.1]; exact hc.2, h⟩
        · simp at h
      · right
        split at h
        · rename_i hc
          simp only [List.mem_singleton, Wake.mk.injEq] at h
          exact ⟨hc.1, by rw [h.1]; exact hc.2, h⟩
        · simp at h
    · rintro (⟨a, b, c, d, e⟩ | ⟨a, b, c, d, e⟩)
      · left; rw [if_pos ⟨a, by rw [← c]; exact b⟩]; simp [c, d, e]
      · right; rw [if_pos ⟨a, by rw [← c]; exact b⟩]; simp [c, d, e]
  · intro pre e post heq
    refine ⟨pre.flatMap (fun e => wakesOf (w.socks e.1) e.2), wakesOf (w.socks e.1) e.2,
      post.flatMap (fun e => wakesOf (w.socks e.1) e.2), by simp [heq], ?_, ?_, ?_, ?_, ?_, ?_⟩
    · intro x hx
      simp only [wakesOf, List.mem_append] at hx
      rcases hx with h | h <;> split at h <;> simp at h <;> simp [h]
    · unfold wakesOf; split <;> split <;> simp
    · intro a b
      unfold wakesOf
      rw [if_pos ⟨a, b⟩]
      split <;> simp
    · intro a b
      unfold wakesOf
      rw [if_pos (c := has e.2 EPOLLOUT = true ∧ _) ⟨a, b⟩]
      split <;> simp
    all_goals
      intro x hx
      simp only [List.mem_flatMap] at hx
      obtain ⟨e', he', hx⟩ := hx
      refine ⟨e', he', ?_⟩
      simp only [wakesOf, List.mem_append] at hx
      rcases hx with h | h <;> split at h <;> simp at h <;> simp [h]
  · intro e he
    obtain ⟨ha, hb⟩ := h3 e he
    have ha' : (idlePass env w evs).1.socks e.1 = sockAfter (w.socks e.1) e.2 := ha
    refine ⟨?_, ?_, ?_, ?_⟩
    · intro h; rw [ha']; simp [sockAfter, h]
    · intro h; rw [ha']; simp [sockAfter, h]
    · intro h
      refine ⟨by rw [ha']; simp [sockAfter, h], fun hr => ?_⟩
      have hr' : (sockAfter ((report w evs).socks e.1) e.2).rd ≠ 0 := by simpa [sockAfter, h, report] using hr
      rw [if_pos (by intro hc; rw [hc] at hr'; simp at hr')] at hb
      exact ⟨_, hb, (hmask _).1 hr'⟩
    · intro h
      refine ⟨by rw [ha']; simp [sockAfter, h], fun hr => ?_⟩
      have hr' : (sockAfter ((report w evs).socks e.1) e.2).wr ≠ 0 := by simpa [sockAfter, h, report] using hr
      rw [if_pos (by intro hc; rw [hc] at hr'; simp at hr')] at hb
      exact ⟨_, hb, (hmask _).2 hr'⟩
  · intro p hp
    obtain ⟨a, b⟩ := h4 p hp
    refine ⟨a, ?_⟩
    show (idleBatch env (report w evs) evs).1.armed p = w.armed p
    rw [b]
    simp only [report]
    rw [if_neg hp]

/-- an environment in which nothing fails -/
def fine : Env := ⟨fun _ => SUCCESS, fun _ => false⟩

/-- fiber 7 is blocked reading socket 1, fiber 8 writing socket 2 -/
def w0 : World :=
  ⟨fun p => if p = 1 then ⟨7, 0⟩ else if p = 2 then ⟨0, 8⟩ else ⟨0, 0⟩,
   fun p => if p = 1 then some (EPOLLONESHOT ||| EPOLLIN)
     else if p = 2 then some (EPOLLONESHOT ||| EPOLLOUT) else none, []⟩

-- the hypotheses of `epoll_pass_partial` are met by a report for both sockets
example : KernelMayReport w0 [(2, EPOLLOUT ||| EPOLLERR), (1, EPOLLIN)] ∧
    (idlePass fine w0 [(2, EPOLLOUT ||| EPOLLERR), (1, EPOLLIN)]).1.runq = [⟨8, 1, 1#64⟩, ⟨7, 0, 0#64⟩] := by
  refine ⟨⟨by decide, ?_⟩, by decide⟩
  intro e he
  simp only [List.mem_cons, List.not_mem_nil, or_false] at he
  rcases he with rfl | rfl
  · exact ⟨by decide, EPOLLONESHOT ||| EPOLLOUT, by decide, by decide, by decide⟩
  · exact ⟨by decide, EPOLLONESHOT ||| EPOLLIN, by decide, by decide, by decide⟩

/-- `n` passes in which the kernel reports the same events -/
def passes (env : Env) (evs : List (Nat × Mask)) : Nat → World → World
  | 0, w => w
  | n + 1, w => passes env evs n (idlePass env w evs).1

/-- C40 is violated: a hang-up reported alone (a pipe whose writer closed it), or an error alone, wakes
neither the reader nor the writer. The idle fiber arms the socket again and the kernel reports
it again at once: however many passes follow, nothing is ever put on the run queue. -/
theorem epoll_hangup_violated :
    ∃ w : World, (w.socks 1).rd = 7 ∧ (w.socks 2).wr = 8 ∧ w.runq = [] ∧
      ∀ n, KernelMayReport (passes fine [(1, EPOLLHUP), (2, EPOLLERR)] n w) [(1, EPOLLHUP), (2, EPOLLERR)] ∧
        (passes fine [(1, EPOLLHUP), (2, EPOLLERR)] n w).runq = [] := by
  have hstep : (idlePass fine w0 [(1, EPOLLHUP), (2, EPOLLERR)]).1 = w0 := by
    unfold idlePass idleBatch idleBatch idleBatch
    rw [idleOne_spec fine (fun _ => rfl) (fun _ => rfl)]
    dsimp only
    rw [if_neg (by simp), idleOne_spec fine (fun _ => rfl) (fun _ => rfl)]
    dsimp only
    rw [if_neg (by simp)]
    unfold w0
    simp only [World.mk.injEq]
    refine ⟨?_, ?_, by decide⟩
    · funext p
      by_cases h1 : p = 1
      · subst h1; decide
      · by_cases h2 : p = 2
        · subst h2; decide
        · simp [h1, h2, report]
    · funext p
      by_cases h1 : p = 1
      · subst h1; decide
      · by_cases h2 : p = 2
        · subst h2; decide
        · simp [h1, h2, report]
  have hpass : ∀ n, passes fine [(1, EPOLLHUP), (2, EPOLLERR)] n w0 = w0 := by
    intro n
    induction n with
    | zero => rfl
    | succ n ih => unfold passes; rw [hstep]; exact ih
  refine ⟨w0, rfl, rfl, rfl, fun n => ?_⟩
  rw [hpass n]
  refine ⟨⟨by decide, ?_⟩, rfl⟩
  intro e he
  simp only [List.mem_cons, List.not_mem_nil, or_false] at he
  rcases he with rfl | rfl
  · exact ⟨by decide, EPOLLONESHOT ||| EPOLLIN, by decide, by decide, by decide⟩
  · exact ⟨by decide, EPOLLONESHOT ||| EPOLLOUT, by decide, by decide, by decide⟩

/-- C40 is violated when arming again fails: socket 3 has a blocked reader and a blocked writer, the
writer is woken, the reader stays blocked with its socket disabled, and the pass reports success. -/
theorem epoll_rearm_failure_violated :
    let w : World := ⟨fun p => if p = 3 then ⟨5, 6⟩ else ⟨0, 0⟩,
      fun p => if p = 3 then some (EPOLLONESHOT ||| EPOLLIN ||| EPOLLOUT) else none, []⟩
    let r := idlePass ⟨fun _ => SUCCESS, fun _ => true⟩ w [(3, EPOLLOUT)]
    r.2 = SUCCESS ∧ (r.1.socks 3).rd = 5 ∧ r.1.armed 3 = some 0#32 := by
  decide

/-- A scheduler that does not accept a fiber ends the pass with its status, and the fiber stays
registered as blocked. -/
theorem epoll_add_failure (env : Env) (w : World) (ps : Nat) (filter : Mask) (evs : List (Nat × Mask))
    (hf : env.add w.runq ≠ SUCCESS) (hr : (w.socks ps).rd ≠ 0) (hin : has filter EPOLLIN = true) :
    (idlePass env w ((ps, filter) :: evs)).2 = env.add w.runq ∧
    (idlePass env w ((ps, filter) :: evs)).1.runq = w.runq ∧
    (idlePass env w ((ps, filter) :: evs)).1.socks = w.socks := by
  have hone : idleOne env (report w ((ps, filter) :: evs)) ps filter =
      (report w ((ps, filter) :: evs), env.add w.runq) := by
    have hw : wakeReader env (report w ((ps, filter) :: evs)) ps filter =
        (report w ((ps, filter) :: evs), env.add w.runq) := by
      unfold wakeReader
      rw [if_pos ⟨hin, hr⟩]
      exact if_pos hf
    unfold idleOne
    rw [hw]
    dsimp only
    rw [if_pos hf]
  unfold idlePass idleBatch
  rw [hone]
  dsimp only
  rw [if_pos hf]
  exact ⟨rfl, rfl, rfl⟩

example : (⟨fun _ => ERROR_GENERAL_OUT_OF_MEMORY, fun _ => false⟩ : Env).add w0.runq ≠ SUCCESS ∧
    (w0.socks 1).rd ≠ 0 ∧ has EPOLLIN EPOLLIN = true := by decide

/-! ### C52, fibers waiting for sockets over whole executions -/

/-- reading or writing -/
inductive Side
  | rd | wr
  deriving DecidableEq

/-- the fiber registered on a side -/
def Sock.reg (s : Sock) : Side → Nat
  | .rd => s.rd
  | .wr => s.wr

/-- the event bit of a side -/
def Side.bit : Side → Mask
  | .rd => EPOLLIN
  | .wr => EPOLLOUT

/-- a fiber suspended in `psock_read_block` or `psock_write_block` of a socket -/
structure At where
  fib : Nat
  ps : Nat
  side : Side
  deriving DecidableEq

/-- `waiting`: fibers suspended there for which no resumption is queued; `pending`: fibers suspended
there whose resumption is queued -/
structure Sys where
  w : World
  waiting : List At
  pending : List At

/-- block on a side -/
def block (env : Env) (w : World) (a : At) : World × Status :=
  match a.side with
  | .rd => readBlock env w a.fib a.ps
  | .wr => writeBlock env w a.fib a.ps

/-- come back from the yield -/
def resume (w : World) (a : At) : World :=
  match a.side with
  | .rd => readResume w a.ps
  | .wr => writeResume w a.ps

/-- the states that executions reach. With `excl`, no fiber blocks on a side of a socket while another
fiber, already woken there, has yet to run.

`intr` is a resumption by another discipline (a quiesce request, say). The order of the run queue
is not enforced: a pending fiber may be resumed at any time. -/
inductive Reach (env : Env) (excl : Bool) : Sys → Prop
  | start : Reach env excl ⟨⟨fun _ => ⟨0, 0⟩, fun _ => none, []⟩, [], []⟩
  | block (s : Sys) (a : At) : Reach env excl s → a.fib ≠ 0 → (∀ b ∈ s.waiting, b.fib ≠ a.fib) →
      (excl = true → ∀ b ∈ s.pending, ¬ (b.ps = a.ps ∧ b.side = a.side)) →
      (block env s.w a).2 = SUCCESS → Reach env excl ⟨(block env s.w a).1, a :: s.waiting, s.pending⟩
  | resume (s : Sys) (a : At) : Reach env excl s → a ∈ s.pending →
      Reach env excl ⟨resume s.w a, s.waiting, s.pending.erase a⟩
  | intr (s : Sys) (a : At) : Reach env excl s → a ∈ s.waiting →
      Reach env excl ⟨s.w, s.waiting.filter (fun b => b.fib ≠ a.fib), a :: s.pending⟩
  | idle (s : Sys) (evs : List (Nat × Mask)) (new : List Wake) : Reach env excl s →
      KernelMayReport s.w evs → (idlePass env s.w evs).1.runq = s.w.runq ++ new →
      Reach env excl ⟨(idlePass env s.w evs).1,
        s.waiting.filter (fun b => !(new.map Wake.fib).contains b.fib),
        s.waiting.filter (fun b => (new.map Wake.fib).contains b.fib) ++ s.pending⟩

/-- a waiting fiber is registered in its socket, and its event is armed in the kernel -/
def Registered (s : Sys) : Prop :=
  ∀ a ∈ s.waiting, (s.w.socks a.ps).reg a.side = a.fib ∧
    ∃ m, s.w.armed a.ps = some m ∧ has m a.side.bit = true

theorem waitMask_has (s : Sock) (sd : Side) (h : s.reg sd ≠ 0) : has (waitMask s) sd.bit = true := by
  rcases s with ⟨r, wt⟩
  cases sd <;> simp only [Sock.reg] at h <;> unfold waitMask Side.bit <;>
    by_cases hr : r = 0 <;> by_cases hw : wt = 0 <;> simp_all <;> decide

theorem block_eq (env : Env) (hctl : ∀ p, env.ctl p = false) (w : World) (a : At) (hf : a.fib ≠ 0)
    (h : (block env w a).2 = SUCCESS) :
    (w.socks a.ps).reg a.side = 0 ∧
    (∀ p sd, ((block env w a).1.socks p).reg sd =
      if p = a.ps ∧ sd = a.side then a.fib else (w.socks p).reg sd) ∧
    (∀ p, (block env w a).1.armed p =
      if p = a.ps then some (waitMask ((block env w a).1.socks p)) else w.armed p) := by
  rcases a with ⟨f, ps, sd⟩
  cases sd
  all_goals
    simp only [block, readBlock, writeBlock, readWait, writeWait, arm, hctl] at h ⊢
    simp only [Sock.reg]
    split at h
    · simp [SUCCESS, ERROR_PSOCK_DOUBLE_BLOCK_UNSUPPORTED] at h; exact absurd h (by decide)
    · rename_i hz
      simp only [Decidable.not_not] at hz
      refine ⟨hz, ?_, ?_⟩
      · intro p sd'
        by_cases hp : p = ps <;> cases sd' <;> simp [hz, setSock, setArmed, hp]
      · intro p
        by_cases hp : p = ps <;> simp [hz, setSock, setArmed, hp]

theorem resume_reg (w : World) (a : At) (p : Nat) (sd : Side) :
    ((resume w a).socks p).reg sd = (if p = a.ps ∧ sd = a.side then 0 else (w.socks p).reg sd) ∧
    (resume w a).armed = w.armed := by
  rcases a with ⟨f, ps, sa⟩
  cases sa <;> cases sd <;> by_cases hp : p = ps <;>
    simp [resume, readResume, writeResume, setSock, Sock.reg, hp]

theorem reach_inv (env : Env) (hadd : ∀ q, env.add q = SUCCESS) (hctl : ∀ p, env.ctl p = false)
    (s : Sys) (h : Reach env true s) :
    Registered s ∧ (∀ a ∈ s.waiting, a.fib ≠ 0) ∧
    (∀ a ∈ s.waiting, ∀ b ∈ s.pending, ¬ (b.ps = a.ps ∧ b.side = a.side)) := by
  induction h with
  | start => simp [Registered]
  | block s a _ hf hw hex hok ih =>
    obtain ⟨hreg, hnz, hpd⟩ := ih
    obtain ⟨hz, hs, ha⟩ := block_eq env hctl s.w a hf hok
    refine ⟨?_, ?_, ?_⟩
    · intro b hb
      rcases List.mem_cons.1 hb with rfl | hb
      · refine ⟨by rw [hs]; simp, ?_⟩
        refine ⟨waitMask ((block env s.w b).1.socks b.ps), by dsimp only; rw [ha]; simp, ?_⟩
        apply waitMask_has
        rw [hs]; simp [hf]
      · obtain ⟨h1, m, h2, h3⟩ := hreg b hb
        have hne : ¬ (b.ps = a.ps ∧ b.side = a.side) := by
          rintro ⟨e1, e2⟩
          rw [e1, e2, hz] at h1
          exact hnz b hb h1.symm
        refine ⟨by rw [hs, if_neg hne]; exact h1, ?_⟩
        by_cases hp : b.ps = a.ps
        · refine ⟨waitMask ((block env s.w a).1.socks b.ps), by dsimp only; rw [ha, if_pos hp], ?_⟩
          apply waitMask_has
          rw [hs, if_neg hne, h1]
          exact hnz b hb
        · exact ⟨m, by dsimp only; rw [ha, if_neg hp]; exact h2, h3⟩
    · intro b hb
      rcases List.mem_cons.1 hb with rfl | hb
      · exact hf
      · exact hnz b hb
    · intro b hb c hc
      rcases List.mem_cons.1 hb with rfl | hb
      · exact hex rfl c hc
      · exact hpd b hb c hc
  | resume s a _ hmem ih =>
    obtain ⟨hreg, hnz, hpd⟩ := ih
    refine ⟨?_, hnz, fun b hb c hc => hpd b hb c (List.mem_of_mem_erase hc)⟩
    intro b hb
    have := hpd b hb a hmem
    dsimp only
    rw [(resume_reg s.w a b.ps b.side).1, (resume_reg s.w a b.ps b.side).2,
      if_neg (fun h => this ⟨h.1.symm, h.2.symm⟩)]
    exact hreg b hb
  | intr s a _ hmem ih =>
    obtain ⟨hreg, hnz, hpd⟩ := ih
    refine ⟨fun b hb => hreg b (List.mem_filter.1 hb).1, fun b hb => hnz b (List.mem_filter.1 hb).1, ?_⟩
    intro b hb c hc
    obtain ⟨hb1, hb2⟩ := List.mem_filter.1 hb
    rcases List.mem_cons.1 hc with rfl | hc
    · rintro ⟨e1, e2⟩
      have h1 := (hreg b hb1).1
      have h2 := (hreg c hmem).1
      rw [e1, e2, h1] at h2
      simp [h2] at hb2
    · exact hpd b hb1 c hc
  | idle s evs new _ hk hnew ih =>
    obtain ⟨hreg, hnz, hpd⟩ := ih
    obtain ⟨-, ⟨new', hn', hiff, -⟩, hrep, hun⟩ := epoll_pass_partial env hadd hctl s.w evs hk
    have hnn : new' = new := by
      rw [hnew] at hn'; exact (List.append_cancel_left hn').symm
    subst hnn
    refine ⟨?_, fun b hb => hnz b (List.mem_filter.1 hb).1, ?_⟩
    · intro b hb
      obtain ⟨hb1, hb2⟩ := List.mem_filter.1 hb
      obtain ⟨h1, m, h2, h3⟩ := hreg b hb1
      dsimp only
      by_cases hp : b.ps ∈ evs.map Prod.fst
      · obtain ⟨e, he, hep⟩ := List.mem_map.1 hp
        obtain ⟨r1, r2, r3, r4⟩ := hrep e he
        have hno : has e.2 b.side.bit = false := by
          rw [Bool.eq_false_iff]
          intro hc
          simp only [List.contains_eq_mem, Bool.not_eq_eq_eq_not, Bool.not_true, decide_eq_false_iff_not,
            List.mem_map, not_exists, not_and] at hb2
          rcases b with ⟨bf, bp, bs⟩
          subst hep
          cases bs
          · exact hb2 ⟨bf, 0, _⟩ ((hiff _).2 ⟨e, he, .inl ⟨hc, hnz _ hb1, h1.symm, rfl, rfl⟩⟩) rfl
          · exact hb2 ⟨bf, 1, _⟩ ((hiff _).2 ⟨e, he, .inr ⟨hc, hnz _ hb1, h1.symm, rfl, rfl⟩⟩) rfl
        rcases b with ⟨bf, bp, bs⟩
        subst hep
        have hz := hnz _ hb1
        cases bs
        · obtain ⟨q1, q2⟩ := r3 hno
          simp only [Sock.reg] at h1 ⊢
          exact ⟨by rw [q1]; exact h1, q2 (by rw [h1]; exact hz)⟩
        · obtain ⟨q1, q2⟩ := r4 hno
          simp only [Sock.reg] at h1 ⊢
          exact ⟨by rw [q1]; exact h1, q2 (by rw [h1]; exact hz)⟩
      · obtain ⟨u1, u2⟩ := hun b.ps hp
        rw [u1, u2]
        exact ⟨h1, m, h2, h3⟩
    · intro b hb c hc
      obtain ⟨hb1, hb2⟩ := List.mem_filter.1 hb
      rcases List.mem_append.1 hc with hc | hc
      · obtain ⟨hc1, hc2⟩ := List.mem_filter.1 hc
        rintro ⟨e1, e2⟩
        have h1 := (hreg b hb1).1
        have h2 := (hreg c hc1).1
        rw [e1, e2, h1] at h2
        rw [← h2] at hc2
        rw [hc2] at hb2
        exact absurd hb2 (by decide)
      · exact hpd b hb1 c hc

/-- C52 (part). In every execution in which no fiber blocks on a side of a socket while another fiber woken
there has yet to run: a fiber that waits is registered and armed, so the next pass of the idle
fiber whose report says the socket is ready for it puts it on the run queue.

Missing: without that condition fibers are lost (`epoll_lost_waiter_violated`). -/
theorem epoll_waiters_partial (env : Env) (hadd : ∀ q, env.add q = SUCCESS)
    (hctl : ∀ p, env.ctl p = false) (s : Sys) (h : Reach env true s) (a : At) (ha : a ∈ s.waiting) :
    (∃ m, s.w.armed a.ps = some m ∧ has m a.side.bit = true) ∧
    ∀ evs filter, KernelMayReport s.w evs → (a.ps, filter) ∈ evs → has filter a.side.bit = true →
      ∃ new, (idlePass env s.w evs).1.runq = s.w.runq ++ new ∧
        ∃ x ∈ new, x.fib = a.fib ∧ x.event = (if a.side = .rd then 0 else 1) := by
  obtain ⟨hreg, hnz, -⟩ := reach_inv env hadd hctl s h
  obtain ⟨h1, h2⟩ := hreg a ha
  refine ⟨h2, fun evs filter hk hm hb => ?_⟩
  obtain ⟨-, ⟨new, hn, hiff, -⟩, -⟩ := epoll_pass_partial env hadd hctl s.w evs hk
  refine ⟨new, hn, ?_⟩
  have hz := hnz a ha
  rcases a with ⟨f, p, sd⟩
  cases sd
  · exact ⟨⟨f, 0, _⟩, (hiff _).2 ⟨_, hm, .inl ⟨hb, hz, h1.symm, rfl, rfl⟩⟩, rfl, rfl⟩
  · exact ⟨⟨f, 1, _⟩, (hiff _).2 ⟨_, hm, .inr ⟨hb, hz, h1.symm, rfl, rfl⟩⟩, rfl, rfl⟩

/-- Every registration in force is one-shot (bit 30), and for reading, writing, an error or a hang-up at most. -/
def OneShot (w : World) : Prop :=
  ∀ p m, w.armed p = some m → m ≠ 0#32 → m.getLsbD 30 = true ∧ ∀ i, m.getLsbD i = true → i = 30 ∨ i = 0 ∨ i = 2

theorem waitMask_oneshot (s : Sock) : (waitMask s).getLsbD 30 = true ∧ ∀ i, (waitMask s).getLsbD i = true → i = 30 ∨ i = 0 ∨ i = 2 := by
  have h1 : EPOLLONESHOT = BitVec.twoPow 32 30 := by decide
  have h2 : EPOLLIN = BitVec.twoPow 32 0 := by decide
  have h3 : EPOLLOUT = BitVec.twoPow 32 2 := by decide
  unfold waitMask
  rw [h1, h2, h3]
  constructor
  · by_cases hr : s.rd = 0 <;> by_cases hw : s.wr = 0 <;> simp [hr, hw]
  · intro i
    by_cases hr : s.rd = 0 <;> by_cases hw : s.wr = 0 <;> simp [hr, hw, BitVec.getLsbD_twoPow, BitVec.getLsbD_or] <;> omega

theorem oneShot_arm {env : Env} {w : World} (h : OneShot w) (ps : Nat) (s : Sock) : OneShot (arm env w ps (waitMask s)).1 := by
  unfold arm
  split
  · exact h
  · intro p m hp hm
    simp only [setArmed] at hp
    split at hp
    · cases hp; exact waitMask_oneshot s
    · exact h p m hp hm

theorem oneShot_armed {w w' : World} (h : OneShot w) (e : w'.armed = w.armed) : OneShot w' := by
  intro p m hp; rw [e] at hp; exact h p m hp

theorem oneShot_one {env : Env} {w : World} (h : OneShot w) (ps : Nat) (f : Mask) : OneShot (idleOne env w ps f).1 := by
  have h1 : OneShot (wakeReader env w ps f).1 := oneShot_armed h (by unfold wakeReader; split <;> (try split) <;> rfl)
  have h2 : ∀ v, OneShot v → OneShot (wakeWriter env v ps f).1 := fun v hv =>
    oneShot_armed hv (by unfold wakeWriter; split <;> (try split) <;> rfl)
  unfold idleOne
  simp only
  split
  · exact h1
  · split
    · exact h2 _ h1
    · simp only [rearm]
      split
      · exact oneShot_arm (h2 _ h1) _ _
      · exact h2 _ h1

theorem oneShot_batch {env : Env} : ∀ {evs : List (Nat × Mask)} {w : World}, OneShot w → OneShot (idleBatch env w evs).1
  | [], _, h => h
  | (ps, f) :: evs, w, h => by
    unfold idleBatch
    simp only
    split
    · exact oneShot_one h ps f
    · exact oneShot_batch (oneShot_one h ps f)

/-- C52 (part). In every execution, whatever the scheduler and the kernel answer, every registration in force is
one-shot: after a report the kernel is silent about the socket until a fiber waits there again. -/
theorem epoll_oneshot {env : Env} {excl : Bool} {s : Sys} (h : Reach env excl s) : OneShot s.w := by
  induction h with
  | start => intro p m hp; nomatch hp
  | block s a _ _ _ _ _ ih =>
    rcases a with ⟨f, ps, sd⟩
    cases sd
    all_goals
      simp only [block, readBlock, writeBlock, readWait, writeWait]
      split
      · exact ih
      · have h2 : ∀ k, OneShot (arm env (setSock s.w ps k) ps (waitMask ((setSock s.w ps k).socks ps))).1 := fun k =>
          oneShot_arm (w := setSock s.w ps k) (oneShot_armed ih rfl) ps _
        split <;> exact h2 _
  | resume s a _ _ ih =>
    refine oneShot_armed ih ?_
    exact (resume_reg s.w a 0 .rd).2
  | intr s a _ _ ih => exact ih
  | idle s evs new _ _ _ ih =>
    refine oneShot_batch fun p m hp hm => ?_
    simp only [report] at hp
    split at hp
    · cases hp; exact absurd rfl hm
    · exact ih p m hp hm

/-- the state of `epoll_lost_waiter_violated` -/
def lost : Sys :=
  let s : Sys := ⟨⟨fun _ => ⟨0, 0⟩, fun _ => none, []⟩, [], []⟩
  let s : Sys := ⟨(block fine s.w ⟨1, 10, .rd⟩).1, ⟨1, 10, .rd⟩ :: s.waiting, s.pending⟩
  let s : Sys := ⟨(block fine s.w ⟨2, 20, .rd⟩).1, ⟨2, 20, .rd⟩ :: s.waiting, s.pending⟩
  let s : Sys := ⟨(idlePass fine s.w [(20, EPOLLIN), (10, EPOLLIN)]).1,
    s.waiting.filter (fun b => !([2, 1] : List Nat).contains b.fib),
    s.waiting.filter (fun b => ([2, 1] : List Nat).contains b.fib) ++ s.pending⟩
  let s : Sys := ⟨resume s.w ⟨2, 20, .rd⟩, s.waiting, s.pending.erase ⟨2, 20, .rd⟩⟩
  let s : Sys := ⟨(block fine s.w ⟨2, 10, .rd⟩).1, ⟨2, 10, .rd⟩ :: s.waiting, s.pending⟩
  ⟨resume s.w ⟨1, 10, .rd⟩, s.waiting, s.pending.erase ⟨1, 10, .rd⟩⟩

theorem lost_reach : Reach fine false lost := by
  refine .resume _ ⟨1, 10, .rd⟩ (.block _ ⟨2, 10, .rd⟩ (.resume _ ⟨2, 20, .rd⟩
    (.idle _ [(20, EPOLLIN), (10, EPOLLIN)] [⟨2, 0, 0#64⟩, ⟨1, 0, 0#64⟩]
      (.block _ ⟨2, 20, .rd⟩ (.block _ ⟨1, 10, .rd⟩ .start ?_ ?_ ?_ ?_) ?_ ?_ ?_ ?_) ?_ ?_) ?_)
      ?_ ?_ ?_ ?_) ?_
  case refine_9 =>
    refine ⟨by decide, ?_⟩
    intro e he
    simp only [List.mem_cons, List.not_mem_nil, or_false] at he
    rcases he with rfl | rfl
    · exact ⟨by decide, EPOLLONESHOT ||| EPOLLIN, by decide, by decide, by decide⟩
    · exact ⟨by decide, EPOLLONESHOT ||| EPOLLIN, by decide, by decide, by decide⟩
  all_goals first | decide | simp

/-- C52 is violated when two fibers read one socket. Fiber 1 waits for socket 10, fiber 2 for socket 20; both
are woken, fiber 2 runs first and blocks on socket 10, which is accepted because the idle fiber
cleared the mark of fiber 1; then fiber 1 runs and clears the mark of fiber 2. Fiber 2 waits,
and data arriving on socket 10 wakes nobody, in this and in every later pass. -/
theorem epoll_lost_waiter_violated :
    Reach fine false lost ∧ (⟨2, 10, .rd⟩ : At) ∈ lost.waiting ∧ lost.pending = [] ∧
    KernelMayReport lost.w [(10, EPOLLIN)] ∧
    (idlePass fine lost.w [(10, EPOLLIN)]).1.runq = lost.w.runq ∧
    (idlePass fine lost.w [(10, EPOLLIN)]).1.armed 10 = some 0#32 := by
  refine ⟨lost_reach, by decide, by decide, ⟨by decide, ?_⟩, by decide, by decide⟩
  intro e he
  simp only [List.mem_cons, List.not_mem_nil, or_false] at he
  subst he
  exact ⟨by decide, EPOLLONESHOT ||| EPOLLIN, by decide, by decide, by decide⟩

-- the hypotheses of `epoll_waiters_partial` are met by a waiting fiber in a reachable state
example : Reach fine true ⟨(block fine ⟨fun _ => ⟨0, 0⟩, fun _ => none, []⟩ ⟨1, 10, .rd⟩).1, [⟨1, 10, .rd⟩], []⟩ :=
  .block _ ⟨1, 10, .rd⟩ .start (by decide) (by simp) (by simp) (by decide)

/-- a socket side already blocked is refused, and nothing changes -/
theorem epoll_double_block (env : Env) (w : World) (a : At) (h : (w.socks a.ps).reg a.side ≠ 0) :
    block env w a = (w, ERROR_PSOCK_DOUBLE_BLOCK_UNSUPPORTED) := by
  rcases a with ⟨f, p, sd⟩
  cases sd <;> simp only [Sock.reg] at h <;> simp [block, readBlock, writeBlock, h]

example : (w0.socks 1).reg .rd ≠ 0 := by decide

/-- A wait that the kernel refuses to register is not reported as one, and after the call has taken back its entry everything is
as before. -/
theorem epoll_block_refused (env : Env) (w : World) (a : At) (hc : env.ctl a.ps = true) :
    (block env w a).2 ≠ SUCCESS ∧ (block env w a).1.armed = w.armed ∧ (block env w a).1.runq = w.runq ∧
      ((w.socks a.ps).reg a.side = 0 → (resume (block env w a).1 a).socks = w.socks) := by
  rcases a with ⟨f, p, sd⟩
  have h1 : ERROR_PSOCK_EPOLL_CTL_FAILED ≠ SUCCESS := by decide
  have h2 : ERROR_PSOCK_DOUBLE_BLOCK_UNSUPPORTED ≠ SUCCESS := by decide
  cases sd <;> simp only [block, readBlock, writeBlock, readWait, writeWait, arm, hc, resume, readResume, writeResume, Sock.reg] at * <;> split
  all_goals
    refine ⟨by simpa using by assumption, rfl, rfl, fun h => ?_⟩
    first
    | contradiction
    | funext q
      by_cases hq : q = p
      · subst hq; simp [setSock, ← h]
      · simp [setSock, hq]

example : ({ ctl := fun _ => true, add := fun _ => SUCCESS } : Env).ctl 1 = true ∧ (w0.socks 3).reg .wr = 0 := by decide

end Rcpr.Epoll
