import Verif.IoProof

/-! Properties of async sockets in a scheduler with requests (`Verif.IoFiber`); what they say is in `Verif.IoSpec`. -/
namespace Rcpr.Io

open Rcpr Epoll

/-! ### C78 -/

/-- `psock_read_block` and `psock_write_block` return success only after `epoll_wait` returned this side of this socket,
and after the call was made; no handler is called in between. -/
theorem success_means_ready {cfg : Cfg} {P : Sys → Call → Oracle → Prop} {main idle : Nat} {w : Sys} {tr : List Item}
    (h : Hist cfg P main idle w tr) : ∀ pre i post, tr = pre ++ i :: post → ∀ f sd ps e t, i.next = .blk f sd ps e t (some SUCCESS) →
      lastCall f (pre ++ [i]) = some (.block sd ps) ∧ readySince f sd ps (pre ++ [i]) = true ∧ t = none := by
  induction h with
  | init _ _ => intro pre i post h; cases pre <;> cases h
  | step c o h he hp ih =>
    intro pre i post heq f sd ps e t hn
    rcases List.eq_nil_or_concat post with rfl | ⟨post', j, rfl⟩
    · obtain ⟨rfl, hi⟩ := List.append_inj' heq rfl
      cases hi
      obtain ⟨-, -, h1, h2, h3⟩ := (step_ok h.inv he).2.1 f sd ps e t hn
      exact ⟨h2, h3, h1⟩
    · rw [List.concat_eq_append, ← List.cons_append, ← List.append_assoc] at heq
      exact ih pre i post' (List.append_inj' heq rfl).1 f sd ps e t hn

/-- Other calls never come back with an event of a socket, and no fiber is entered with one. -/
theorem no_stray_events {cfg : Cfg} {P : Sys → Call → Oracle → Prop} {main idle : Nat} {w : Sys} {tr : List Item}
    (h : Hist cfg P main idle w tr) : ∀ i ∈ tr, i.next.strays = false := by
  induction h with
  | init _ _ => nofun
  | step c o h he hp ih =>
    intro i hi
    rcases List.mem_append.1 hi with hi | hi
    · exact ih i hi
    · rw [List.mem_singleton.1 hi]
      exact (step_ok h.inv he).2.2

/-! ### C79 -/

/-- A fiber is resumed with every request that was sent to it, once, and with no others, before the idle fiber runs. -/
theorem requests_arrive_partial {cfg : Cfg} {main idle : Nat} {w : Sys} {tr : List Item} (h : Hist cfg Once main idle w tr) (f : Nat) :
    got f tr ≤ sent main f [] tr ∧ sent main f [] tr ≤ got f tr + 1 ∧ (w.cur = w.idle → sent main f [] tr = got f tr) := by
  have hc := (h.cnt fun _ _ _ h => h).cnt f
  have hp : pend w f ≤ 1 := by unfold pend; split <;> omega
  refine ⟨by omega, by omega, fun hi => ?_⟩
  rw [hc, pend_none (by rw [h.inv.idleq hi]; nofun)]
  rfl

/-- The calls of `Once`, with sockets that are used by the fiber they were made for. -/
def OnceOwn (cfg : Cfg) (w : Sys) (c : Call) (o : Oracle) : Prop := Once w c o ∧ ∀ sd ps, c = .block sd ps → cfg.owner ps = w.cur

/-- Then, if there are handlers, each request is told to the handler of the fiber it was sent to, once, and to no other. -/
theorem requests_told_partial {cfg : Cfg} {main idle : Nat} {w : Sys} {tr : List Item} (hh : ∀ f, cfg.handler f = true)
    (h : Hist cfg (OnceOwn cfg) main idle w tr) (f : Nat) :
    told f f tr ≤ sent main f [] tr ∧ sent main f [] tr ≤ told f f tr + 1 ∧ (w.cur = w.idle → sent main f [] tr = told f f tr) ∧
    ∀ g, g ≠ f → told f g tr = 0 := by
  have hc := (h.cnt fun _ _ _ h => h.1).cnt f
  have hp : pend w f ≤ 1 := by unfold pend; split <;> omega
  have ht : ∀ i ∈ tr, ∀ g, i.tells f g = (i.gets f && decide (g = f)) := by
    intro i hi g
    obtain ⟨pre, post, rfl⟩ := List.append_of_mem hi
    by_cases hg : i.gets f = true
    · obtain ⟨sd, ps, e, res, h1, h2⟩ := h.told (fun _ _ _ h => h.1) pre i post rfl f hg
      rw [hg, Bool.true_and]
      have he : e.isRequest = true := by
        rw [Item.gets, h2] at hg
        simpa using hg
      have hown : cfg.owner ps = f := by
        have : ∃ w', Hist cfg (OnceOwn cfg) main idle w' (pre ++ [i]) := by
          clear h1 h2 he hg hc hp hi
          generalize htr : pre ++ i :: post = tr at h
          induction h generalizing post with
          | init _ _ => cases pre <;> cases htr
          | step c o h he hp ih =>
            rcases List.eq_nil_or_concat post with rfl | ⟨post', j, rfl⟩
            · exact ⟨_, htr ▸ h.step c o he hp⟩
            · rw [List.concat_eq_append, ← List.cons_append, ← List.append_assoc] at htr
              exact ih post' (List.append_inj' htr rfl).1
        obtain ⟨w', h'⟩ := this
        exact h'.own (fun w c o sd ps h hc => h.2 sd ps hc) f sd ps h1
      rw [Item.tells, h2, if_neg (by rw [hh]; simp), hown]
      rw [Bool.eq_iff_iff]
      simp only [he, beq_self_eq_true, Bool.true_and, beq_iff_eq, Option.some.injEq, decide_eq_true_eq]
      exact eq_comm
    · have : i.tells f g = false := by
        rw [Bool.eq_false_iff]
        intro h'
        unfold Item.tells at h'
        split at h'
        · next hn =>
          simp only [Bool.and_eq_true] at h'
          apply hg
          rw [Item.gets, hn]
          simp only [Bool.and_eq_true]
          exact h'.1
        · cases h'
      rw [this, Bool.eq_false_iff.2 hg]; rfl
  have hself : told f f tr = got f tr := by
    unfold told got
    refine List.countP_congr fun i hi => ?_
    rw [ht i hi]; simp
  have hoth : ∀ g, g ≠ f → told f g tr = 0 := fun g hg => by
    unfold told
    refine List.countP_eq_zero.2 fun i hi => ?_
    rw [ht i hi]; simp [hg]
  refine ⟨by omega, by omega, fun hi => ?_, hoth⟩
  rw [hc, pend_none (by rw [h.inv.idleq hi]; nofun), hself]
  rfl

/-- The answer of the handler decides: an error is returned by the wait, success makes it wait again. -/
theorem handler_decides {cfg : Cfg} {w : Sys} {c : Call} {o : Oracle} {f : Nat} {sd : Side} {ps : Nat} {e : Ev} {h : Nat} {res : Option Status}
    (hn : (step cfg w c o).2.next = .blk f sd ps e (some h) res) :
    h = cfg.owner ps ∧ e.disc ≠ .psock ∧ (o.h = SUCCESS → res = none ∧ (step cfg w c o).1.todo = some (.block sd ps)) ∧
    (o.h ≠ SUCCESS → res = some o.h) := by
  have key : ∀ (w1 : Sys) (g : Nat) (e1 : Ev), (arrive cfg w1 g e1 o).2 = .blk f sd ps e (some h) res →
      h = cfg.owner ps ∧ e.disc ≠ .psock ∧ (o.h = SUCCESS → res = none ∧ (arrive cfg w1 g e1 o).1.todo = some (.block sd ps)) ∧
      (o.h ≠ SUCCESS → res = some o.h) := by
    intro w1 g e1 ha
    unfold arrive at ha ⊢
    cases hc : w1.call g with
    | none => rw [hc] at ha; cases ha
    | some d =>
      rw [hc] at ha
      cases d with
      | block sd' ps' =>
        simp only at ha ⊢
        split at ha
        · cases ha
        · next h1 =>
          split at ha
          · cases ha
          · next h2 =>
            rw [if_neg h1, if_neg h2]
            split at ha
            · next h3 => cases ha; exact ⟨rfl, h1, fun h => absurd h h3, fun _ => rfl⟩
            · next h3 =>
              cases ha
              rw [if_neg h3]
              exact ⟨rfl, h1, fun _ => ⟨rfl, rfl⟩, fun h => absurd h h3⟩
      | _ => cases ha
  have hf : ∀ (w1 : Sys) (st : Status), (failed w1 w.cur c st).2.next ≠ .blk f sd ps e (some h) res := fun w1 st => by
    unfold failed; split <;> nofun
  unfold step at hn ⊢
  simp only at hn ⊢
  generalize handler _ c o = r at hn ⊢
  rcases r with ⟨⟨ev, state, call, cur, runq, idle, tree, io, todo⟩, st⟩
  by_cases hb : busy { w with todo := none } c = true
  · rw [if_pos hb] at hn; cases hn
  · rw [if_neg hb] at hn ⊢
    by_cases hs : st ≠ SUCCESS
    · rw [if_pos hs] at hn; exact absurd hn (hf _ _)
    · rw [if_neg hs] at hn ⊢
      cases runq with
      | cons g q => exact key _ _ _ hn
      | nil =>
        simp only at hn ⊢
        by_cases hz : idle ≠ 0
        · rw [if_pos hz] at hn ⊢; exact key _ _ _ hn
        · rw [if_neg hz] at hn; exact absurd hn (hf _ _)

/-! ### Histories to look at -/

/-- The environment grants everything; handlers answer `h`. -/
def grant (h : Status) : Oracle := ⟨fun _ => SUCCESS, SUCCESS, fun _ => false, h⟩

def enabledB (w : Sys) (c : Call) : Bool :=
  (match w.todo with
    | some d => c == d
    | none => true) &&
  (match c with
    | .poll evs => w.cur == w.idle && decide (evs.map Prod.fst).Nodup && evs.all fun e => e.2 != 0#32 &&
      (match w.io.armed e.1 with
        | some m => m != 0#32 && e.2 &&& ~~~(m ||| EPOLLERR ||| EPOLLHUP) == 0#32
        | none => false)
    | .add f | .quiesce f | .terminate f => w.cur != w.idle && f != w.idle && f != 0
    | _ => w.cur != w.idle)

theorem enabledB_ok {w : Sys} {c : Call} (h : enabledB w c = true) : Enabled w c := by
  unfold enabledB at h
  rw [Bool.and_eq_true] at h
  obtain ⟨h1, h2⟩ := h
  refine ⟨fun d hd => ?_, ?_, fun evs hc => ?_, fun f hf => ?_⟩
  · rw [hd] at h1; simpa using h1
  · constructor
    · intro hi
      cases c with
      | poll evs => exact ⟨evs, rfl⟩
      | _ => simp [hi] at h2
    · rintro ⟨evs, rfl⟩
      simp only [Bool.and_eq_true, beq_iff_eq] at h2
      exact h2.1.1
  · subst hc
    simp only [Bool.and_eq_true, beq_iff_eq, decide_eq_true_eq, List.all_eq_true, bne_iff_ne] at h2
    refine ⟨h2.1.2, fun e he => ⟨(h2.2 e he).1, ?_⟩⟩
    have := (h2.2 e he).2
    split at this
    · next m hm =>
      simp only [Bool.and_eq_true, beq_iff_eq, bne_iff_ne] at this
      exact ⟨m, hm, this.1, this.2⟩
    · cases this
  · rcases hf with rfl | rfl | rfl <;>
    · simp only [Bool.and_eq_true, bne_iff_ne] at h2
      exact ⟨h2.1.2, h2.2⟩

/-- The calls made one after the other, with the answers of the handlers. -/
def play (cfg : Cfg) : List (Call × Status) → Sys → List Item → Sys × List Item
  | [], w, tr => (w, tr)
  | c :: cs, w, tr => play cfg cs (step cfg w c.1 (grant c.2)).1 (tr ++ [(step cfg w c.1 (grant c.2)).2])

def playable (cfg : Cfg) (p : Sys → Call → Bool) : List (Call × Status) → Sys → Bool
  | [], _ => true
  | c :: cs, w => enabledB w c.1 && p w c.1 && playable cfg p cs (step cfg w c.1 (grant c.2)).1

theorem play_hist {cfg : Cfg} {P : Sys → Call → Oracle → Prop} {p : Sys → Call → Bool} (hp : ∀ w c s, p w c = true → P w c (grant s)) {main idle : Nat} :
    ∀ (cs : List (Call × Status)) {w : Sys} {tr : List Item}, Hist cfg P main idle w tr → playable cfg p cs w = true →
      Hist cfg P main idle (play cfg cs w tr).1 (play cfg cs w tr).2
  | [], _, _, h, _ => h
  | c :: cs, w, tr, h, hc => by
    simp only [playable, Bool.and_eq_true] at hc
    exact play_hist hp cs (h.step c.1 (grant c.2) (enabledB_ok hc.1.1) (hp _ _ _ hc.1.2)) hc.2

def onceB (cfg : Cfg) (w : Sys) (c : Call) : Bool :=
  match c with
  | .add f => f != 0 && !(w.cur :: w.runq).contains f && (w.call f).isNone && !w.tree.contains f && w.state f == .created
  | .quiesce f | .terminate f => !(w.cur :: w.runq).contains f
  | .quiesceAll | .terminateAll => w.tree.all fun f => f == w.cur || w.state f != .running || !w.runq.contains f
  | .block _ ps => cfg.owner ps == w.cur
  | _ => true

theorem onceB_ok {cfg : Cfg} {w : Sys} {c : Call} (s : Status) (h : onceB cfg w c = true) : OnceOwn cfg w c (grant s) := by
  refine ⟨⟨fun _ => rfl, fun f hc => ?_, fun f hc => ?_, fun hc f hf h1 h2 => ?_⟩, fun sd ps hc => ?_⟩
  · subst hc
    simp only [onceB, Bool.and_eq_true, bne_iff_ne, Bool.not_eq_true', beq_iff_eq, Option.isNone_iff_eq_none] at h
    obtain ⟨⟨⟨⟨a, b⟩, c⟩, d⟩, e⟩ := h
    exact ⟨a, by simpa using b, c, by simpa using d, e⟩
  · rcases hc with rfl | rfl <;> simpa [onceB] using h
  · rcases hc with rfl | rfl
    all_goals
      have := List.all_eq_true.1 h f hf
      simpa [h1, h2] using this
  · subst hc
    simpa [onceB] using h

/-- Socket 3 is made for the main fiber, 1 and 2 for fibers 2 and 3. -/
def cfg1 : Cfg := ⟨fun ps => if ps = 3 then 1 else ps + 1, fun _ => true⟩

/-- Fibers 2 and 3 wait for sockets 1 and 2; the main fiber asks 2 to quiesce, which waits again; main waits for socket 3;
the idle fiber finds socket 1 ready. -/
def calls1 : List (Call × Status) :=
  [(.add 2, 0), (.add 3, 0), (.run, 0), (.block .rd 1, 0), (.block .rd 2, 0), (.quiesce 2, 0), (.block .rd 1, 0), (.block .rd 3, 0),
   (.poll [(1, EPOLLIN)], 0)]

example : playable cfg1 (onceB cfg1) calls1 (init 1 9) = true ∧
    (let r := play cfg1 calls1 (init 1 9) []
     (sent 1 2 [] r.2, told 2 2 r.2, sent 1 3 [] r.2) = (1, 1, 0) ∧
     r.2.getLast? = some ⟨9, .poll [(1, EPOLLIN)], .blk 2 .rd 1 ⟨.psock, 0, 0⟩ none (some SUCCESS)⟩) := by decide +kernel

/-- The history exists. -/
theorem hist1 : Hist cfg1 (OnceOwn cfg1) 1 9 (play cfg1 calls1 (init 1 9) []).1 (play cfg1 calls1 (init 1 9) []).2 :=
  play_hist (p := onceB cfg1) (fun _ _ s h => onceB_ok s h) calls1 (.init (by decide) (by decide)) (by decide +kernel)

/-- Any call. -/
def anyCall (_ : Sys) (_ : Call) (_ : Oracle) : Prop := True

theorem play_any {cfg : Cfg} {cs : List (Call × Status)} (h : playable cfg (fun _ _ => true) cs (init 1 9) = true) :
    Hist cfg anyCall 1 9 (play cfg cs (init 1 9) []).1 (play cfg cs (init 1 9) []).2 :=
  play_hist (p := fun _ _ => true) (fun _ _ _ _ => trivial) cs (.init (by decide) (by decide)) h

/-- The idle fiber wakes 3 and 2; 3 asks 2 to quiesce before 2 runs. -/
def calls2 : List (Call × Status) :=
  [(.add 2, 0), (.add 3, 0), (.run, 0), (.block .rd 1, 0), (.block .rd 2, 0), (.block .rd 3, 0), (.poll [(2, EPOLLIN), (1, EPOLLIN)], 0),
   (.quiesce 2, 0), (.block .rd 1, 0), (.block .rd 2, 0)]

/-- One request is told twice: the fiber is in the run queue twice, and its event is the request both times
(fiber_scheduler_create_with_disciplines.c:1071-1085, disciplined_fiber_scheduler_set_next_fiber_to_run.c:45-68). -/
theorem requests_told_violated : ∃ w tr, Hist cfg1 anyCall 1 9 w tr ∧ sent 1 2 [] tr = 1 ∧ told 2 2 tr = 2 :=
  ⟨_, _, play_any (cs := calls2) (by decide +kernel), by decide +kernel, by decide +kernel⟩

/-- As before; the handler answers with an error, and fiber 2 ends. -/
def calls3 : List (Call × Status) :=
  [(.add 2, 0), (.add 3, 0), (.run, 0), (.block .rd 1, 0), (.block .rd 2, 0), (.block .rd 3, 0), (.poll [(2, EPOLLIN), (1, EPOLLIN)], 0),
   (.quiesce 2, ERROR_FIBER_INVALID_STATE), (.stop, 0), (.block .rd 2, 0)]

/-- A fiber that was asked to quiesce and ended is run again, past its end: fiber_entry.c:35-46 (see C58). -/
theorem requests_end_violated : ∃ w tr, Hist cfg1 anyCall 1 9 w tr ∧ sent 1 2 [] tr = 1 ∧
    tr.getLast? = some ⟨3, .block .rd 2, .ret 2 .stop ⟨.mgmt, Fiber.MGMT_QUIESCE_REQUEST, 0⟩⟩ ∧ live 1 2 tr = false :=
  ⟨_, _, play_any (cs := calls3) (by decide +kernel), by decide +kernel, by decide +kernel, by decide +kernel⟩

/-- The main fiber made socket 3; fiber 2 waits for it. -/
def calls4 : List (Call × Status) := [(.add 2, 0), (.run, 0), (.block .rd 3, 0), (.quiesce 2, 0)]

/-- A socket has to be used by the fiber it was made for, as psock.h:403-404 says: otherwise the handler of another
fiber is told, the one the socket was made for (psock_read_block.c:121-126, psock_create_wrap_async.c:184). -/
theorem requests_need_owner : ∃ w tr, Hist cfg1 Once 1 9 w tr ∧ sent 1 2 [] tr = 1 ∧ told 2 2 tr = 0 ∧ told 2 1 tr = 1 :=
  ⟨_, _, play_hist (p := fun w c => onceB ⟨fun _ => w.cur, fun _ => true⟩ w c) (fun _ _ s h => (onceB_ok s h).1) calls4
    (.init (by decide) (by decide)) (by decide +kernel), by decide +kernel, by decide +kernel, by decide +kernel⟩

end Rcpr.Io
