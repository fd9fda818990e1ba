import Verif.IoWait
import Verif.Props.Io

/-! Properties of waits for async sockets in a scheduler with requests (`Verif.IoFiber`); what they say is in `Verif.IoSpec`. -/
namespace Rcpr.Io

open Rcpr Epoll

theorem bit_twoPow (sd : Side) : ∃ k, k < 32 ∧ sd.bit = BitVec.twoPow 32 k := by
  cases sd
  · exact ⟨0, by decide, rfl⟩
  · exact ⟨2, by decide, rfl⟩

/-- If the kernel is asked for a side, it may report it. -/
theorem may_report {w : World} {ps : Nat} {sd : Side} {m : Mask} (h : w.armed ps = some m) (hm : has m sd.bit = true) :
    KernelMayReport w [(ps, sd.bit)] := by
  refine ⟨by simp, fun e he => ?_⟩
  rw [List.mem_singleton.1 he]
  obtain ⟨k, hk, hb⟩ := bit_twoPow sd
  have hm : m &&& sd.bit ≠ 0#32 := by simpa [has] using hm
  have hbit : m.getLsbD k = true := by
    rw [hb, BitVec.and_twoPow] at hm
    split at hm
    · assumption
    · exact absurd rfl hm
  refine ⟨fun h0 => ?_, m, h, fun h0 => ?_, ?_⟩
  · change sd.bit = 0#32 at h0
    rw [h0] at hm
    simp at hm
  · rw [h0] at hm
    simp at hm
  · show sd.bit &&& ~~~(m ||| EPOLLERR ||| EPOLLHUP) = 0#32
    rw [hb, BitVec.twoPow_and]
    simp [hbit]

/-! ### C82 -/

/-- When the idle fiber is about to ask the kernel, no fiber waits for what was reported after it began to wait, and the kernel is
asked for what each of them waits for: it may report it. -/
theorem no_waiter_lost_partial {cfg : Cfg} {main idle : Nat} {w : Sys} {tr : List Item} (h : Hist cfg Alone main idle w tr) (hi : w.cur = w.idle)
    (f : Nat) (sd : Side) (ps : Nat) (hf : inside f tr = some (.block sd ps)) :
    readySince f sd ps tr = false ∧ KernelMayReport w.io [(ps, sd.bit)] := by
  have hw := (h.wt fun _ _ _ h => h).wait f sd ps ((h.inside f).trans hf)
  rw [h.inv.idleq hi] at hw
  obtain ⟨h1, -, m, h2, h3⟩ := hw.resolve_left (List.not_mem_nil)
  exact ⟨h1, may_report h2 h3⟩

theorem Hist.take {cfg : Cfg} {P : Sys → Call → Oracle → Prop} {main idle : Nat} {pre : List Item} : ∀ {post : List Item} {w : Sys},
    Hist cfg P main idle w (pre ++ post) → ∃ w', Hist cfg P main idle w' pre := by
  intro post w h
  generalize htr : pre ++ post = tr at h
  induction h generalizing post with
  | init h1 h2 =>
    obtain ⟨rfl, -⟩ := List.append_eq_nil_iff.1 htr
    exact ⟨_, .init h1 h2⟩
  | step c o h he hp ih =>
    rcases List.eq_nil_or_concat post with rfl | ⟨post', j, rfl⟩
    · rw [List.append_nil] at htr
      exact ⟨_, htr ▸ h.step c o he hp⟩
    · rw [List.concat_eq_append, ← List.append_assoc] at htr
      exact ih (List.append_inj' htr rfl).1

/-- Only a fiber that runs makes calls. -/
theorem Hist.caller {cfg : Cfg} {P : Sys → Call → Oracle → Prop} {main idle : Nat} {w : Sys} {tr : List Item} {i : Item}
    (h : Hist cfg P main idle w (tr ++ [i])) : Io.inside i.who tr = none := by
  generalize htr : tr ++ [i] = tr' at h
  cases h with
  | init _ _ => cases tr <;> cases htr
  | step c o h he hp =>
    obtain ⟨rfl, hi⟩ := List.append_inj' htr rfl
    cases hi
    rw [(step_who _ _ _ _).1, ← h.inside]
    exact h.inv.curcall

/-- A fiber that waits for one side of a socket when `epoll_wait` returns it runs before the idle fiber does. -/
theorem reported_runs_partial {cfg : Cfg} {main idle : Nat} {w : Sys} {pre post : List Item} {i : Item}
    (h : Hist cfg Alone main idle w (pre ++ i :: post)) (hi : w.cur = w.idle) (f : Nat) (sd : Side) (ps : Nat)
    (hf : inside f pre = some (.block sd ps)) (hr : i.reports sd ps = true) : ∃ j ∈ i :: post, j.runs f = true := by
  apply Classical.byContradiction
  intro hn
  have hn : ∀ j ∈ i :: post, j.runs f = false := fun j hj => by
    cases hj' : j.runs f
    · rfl
    · exact absurd ⟨j, hj, hj'⟩ hn
  -- it stays inside
  have stay : ∀ (l : List Item) (w : Sys), Hist cfg Alone main idle w (pre ++ l) → (∀ j ∈ l, j.runs f = false) →
      inside f (pre ++ l) = some (.block sd ps) ∧ (∀ j, l.head? = some j → j.reports sd ps = true → readySince f sd ps (pre ++ l) = true) := by
    intro l
    induction hl : l.length generalizing l with
    | zero =>
      intro w _ _
      rw [List.eq_nil_of_length_eq_zero hl]
      exact ⟨by rw [List.append_nil]; exact hf, nofun⟩
    | succ k ih =>
      intro w h hn
      rcases List.eq_nil_or_concat l with rfl | ⟨l', j, rfl⟩
      · cases hl
      · rw [List.concat_eq_append] at hn h hl ⊢
        rw [← List.append_assoc] at h ⊢
        obtain ⟨w', h'⟩ := h.take
        obtain ⟨ih1, ih2⟩ := ih l' (by simpa using hl) w' h' fun j hj => hn j (List.mem_append_left _ hj)
        have hw : j.who ≠ f := fun e => by
          have := h.caller
          rw [e, ih1] at this
          cases this
        refine ⟨?_, fun j' hj' hrep => ?_⟩
        · rw [inside_snoc, hn j (List.mem_append_right _ (List.mem_singleton.2 rfl)), if_neg hw]
          exact ih1
        · rw [readySince_snoc, if_neg hw]
          cases l' with
          | nil =>
            cases hj'
            rw [hrep, Bool.or_true]
          | cons a l' =>
            cases hj'
            rw [ih2 _ rfl hrep, Bool.true_or]
  obtain ⟨h1, h2⟩ := stay _ w h hn
  have := (no_waiter_lost_partial h hi f sd ps h1).1
  rw [h2 i rfl hr] at this
  cases this

/-- Each socket is used by the fiber it was made for, as psock.h:403-404 says; the idle fiber can arm sockets again. -/
structure Owned (cfg : Cfg) (w : Sys) (c : Call) (o : Oracle) : Prop where
  own : ∀ sd ps, c = .block sd ps → cfg.owner ps = w.cur
  ctl : ∀ evs, c = .poll evs → ∀ p, o.ctl p = false

/-- Then no two fibers wait for the same. -/
theorem Hist.alone {cfg : Cfg} {main idle : Nat} {w : Sys} {tr : List Item} (h : Hist cfg (Owned cfg) main idle w tr) : Hist cfg Alone main idle w tr := by
  induction h with
  | init h1 h2 => exact .init h1 h2
  | step c o h he hp ih =>
    refine ih.step c o he ⟨fun sd ps hc g hg => ?_, hp.ctl⟩
    have h1 := h.own (fun w c o sd ps hp hc => hp.own sd ps hc) g sd ps (h.inv.last g _ hg)
    rw [hp.own sd ps hc] at h1
    rw [← h1, h.inv.curcall] at hg
    cases hg

/-- The same for sockets used by the fibers they were made for. -/
theorem owned_waiter_runs_partial {cfg : Cfg} {main idle : Nat} {w : Sys} {pre post : List Item} {i : Item}
    (h : Hist cfg (Owned cfg) main idle w (pre ++ i :: post)) (hi : w.cur = w.idle) (f : Nat) (sd : Side) (ps : Nat)
    (hf : inside f pre = some (.block sd ps)) (hr : i.reports sd ps = true) : ∃ j ∈ i :: post, j.runs f = true :=
  reported_runs_partial h.alone hi f sd ps hf hr

/-! ### Histories to look at -/

/-- The environment grants everything, handlers answer with success; `epoll_ctl` may fail. -/
def ctlFails (b : Bool) : Oracle := { grant SUCCESS with ctl := fun _ => b }

/-- The calls made one after the other. -/
def perform (cfg : Cfg) : List (Call × Bool) → Sys → List Item → Sys × List Item
  | [], w, tr => (w, tr)
  | c :: cs, w, tr => perform cfg cs (step cfg w c.1 (ctlFails c.2)).1 (tr ++ [(step cfg w c.1 (ctlFails c.2)).2])

def performable (cfg : Cfg) (p : Sys → Call → Bool → Bool) : List (Call × Bool) → Sys → Bool
  | [], _ => true
  | c :: cs, w => enabledB w c.1 && p w c.1 c.2 && performable cfg p cs (step cfg w c.1 (ctlFails c.2)).1

theorem perform_hist {cfg : Cfg} {P : Sys → Call → Oracle → Prop} {p : Sys → Call → Bool → Bool} (hp : ∀ w c b, p w c b = true → P w c (ctlFails b))
    {main idle : Nat} : ∀ (cs : List (Call × Bool)) {w : Sys} {tr : List Item}, Hist cfg P main idle w tr → performable cfg p cs w = true →
      Hist cfg P main idle (perform cfg cs w tr).1 (perform cfg cs w tr).2
  | [], _, _, h, _ => h
  | c :: cs, w, tr, h, hc => by
    simp only [performable, Bool.and_eq_true] at hc
    exact perform_hist hp cs (h.step c.1 _ (enabledB_ok hc.1.1) (hp _ _ _ hc.1.2)) hc.2

/-- Each socket is used by the fiber it was made for. -/
def ownB (cfg : Cfg) (w : Sys) (c : Call) : Bool :=
  match c with
  | .block _ ps => cfg.owner ps == w.cur
  | _ => true

theorem ownB_ok {cfg : Cfg} {w : Sys} {c : Call} (h : ownB cfg w c = true) : ∀ sd ps, c = .block sd ps → cfg.owner ps = w.cur := by
  rintro sd ps rfl
  simpa [ownB] using h

/-- As `calls1`: fibers 2 and 3 wait for sockets 1 and 2, the main fiber asks 2 to quiesce, which waits again (once in vain: `epoll_ctl` fails);
main waits for socket 3; the idle fiber finds socket 1 ready, and 2 waits once more. -/
def calls5 : List (Call × Bool) :=
  [(.add 2, false), (.add 3, false), (.run, false), (.block .rd 1, false), (.block .rd 2, false), (.quiesce 2, false), (.block .rd 1, true),
   (.block .rd 1, false), (.block .rd 3, false), (.poll [(1, EPOLLIN)], false), (.block .rd 1, false)]

theorem hist5 : Hist cfg1 (Owned cfg1) 1 9 (perform cfg1 calls5 (init 1 9) []).1 (perform cfg1 calls5 (init 1 9) []).2 :=
  perform_hist (p := fun w c b => ownB cfg1 w c && !(b && match c with | .poll _ => true | _ => false))
    (fun w c b h => by
      simp only [Bool.and_eq_true] at h
      refine ⟨ownB_ok h.1, ?_⟩
      rintro evs rfl p
      simpa [ctlFails] using h.2) calls5 (.init (by decide) (by decide)) (by decide +kernel)

/-- The idle fiber runs; 2 and 3 wait; the kernel returned socket 1 to a waiting fiber, which ran. -/
example : (let r := perform cfg1 calls5 (init 1 9) []
    r.1.cur = r.1.idle ∧ inside 2 r.2 = some (.block .rd 1) ∧ inside 3 r.2 = some (.block .rd 2) ∧
    (let pre := r.2.take 9
     inside 2 pre = some (.block .rd 1) ∧ (r.2.drop 9).map (fun i => (i.reports .rd 1, i.runs 2)) = [(true, true), (false, false)])) := by
  decide +kernel

/-- Fibers 2 and 3 wait for sockets 1 and 2. The idle fiber wakes 3 first, which now waits for socket 1. Then 2 runs and takes the registration
of 3 away. The kernel returns socket 1. -/
def calls6 : List (Call × Bool) :=
  [(.add 2, false), (.add 3, false), (.run, false), (.block .rd 1, false), (.block .rd 2, false), (.block .rd 3, false),
   (.poll [(2, EPOLLIN), (1, EPOLLIN)], false), (.block .rd 1, false), (.block .rd 2, false), (.poll [(1, EPOLLIN)], false)]

/-- If two fibers wait for the same side of a socket, one may be forgotten: the first to come back clears the field that now names
the second (psock_read_block.c:104-106). -/
theorem no_waiter_lost_violated : ∃ w tr, Hist cfg1 (fun _ _ o => ∀ p, o.ctl p = false) 1 9 w tr ∧ w.cur = w.idle ∧
    inside 3 tr = some (.block .rd 1) ∧ readySince 3 .rd 1 tr = true :=
  ⟨_, _, perform_hist (p := fun _ _ b => !b) (fun w c b h p => by simpa [ctlFails] using h) calls6 (.init (by decide) (by decide)) (by decide +kernel),
    by decide +kernel, by decide +kernel, by decide +kernel⟩

/-- Fiber 2 waits for socket 1; the kernel reports an error there, and the idle fiber fails to arm the socket again. -/
def calls7 : List (Call × Bool) :=
  [(.add 2, false), (.run, false), (.block .rd 1, false), (.block .rd 3, false), (.poll [(1, EPOLLERR)], true)]

/-- If arming fails in the idle fiber, the fiber waits for what the kernel is not asked for: the error is ignored
(psock_idle_fiber_entry.c:164-175). -/
theorem arming_failure_violated : ∃ w tr, Hist cfg1 (fun w c _ => ∀ sd ps, c = .block sd ps → cfg1.owner ps = w.cur) 1 9 w tr ∧ w.cur = w.idle ∧
    inside 2 tr = some (.block .rd 1) ∧ ∀ m, ¬ KernelMayReport w.io [(1, m)] := by
  refine ⟨_, _, perform_hist (p := fun w c _ => ownB cfg1 w c) (fun w c b h => ownB_ok h) calls7 (.init (by decide) (by decide)) (by decide +kernel),
    by decide +kernel, by decide +kernel, fun m h => ?_⟩
  obtain ⟨m', h1, h2, -⟩ := (h.2 _ (List.mem_singleton.2 rfl)).2
  have h3 : (perform cfg1 calls7 (init 1 9) []).1.io.armed 1 = some 0#32 := by decide +kernel
  change (perform cfg1 calls7 (init 1 9) []).1.io.armed 1 = some m' at h1
  rw [h3] at h1
  exact h2 (Option.some.inj h1).symm

end Rcpr.Io
