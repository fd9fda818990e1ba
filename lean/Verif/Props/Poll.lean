import Verif.Poll

/-!
Property C40 for the poll and kqueue platforms: blocked fibers and readiness events.
-/
namespace Rcpr.Poll

open Rcpr

/-! ### Specification -/

/-- a fiber waiting for a descriptor; `ev` is the event it waits for -/
structure Waiter where
  fd : Int
  ev : Bits
  fib : Nat
  deriving DecidableEq

/-- the waiters a context holds, in order -/
def waiters (c : Ctx) : List Waiter :=
  ((c.events.zip c.fibers).take c.curr).map (fun p => ⟨p.1.fd, p.1.events, p.2⟩)

/-- the context is well formed -/
def WF (c : Ctx) : Prop :=
  c.curr ≤ c.max ∧ c.max ≤ c.events.length ∧ c.max ≤ c.fibers.length

/-- a report that wakes: readable, writable or hung up -/
def Fires (r : Bits) : Bool := has r POLLIN || has r POLLOUT || has r POLLHUP

/-- what a woken waiter is resumed with -/
def wakeOf (w : Waiter) (r : Bits) : Wake :=
  ⟨w.fib,
   if has r POLLIN then 0 else if has r POLLOUT then 1 else if has w.ev POLLIN then 0 else 1,
   (if has r POLLERR then 1#64 else 0#64) + (if has r POLLHUP then 2#64 else 0#64)⟩

/-! ### Helper lemmas -/

theorem zip_set {α β : Type} : ∀ (l : List α) (m : List β) (i : Nat) (a : α) (b : β),
    (l.set i a).zip (m.set i b) = (l.zip m).set i (a, b)
  | [], m, i, a, b => by simp
  | x :: l, [], i, a, b => by simp
  | x :: l, y :: m, 0, a, b => by simp
  | x :: l, y :: m, i + 1, a, b => by simp [zip_set l m i a b]

theorem set_take_succ {α : Type} : ∀ (l : List α) (n : Nat) (a : α), n < l.length →
    (l.set n a).take (n + 1) = l.take n ++ [a]
  | [], n, a, h => by simp at h
  | x :: l, 0, a, _ => by simp
  | x :: l, n + 1, a, h => by
    simp only [List.set_cons_succ, List.take_succ_cons, List.cons_append]
    rw [set_take_succ l n a (by simpa using h)]

theorem take_succ' {α : Type} (l : List α) (n : Nat) (h : n < l.length) :
    l.take (n + 1) = l.take n ++ [l[n]] := by
  rw [List.take_succ, List.getElem?_eq_getElem h]; rfl

theorem set_drop_of_lt {α : Type} : ∀ (l : List α) (n i : Nat) (a : α), n < i →
    (l.set n a).drop i = l.drop i
  | [], n, i, a, h => by simp
  | x :: l, 0, i + 1, a, h => by simp
  | x :: l, n + 1, i + 1, a, h => by simp [set_drop_of_lt l n i a (by omega)]

theorem resumeEvent_fires (e r : Bits) : (resumeEvent e r ≠ -1) ↔ Fires r = true := by
  unfold resumeEvent Fires
  by_cases a : has r POLLIN = true <;> by_cases b : has r POLLOUT = true <;>
    by_cases c : has r POLLHUP = true <;> by_cases d : has e POLLIN = true <;> simp [a, b, c, d]

theorem wakeOf_eq (e : Ent) (f : Nat) (h : Fires e.revents = true) :
    (⟨f, resumeEvent e.events e.revents, resumeParam e.revents⟩ : Wake) =
      wakeOf ⟨e.fd, e.events, f⟩ e.revents := by
  unfold wakeOf resumeEvent resumeParam
  unfold Fires at h
  by_cases a : has e.revents POLLIN = true <;> by_cases b : has e.revents POLLOUT = true <;>
    by_cases c : has e.revents POLLHUP = true <;> by_cases d : has e.revents POLLERR = true <;>
    by_cases g : has e.events POLLIN = true <;> simp_all

theorem take_zip {α β : Type} : ∀ (l : List α) (m : List β) (n : Nat),
    (l.zip m).take n = (l.take n).zip (m.take n)
  | [], m, n => by simp
  | x :: l, [], n => by simp
  | x :: l, y :: m, 0 => by simp
  | x :: l, y :: m, n + 1 => by simp [take_zip l m n]

/-- fired part of the entries -/
def fired (l : List (Ent × Nat)) : List (Ent × Nat) := l.filter (fun p => Fires p.1.revents)
def unfired (l : List (Ent × Nat)) : List (Ent × Nat) := l.filter (fun p => !Fires p.1.revents)
def wakes (l : List (Ent × Nat)) : List Wake :=
  (fired l).map (fun p => wakeOf ⟨p.1.fd, p.1.events, p.2⟩ p.1.revents)

theorem loop_spec (add : List Wake → Status) (hadd : ∀ q, add q = SUCCESS) :
    ∀ (n i new : Nat) (c : Ctx) (q : List Wake), new ≤ i → i + n ≤ c.events.length →
      i + n ≤ c.fibers.length →
    ∃ c', loop add n i new c q =
        some (c', new + (unfired (((c.events.zip c.fibers).drop i).take n)).length,
          q ++ wakes (((c.events.zip c.fibers).drop i).take n), SUCCESS) ∧
      (c'.events.zip c'.fibers).take (new + (unfired (((c.events.zip c.fibers).drop i).take n)).length) =
        (c.events.zip c.fibers).take new ++ unfired (((c.events.zip c.fibers).drop i).take n) ∧
      c'.events.length = c.events.length ∧ c'.fibers.length = c.fibers.length ∧
      c'.max = c.max ∧ c'.curr = c.curr
  | 0, i, new, c, q, _, _, _ => ⟨c, by simp [loop, unfired, wakes, fired], by simp [unfired], rfl, rfl, rfl, rfl⟩
  | n + 1, i, new, c, q, hn, he, hf => by
    have hie : i < c.events.length := by omega
    have hif : i < c.fibers.length := by omega
    have hiz : i < (c.events.zip c.fibers).length := by simp; omega
    have hz : ((c.events.zip c.fibers).drop i).take (n + 1) =
        (c.events[i], c.fibers[i]) :: ((c.events.zip c.fibers).drop (i + 1)).take n := by
      rw [List.drop_eq_getElem_cons hiz, List.take_succ_cons, List.getElem_zip]
    rw [hz]
    unfold loop
    simp only [List.getElem?_eq_getElem hie, List.getElem?_eq_getElem hif, Option.bind_eq_bind,
      Option.bind_some]
    by_cases hfire : Fires c.events[i].revents = true
    · rw [if_pos ((resumeEvent_fires _ _).2 hfire), if_neg (by simp [hadd])]
      obtain ⟨c', h1, h2, h3⟩ := loop_spec add hadd n (i + 1) new c
        (q ++ [⟨c.fibers[i], resumeEvent c.events[i].events c.events[i].revents,
          resumeParam c.events[i].revents⟩]) (by omega) (by omega) (by omega)
      refine ⟨c', ?_, ?_, h3⟩
      · rw [h1]
        simp [unfired, wakes, fired, hfire, wakeOf_eq]
      · simpa [unfired, hfire] using h2
    · rw [if_neg (fun h => hfire ((resumeEvent_fires _ _).1 h))]
      by_cases hin : i = new
      · rw [if_neg (by simp [hin])]
        obtain ⟨c', h1, h2, h3⟩ := loop_spec add hadd n (i + 1) (new + 1) c q (by omega) (by omega) (by omega)
        refine ⟨c', ?_, ?_, h3⟩
        · rw [h1]
          simp [unfired, wakes, fired, hfire]; omega
        · have hlen : new + (unfired ((c.events[i], c.fibers[i]) ::
              ((c.events.zip c.fibers).drop (i + 1)).take n)).length =
              new + 1 + (unfired (((c.events.zip c.fibers).drop (i + 1)).take n)).length := by
            simp [unfired, hfire]; omega
          rw [hlen, h2]
          subst hin
          rw [take_succ' _ _ hiz, List.getElem_zip]
          simp [unfired, hfire]
      · rw [if_pos hin, if_pos ⟨by omega, by omega⟩]
        obtain ⟨c', h1, h2, h3, h4, h5, h6⟩ := loop_spec add hadd n (i + 1) (new + 1)
          { c with fibers := c.fibers.set new c.fibers[i], events := c.events.set new c.events[i] } q
          (by omega) (by simpa using by omega) (by simpa using by omega)
        simp only [zip_set] at h1 h2
        rw [set_drop_of_lt _ _ _ _ (by omega)] at h1 h2
        refine ⟨c', ?_, ?_, by simpa using h3, by simpa using h4, h5, h6⟩
        · rw [h1]
          simp [unfired, wakes, fired, hfire]; omega
        · have hlen : new + (unfired ((c.events[i], c.fibers[i]) ::
              ((c.events.zip c.fibers).drop (i + 1)).take n)).length =
              new + 1 + (unfired (((c.events.zip c.fibers).drop (i + 1)).take n)).length := by
            simp [unfired, hfire]; omega
          rw [hlen, h2, set_take_succ _ _ _ (by omega)]
          simp [unfired, hfire]

theorem filter_map_zip (l : List (Ent × Nat)) (rev : List Bits) (h : rev.length = l.length) :
    let l' := List.zipWith (fun p r => ({ p.1 with revents := r }, p.2)) l rev
    (unfired l').map (fun p => (⟨p.1.fd, p.1.events, p.2⟩ : Waiter)) =
      (((l.map (fun p => (⟨p.1.fd, p.1.events, p.2⟩ : Waiter))).zip rev).filter
        (fun x => !Fires x.2)).map Prod.fst ∧
    wakes l' = (((l.map (fun p => (⟨p.1.fd, p.1.events, p.2⟩ : Waiter))).zip rev).filter
        (fun x => Fires x.2)).map (fun x => wakeOf x.1 x.2) := by
  induction l generalizing rev with
  | nil => simp [unfired, wakes, fired]
  | cons p l ih =>
    cases rev with
    | nil => simp at h
    | cons r rev =>
      obtain ⟨h1, h2⟩ := ih rev (by simpa using h)
      by_cases hr : Fires r = true
      · constructor
        · simpa [unfired, hr] using h1
        · simp only [wakes, fired] at h2 ⊢
          simp [hr, h2]
      · constructor
        · simp only [unfired] at h1 ⊢
          simp [hr, h1]
        · simpa [wakes, fired, hr] using h2

theorem zipWith_zip (l : List Ent) (m : List Nat) (rev : List Bits) :
    (List.zipWith (fun e r => { e with revents := r }) l rev).zip m =
      List.zipWith (fun p r => ({ p.1 with revents := r }, p.2)) (l.zip m) rev := by
  induction l generalizing m rev with
  | nil => simp
  | cons e l ih =>
    cases m with
    | nil => simp
    | cons x m =>
      cases rev with
      | nil => simp
      | cons r rev => simp [ih]

/-! ### C40 on the poll platform -/

/-- the context with the reported events stored -/
def afterPoll (c : Ctx) (rev : List Bits) : Ctx :=
  { c with events :=
      (List.zipWith (fun e r => { e with revents := r }) (c.events.take c.curr) rev) ++
        c.events.drop c.curr }

/-- C40 (part). One pass of the idle fiber over all that `poll` reported, for every well-formed context and every
report: no access outside the arrays; exactly the waiters whose report says readable, writable
or hung up are put on the run queue, in their order, once each, with their event and flags;
exactly the other waiters stay, in their order.

Missing: an error or an invalid descriptor reported alone wakes nobody (`poll_error_violated`). -/
theorem poll_pass_partial (add : List Wake → Status) (hadd : ∀ q, add q = SUCCESS) (c : Ctx) (hc : WF c)
    (q : List Wake) (rev : List Bits) (hrev : rev.length = c.curr) :
    ∃ c', idlePass add c q rev = some (c',
        q ++ (((waiters c).zip rev).filter (fun x => Fires x.2)).map (fun x => wakeOf x.1 x.2), SUCCESS) ∧
      WF c' ∧ waiters c' = (((waiters c).zip rev).filter (fun x => !Fires x.2)).map Prod.fst := by
  obtain ⟨h1, h2, h3⟩ := hc
  have hk : kernelPoll c rev = some (afterPoll c rev) := by
    unfold kernelPoll; rw [if_pos ⟨hrev, by omega⟩]; rfl
  have hlen : (afterPoll c rev).events.length = c.events.length := by
    simp [afterPoll]; omega
  obtain ⟨c', l1, l2, l3, l4, l5, l6⟩ := loop_spec add hadd c.curr 0 0 (afterPoll c rev) q (by omega)
    (by omega) (by simp only [afterPoll]; omega)
  have hzip : ((afterPoll c rev).events.zip (afterPoll c rev).fibers).take c.curr =
      List.zipWith (fun p r => ({ p.1 with revents := r }, p.2)) ((c.events.zip c.fibers).take c.curr) rev := by
    rw [take_zip, take_zip, ← zipWith_zip]
    simp only [afterPoll]
    rw [List.take_append_of_le_length (by simp; omega), List.take_of_length_le (by simp; omega)]
  have hcur : (afterPoll c rev).curr = c.curr := rfl
  simp only [List.drop_zero, Nat.zero_add, List.take_zero, List.nil_append] at l1 l2
  rw [hzip] at l1 l2
  obtain ⟨f1, f2⟩ := filter_map_zip ((c.events.zip c.fibers).take c.curr) rev (by simp; omega)
  dsimp only at f1 f2
  have hzl : (List.zipWith (fun (p : Ent × Nat) r => (({ p.1 with revents := r } : Ent), p.2))
      ((c.events.zip c.fibers).take c.curr) rev).length ≤ c.curr := by simp; omega
  generalize List.zipWith (fun (p : Ent × Nat) r => (({ p.1 with revents := r } : Ent), p.2))
      ((c.events.zip c.fibers).take c.curr) rev = z at l1 l2 f1 f2 hzl
  refine ⟨{ c' with curr := (unfired z).length }, ?_, ?_, ?_⟩
  · unfold idlePass
    rw [hk]
    simp only [Option.bind_eq_bind, Option.bind_some, hcur]
    rw [l1]
    simp only [Option.bind_some, f2]
    rfl
  · simp only [afterPoll] at l4 l5
    rw [hlen] at l3
    have hle : (unfired z).length ≤ c.curr := Nat.le_trans (List.length_filter_le _ _) hzl
    refine ⟨?_, ?_, ?_⟩ <;> dsimp only
    · rw [l5]; omega
    · rw [l5, l3]; omega
    · rw [l5, l4]; omega
  · unfold waiters
    dsimp only
    rw [l2]
    exact f1

/-- If the kernel reports only what was asked for, plus errors, hang-ups and invalid descriptors, a woken
reader gets the readable event and a woken writer the writable event. -/
theorem poll_wake_event (w : Waiter) (r : Bits)
    (hk : r &&& ~~~(w.ev ||| POLLERR ||| POLLHUP ||| POLLNVAL) = 0#16) :
    (w.ev = POLLIN → (wakeOf w r).event = 0) ∧ (w.ev = POLLOUT → (wakeOf w r).event = 1) := by
  constructor
  · intro h
    have hout : has r POLLOUT = false := by
      rw [h] at hk
      simp only [has, bne_eq_false_iff_eq]
      have : r &&& POLLOUT = (r &&& ~~~(POLLIN ||| POLLERR ||| POLLHUP ||| POLLNVAL)) &&& POLLOUT := by
        rw [BitVec.and_assoc]; rfl
      rw [this, hk]; rfl
    unfold wakeOf
    simp [hout, h]
    intro _
    decide
  · intro h
    have hin : has r POLLIN = false := by
      rw [h] at hk
      simp only [has, bne_eq_false_iff_eq]
      have : r &&& POLLIN = (r &&& ~~~(POLLOUT ||| POLLERR ||| POLLHUP ||| POLLNVAL)) &&& POLLIN := by
        rw [BitVec.and_assoc]; rfl
      rw [this, hk]; rfl
    unfold wakeOf
    simp [hin, h]
    intro _
    decide

/-- the context with one more entry stored -/
def stored (c0 : Ctx) (fd : Int) (ev : Bits) (fib : Nat) : Ctx :=
  { c0 with events := c0.events.set c0.curr ⟨fd, ev, 0⟩, fibers := c0.fibers.set c0.curr fib,
            curr := c0.curr + 1 }

/-- C40, registration: a wait handler that succeeds adds its fiber behind all others and loses nobody; one that
fails changes no waiter. No access outside the arrays. -/
theorem poll_wait_registers (ev : Bits) (a1 a2 : Status) (junk : Ent) (c : Ctx) (hc : WF c)
    (fd : Int) (fib : Nat) :
    ∃ c' st, wait ev a1 a2 junk c fd fib = some (c', st) ∧ WF c' ∧
      (st = SUCCESS → waiters c' = waiters c ++ [⟨fd, ev, fib⟩]) ∧
      (st ≠ SUCCESS → waiters c' = waiters c) ∧
      (st = SUCCESS ↔ c.curr < c.max ∨ (a1 = SUCCESS ∧ a2 = SUCCESS)) := by
  obtain ⟨h1, h2, h3⟩ := hc
  have store : ∀ c0 : Ctx, c0.curr < c0.max → c0.max ≤ c0.events.length → c0.max ≤ c0.fibers.length →
      (c0.curr < c0.events.length ∧ c0.curr < c0.fibers.length) ∧
      WF (stored c0 fd ev fib) ∧ waiters (stored c0 fd ev fib) = waiters c0 ++ [⟨fd, ev, fib⟩] := by
    intro c0 g1 g2 g3
    refine ⟨⟨by omega, by omega⟩, ⟨?_, ?_, ?_⟩, ?_⟩
    · simp [stored]; omega
    · simp [stored]; omega
    · simp [stored]; omega
    unfold waiters stored
    simp only [zip_set]
    rw [set_take_succ _ _ _ (by simp; omega)]
    simp
  have hres1 : ∀ n, c.events.length ≤ n → resize junk c.events n =
      c.events ++ List.replicate (n - c.events.length) junk := by
    intro n hn; unfold resize; rw [List.take_of_length_le hn]
  unfold wait
  by_cases hcm : c.curr = c.max
  · simp only [if_pos hcm]
    by_cases hz1 : a1 = SUCCESS
    · rw [if_neg (by simp [hz1])]
      -- the arrays keep their first `curr` cells
      have hpre : ∀ (α : Type) (j : α) (l : List α) (n k : Nat), k ≤ l.length → k ≤ n →
          (resize j l n).take k = l.take k := by
        intro α j l n k hk hn
        unfold resize
        rw [List.take_append_of_le_length (by simp; omega), List.take_take, Nat.min_eq_left hn]
      have hrl : ∀ (α : Type) (j : α) (l : List α) (n : Nat), (resize j l n).length = n := by
        intro α j l n; unfold resize; simp; omega
      have hw : ∀ (e' : List Ent) (f' : List Nat), e'.take c.curr = c.events.take c.curr →
          f'.take c.curr = c.fibers.take c.curr →
          (e'.zip f').take c.curr = (c.events.zip c.fibers).take c.curr := by
        intro e' f' a b
        rw [take_zip, take_zip, a, b]
      by_cases hz2 : a2 = SUCCESS
      · rw [if_neg (by simp [hz2])]
        obtain ⟨s1, s2, s3⟩ := store ⟨c.max + INCREMENT, c.curr, resize junk c.events (c.max + INCREMENT),
            resize 0 c.fibers (c.max + INCREMENT)⟩
          (by show c.curr < c.max + INCREMENT; rw [hcm]; exact Nat.lt_add_of_pos_right (by decide))
          (by simp [hrl]) (by simp [hrl])
        rw [if_pos s1]
        refine ⟨_, _, rfl, s2, fun _ => ?_, fun h => absurd rfl h, by simp [hz1, hz2]⟩
        refine s3.trans ?_
        unfold waiters
        simp only
        rw [hw _ _ (hpre _ _ _ _ _ (by omega) (by omega)) (hpre _ _ _ _ _ (by omega) (by omega))]
      · rw [if_pos (by simpa using hz2)]
        refine ⟨_, _, rfl, ⟨h1, by rw [hrl]; exact Nat.le_add_right _ _, h3⟩, fun h => absurd h hz2, fun _ => ?_, by simp [hz2, hcm]⟩
        unfold waiters
        simp only
        rw [hw _ _ (hpre _ _ _ _ _ (by omega) (by omega)) rfl]
    · rw [if_pos (by simpa using hz1)]
      exact ⟨_, _, rfl, ⟨h1, h2, h3⟩, fun h => absurd h hz1, fun _ => rfl, by simp [hz1, hcm]⟩
  · simp only [if_neg hcm]
    obtain ⟨s1, s2, s3⟩ := store c (by omega) h2 h3
    rw [if_pos s1]
    exact ⟨_, _, rfl, s2, fun _ => s3, fun h => absurd rfl h, by simp; omega⟩

theorem create_wf : WF create ∧ waiters create = [] := by
  refine ⟨⟨Nat.zero_le _, ?_, ?_⟩, rfl⟩ <;> simp [create]

/-- an operation on the context: a read or write wait, a pass of the idle fiber -/
inductive Op
  | wait (read : Bool) (a1 a2 : Status) (junk : Ent) (fd : Int) (fib : Nat)
  | pass (rev : List Bits)

/-- run operations -/
def run (add : List Wake → Status) : Ctx → List Wake → List Op → Option (Ctx × List Wake)
  | c, q, [] => some (c, q)
  | c, q, .wait read a1 a2 junk fd fib :: ops => do
    let r ← (if read then readWait else writeWait) a1 a2 junk c fd fib
    run add r.1 q ops
  | c, q, .pass rev :: ops =>
    -- the kernel reports one set of events for every entry
    if rev.length = c.curr then do
      let r ← idlePass add c q rev
      run add r.1 r.2.1 ops
    else some (c, q)

/-- the fibers put in by successful waits -/
def admitted (add : List Wake → Status) : Ctx → List Wake → List Op → List Nat
  | _, _, [] => []
  | c, q, .wait read a1 a2 junk fd fib :: ops =>
    match (if read then readWait else writeWait) a1 a2 junk c fd fib with
    | none => []
    | some r => (if r.2 = SUCCESS then [fib] else []) ++ admitted add r.1 q ops
  | c, q, .pass rev :: ops =>
    if rev.length = c.curr then
      match idlePass add c q rev with
      | none => []
      | some r => admitted add r.1 r.2.1 ops
    else []

theorem partition_perm {α : Type} (p : α → Bool) (l : List α) :
    (l.filter p ++ l.filter (fun x => !p x)).Perm l := by
  induction l with
  | nil => simp
  | cons x l ih =>
    by_cases h : p x = true
    · simpa [h] using ih
    · simp only [List.filter_cons, h]
      simp only [Bool.not_false, if_true]
      exact (List.perm_middle).trans (ih.cons x)

/-- C40 over whole executions: whatever the sequence of waits and passes, nothing is undefined, and every fiber
whose wait succeeded is, exactly once, either still waiting or woken: none is lost and none is
woken twice. -/
theorem poll_no_fiber_lost (add : List Wake → Status) (hadd : ∀ q, add q = SUCCESS) :
    ∀ (ops : List Op) (c : Ctx) (q : List Wake), WF c →
    ∃ c' new, run add c q ops = some (c', q ++ new) ∧ WF c' ∧
      (new.map Wake.fib ++ (waiters c').map Waiter.fib).Perm
        ((waiters c).map Waiter.fib ++ admitted add c q ops)
  | [], c, q, hc => ⟨c, [], by simp [run], hc, by simp [admitted]⟩
  | .wait read a1 a2 junk fd fib :: ops, c, q, hc => by
    have hstep : ∃ c' st, (if read then readWait else writeWait) a1 a2 junk c fd fib = some (c', st) ∧ WF c' ∧
        (waiters c').map Waiter.fib = (waiters c).map Waiter.fib ++ (if st = SUCCESS then [fib] else []) := by
      cases read
      · obtain ⟨c', st, w1, w2, w3, w4, -⟩ := poll_wait_registers POLLOUT a1 a2 junk c hc fd fib
        refine ⟨c', st, w1, w2, ?_⟩
        by_cases h : st = SUCCESS
        · simp [h, w3 h]
        · simp [h, w4 h]
      · obtain ⟨c', st, w1, w2, w3, w4, -⟩ := poll_wait_registers POLLIN a1 a2 junk c hc fd fib
        refine ⟨c', st, w1, w2, ?_⟩
        by_cases h : st = SUCCESS
        · simp [h, w3 h]
        · simp [h, w4 h]
    obtain ⟨c1, st, e1, e2, e3⟩ := hstep
    obtain ⟨c', new, r1, r2, r3⟩ := poll_no_fiber_lost add hadd ops c1 q e2
    refine ⟨c', new, ?_, r2, ?_⟩
    · unfold run; rw [e1]; exact r1
    · unfold admitted; rw [e1]; dsimp only
      rw [e3] at r3
      simpa [List.append_assoc] using r3
  | .pass rev :: ops, c, q, hc => by
    by_cases hl : rev.length = c.curr
    · obtain ⟨c1, e1, e2, e3⟩ := poll_pass_partial add hadd c hc q rev hl
      obtain ⟨c', new, r1, r2, r3⟩ := poll_no_fiber_lost add hadd ops c1
        (q ++ (((waiters c).zip rev).filter (fun x => Fires x.2)).map (fun x => wakeOf x.1 x.2)) e2
      refine ⟨c', (((waiters c).zip rev).filter (fun x => Fires x.2)).map (fun x => wakeOf x.1 x.2) ++ new,
        ?_, r2, ?_⟩
      · unfold run; rw [if_pos hl, e1]; rw [← List.append_assoc]; exact r1
      · unfold admitted; rw [if_pos hl, e1]; dsimp only
        have hwf : ((((waiters c).zip rev).filter (fun x => Fires x.2)).map (fun x => wakeOf x.1 x.2)).map Wake.fib
            = (((waiters c).zip rev).filter (fun x => Fires x.2)).map (fun x => x.1.fib) := by
          rw [List.map_map]; rfl
        have hlen : (waiters c).length ≤ rev.length := by
          simp [waiters]; omega
        have hall : ((waiters c).zip rev).map (fun x => x.1.fib) = (waiters c).map Waiter.fib := by
          rw [show (fun x : Waiter × Bits => x.1.fib) = Waiter.fib ∘ Prod.fst from rfl, ← List.map_map,
            List.map_fst_zip hlen]
        have hp : ((((waiters c).zip rev).filter (fun x => Fires x.2)).map (fun x => x.1.fib) ++
            (waiters c1).map Waiter.fib).Perm ((waiters c).map Waiter.fib) := by
          rw [e3, List.map_map, ← hall]
          rw [show Waiter.fib ∘ Prod.fst = (fun x : Waiter × Bits => x.1.fib) from rfl, ← List.map_append]
          exact (partition_perm _ _).map _
        rw [List.map_append, hwf, List.append_assoc]
        refine (List.Perm.append_left _ r3).trans ?_
        rw [← List.append_assoc]
        exact hp.append_right _
    · exact ⟨c, [], by simp [run, hl], hc, by simp [admitted, hl]⟩

-- a non-trivial execution: two fibers wait, the first is woken by a hang-up
example :
    let c : Ctx := ⟨2, 0, [⟨-1, 0, 0⟩, ⟨-1, 0, 0⟩], [0, 0]⟩
    WF c ∧ (run (fun _ => SUCCESS) c []
      [.wait true 0 0 ⟨-1, 0, 0⟩ 4 7, .wait false 0 0 ⟨-1, 0, 0⟩ 5 8, .pass [POLLHUP, 0]]).map
        (fun r => (waiters r.1, r.2)) = some ([⟨5, POLLOUT, 8⟩], [⟨7, 0, 2#64⟩]) := by
  refine ⟨by simp [WF], by decide⟩

/-- C40 is violated: an error reported alone wakes nobody, and the report of an invalid (closed) descriptor
neither; the fibers stay registered, and `poll` returns at once again. -/
theorem poll_error_violated :
    let c : Ctx := ⟨2, 2, [⟨4, POLLIN, 0⟩, ⟨5, POLLOUT, 0⟩], [7, 8]⟩
    WF c ∧ (idlePass (fun _ => SUCCESS) c [] [POLLERR, POLLNVAL]).map (fun r => (waiters r.1, r.2)) =
      some (waiters c, [], SUCCESS) := by
  refine ⟨by simp [WF], by decide⟩

/-- In general: a report without readable, writable or hang-up wakes nobody and keeps every waiter. -/
theorem poll_error_never_wakes (add : List Wake → Status) (hadd : ∀ q, add q = SUCCESS) (c : Ctx) (hc : WF c)
    (q : List Wake) (rev : List Bits) (hrev : rev.length = c.curr)
    (hr : ∀ r ∈ rev, has r POLLIN = false ∧ has r POLLOUT = false ∧ has r POLLHUP = false) :
    ∃ c', idlePass add c q rev = some (c', q, SUCCESS) ∧ waiters c' = waiters c := by
  obtain ⟨c', h1, -, h2⟩ := poll_pass_partial add hadd c hc q rev hrev
  have hno : ∀ x ∈ (waiters c).zip rev, Fires x.2 = false := by
    intro x hx
    obtain ⟨a, b, d⟩ := hr x.2 (List.of_mem_zip hx).2
    simp [Fires, a, b, d]
  have e1 : ((waiters c).zip rev).filter (fun x => Fires x.2) = [] := by
    rw [List.filter_eq_nil_iff]; intro x hx; simp [hno x hx]
  have e2 : ((waiters c).zip rev).filter (fun x => !Fires x.2) = (waiters c).zip rev := by
    rw [List.filter_eq_self]; intro x hx; simp [hno x hx]
  refine ⟨c', by rw [h1, e1]; simp, ?_⟩
  rw [h2, e2, List.map_fst_zip (by simp [waiters]; omega)]

end Rcpr.Poll

namespace Rcpr.Kqueue

open Rcpr

/-! ### C40 on the kqueue platform -/

theorem loop_spec (add : List Poll.Wake → Status) (hadd : ∀ q, add q = SUCCESS) :
    ∀ (os : List Out) (q : List Poll.Wake), loop add os q =
      (q ++ os.map (fun o => ⟨o.reg.fib, if o.reg.read then 0 else 1,
        (if o.err then 1#64 else 0#64) + (if o.eof then 2#64 else 0#64)⟩), SUCCESS)
  | [], q => by simp [loop]
  | o :: os, q => by
    unfold loop
    simp only
    rw [if_neg (by simp [hadd]), loop_spec add hadd os]
    rcases o with ⟨rg, er, eo⟩
    cases er <;> cases eo <;> simp

/-- C40 on kqueue: every reported event, whatever its flags, wakes its fiber with the event it waits for; all
other registrations stay. -/
theorem kqueue_pass (add : List Poll.Wake → Status) (hadd : ∀ q, add q = SUCCESS) (c : Ctx)
    (q : List Poll.Wake) (os : List Out) (hk : KernelMayReport c os) :
    (idlePass add c q os).2.2 = SUCCESS ∧
    (∃ new, (idlePass add c q os).2.1 = q ++ new ∧ new.map Poll.Wake.fib = os.map (fun o => o.reg.fib) ∧
      new.map Poll.Wake.event = os.map (fun o => if o.reg.read then 0 else 1) ∧
      new.map Poll.Wake.param = os.map (fun o =>
        (if o.err then 1#64 else 0#64) + (if o.eof then 2#64 else 0#64))) ∧
    (∀ r, (r ∈ c.inputs ∨ r ∈ c.kernel) →
      (∀ r' ∈ c.inputs ++ c.kernel, r'.fd = r.fd → r'.read = r.read → r' = r) →
      (r ∈ (idlePass add c q os).1.kernel ↔ ∀ o ∈ os, o.reg ≠ r)) ∧
    (idlePass add c q os).1.inputs = [] := by
  have hl := loop_spec add hadd os q
  refine ⟨by simp [idlePass, hl], ?_, ?_, rfl⟩
  · simp only [idlePass, hl]
    exact ⟨_, rfl, by simp [Function.comp_def], by simp [Function.comp_def], by simp [Function.comp_def]⟩
  · intro r hr hu
    have hin : ∀ (ins k : List Reg), (r ∈ ins ∨ r ∈ k) →
        (∀ r' ∈ ins ++ k, r'.fd = r.fd → r'.read = r.read → r' = r) → r ∈ ins.foldl evAdd k := by
      intro ins
      induction ins with
      | nil => intro k h _; simpa using h
      | cons a ins ih =>
        intro k h hu
        simp only [List.foldl_cons]
        apply ih
        · by_cases hra : r = a
          · right; simp [evAdd, hra]
          · rcases h with h | h
            · rcases List.mem_cons.1 h with h | h
              · exact absurd h hra
              · left; exact h
            · right
              simp only [evAdd, List.mem_append, List.mem_filter]
              left
              refine ⟨h, ?_⟩
              have : ¬ (r.fd = a.fd ∧ r.read = a.read) := by
                rintro ⟨e1, e2⟩
                exact hra (hu a (by simp) e1.symm e2.symm).symm
              simp only [Bool.not_eq_eq_eq_not, Bool.not_true, Bool.and_eq_false_imp, beq_iff_eq,
                beq_eq_false_iff_ne, ne_eq]
              exact fun e1 e2 => this ⟨e1, e2⟩
        · intro r' hr' e1 e2
          rcases List.mem_append.1 hr' with h' | h'
          · exact hu r' (by simp [h']) e1 e2
          · simp only [evAdd, List.mem_append, List.mem_filter, List.mem_singleton] at h'
            rcases h' with h' | h'
            · exact hu r' (by simp [h'.1]) e1 e2
            · subst h'; exact hu r' (by simp) e1 e2
    simp only [idlePass, List.mem_filter]
    constructor
    · rintro ⟨_, h⟩ o ho he
      simp [List.contains_eq_mem] at h
      exact h o ho he
    · intro h
      refine ⟨hin _ _ hr hu, ?_⟩
      simp [List.contains_eq_mem]
      exact h

/-- The array of changes never overflows, and a wait handler that succeeds loses no registration. -/
theorem kqueue_wait (nev : Int) (c : Ctx) (hc : c.inputs.length < MAX_INPUTS) (r : Reg) :
    ∃ c' st, wait nev c r = some (c', st) ∧ c'.inputs.length < MAX_INPUTS ∧
      (st = SUCCESS → c'.inputs.foldl evAdd c'.kernel = (c.inputs ++ [r]).foldl evAdd c.kernel) := by
  obtain ⟨N, hN⟩ : ∃ N, MAX_INPUTS = N + 1 := ⟨1023, rfl⟩
  unfold wait
  rw [if_pos hc]
  rw [hN] at hc ⊢
  dsimp only
  by_cases h : (c.inputs ++ [r]).length = N + 1
  · rw [if_pos h]
    by_cases hz : nev = 0
    · rw [if_neg (by simp [hz])]
      exact ⟨_, _, rfl, by simp, fun _ => rfl⟩
    · rw [if_pos hz]
      exact ⟨_, _, rfl, by simp, fun h => absurd h (by decide)⟩
  · rw [if_neg h]
    refine ⟨_, _, rfl, ?_, fun _ => rfl⟩
    simp at h ⊢; omega

/-- Violation: when the flush of a full array of changes fails, all 1024 fibers of the array are forgotten; they
are neither registered with the kernel nor woken. -/
theorem kqueue_flush_failure_violated (c : Ctx) (hc : c.inputs.length = MAX_INPUTS - 1) (r : Reg) :
    wait (-1) c r = some (⟨[], c.kernel⟩, ERROR_PSOCK_KEVENT_FAILED) := by
  obtain ⟨N, hN⟩ : ∃ N, MAX_INPUTS = N + 1 := ⟨1023, rfl⟩
  unfold wait
  rw [hN] at hc ⊢
  simp at hc
  rw [if_pos (by omega)]
  dsimp only
  rw [if_pos (by simp [hc]), if_pos (by decide)]

example : (⟨List.replicate (MAX_INPUTS - 1) ⟨3, true, 9⟩, []⟩ : Ctx).inputs.length = MAX_INPUTS - 1 := by simp

example : KernelMayReport ⟨[⟨3, true, 9⟩], [⟨4, false, 8⟩]⟩ [⟨⟨4, false, 8⟩, true, false⟩] := by
  refine ⟨by simp, by decide⟩

end Rcpr.Kqueue
