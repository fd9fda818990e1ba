import Verif.FibMemRun
import Verif.FiberRun

/-! What the histories over memory release: the messages that nobody received. -/
namespace Rcpr.Fiber

open Rcpr

theorem runq_from {w w1 : Sys} {c : Call} {o : Oracle} (i : Inv w) (lg : Legal w c o) (h : HStep w c w1) {g : Nat}
    (hg : g ∈ w1.runq) : g = w.cur ∨ g ∈ w.runq ∨ c = .add g ∨ w.call g ≠ none := by
  obtain ⟨j, t⟩ := i.before (c := c) lg.idle
  have ins : ∀ {d : Call}, inside w c g = some d → g = w.cur ∨ w.call g ≠ none := fun {d} hd => by
    unfold inside at hd
    split at hd
    · next e => exact .inl e
    · exact .inr (by simp [hd])
  have wrap : (g = w.cur ∨ w.call g ≠ none) → g = w.cur ∨ g ∈ w.runq ∨ c = .add g ∨ w.call g ≠ none := fun h =>
    h.elim .inl fun h => .inr (.inr (.inr h))
  have frc : ∀ {l : List Nat}, g ∈ w.cur :: l → g = w.cur ∨ g ∈ l := fun h => List.mem_cons.1 h
  have bkc : ∀ {l : List Nat} {y : Nat}, g ∈ l ++ [y] → g ∈ l ∨ g = y := fun h => by simpa using h
  cases h with
  | add f tr hm =>
    rcases frc hg with h | h
    · exact Or.inl h
    · rcases bkc h with h | h
      · exact Or.inr (Or.inl h)
      · exact .inr (.inr (.inl (by rw [h])))
  | addM f tr hm =>
    rcases List.mem_cons.1 hg with h | hg
    · exact wrap (ins (by rw [h]; exact (j.mgmt hm).2))
    · rcases frc hg with h | h
      · exact Or.inl h
      · rcases bkc h with h | h
        · exact Or.inr (Or.inl h)
        · exact .inr (.inr (.inl (by rw [h])))
  | stopM s hm =>
    rcases List.mem_cons.1 hg with h | hg
    · exact wrap (ins (by rw [h]; exact (j.mgmt hm).2))
    · exact Or.inr (Or.inl hg)
  | sendWake a m m' ms b hb hbl hms =>
    rcases List.mem_cons.1 hg with h | hg
    · exact wrap (ins (by rw [h]; exact (j.box a b hb hbl).2.1))
    · rcases frc hg with h | h
      · exact Or.inl h
      · exact Or.inr (Or.inl h)
  | notifyOne x f l hl =>
    rcases bkc (l := w.runq ++ [f]) hg with h | h
    · rcases bkc h with h | h
      · exact Or.inr (Or.inl h)
      · exact wrap (ins (by rw [h]; exact ((j.cond x _ hl).2 f (by simp)).2.2))
    · exact Or.inl h
  | notifyAll x l hl =>
    have hq : (bk (bks (setCond w x (some [])) l) w.cur ⟨.cond, COND_NOTIFY_SUCCESS, 0⟩).runq = w.runq ++ l ++ [w.cur] := by
      simp only [bk, (bks_fields l _).2.2.2.2.2.2.1]; rfl
    rw [hq] at hg
    rcases bkc hg with h | h
    · rcases List.mem_append.1 h with h | h
      · exact Or.inr (Or.inl h)
      · exact wrap (ins ((j.cond x _ hl).2 g h).2.2)
    · exact Or.inl h
  | _ =>
    first
    | exact Or.inr (Or.inl hg)
    | (have hg' := frc (l := w.runq) hg
       exact hg'.elim Or.inl fun h => Or.inr (Or.inl h))
    | (have hg' := bkc (l := w.runq) (y := w.cur) hg
       exact hg'.elim (fun h => Or.inr (Or.inl h)) Or.inl)

theorem Hist.idle_eq {main idle : Nat} {w : Sys} {tr : List Item} (h : Hist main idle w tr) : w.idle = idle := by
  induction h with
  | init => rfl
  | @step w tr c o hh lg ih =>
    rcases step_ok hh.inv lg with ⟨f, hc, h⟩ | h
    · rw [h]; exact ih
    · obtain ⟨w1, f, q, e, hs, m, af, _, _⟩ := h.out
      rw [af.idle, (hstep_frame hs).2.1]; exact ih

/-- every fiber the scheduler knows is the main fiber, the idle fiber, or was added -/
theorem Hist.from {main idle : Nat} {w : Sys} {tr : List Item} (h : Hist main idle w tr) {g : Nat}
    (hg : g = w.cur ∨ g ∈ w.runq ∨ w.call g ≠ none) : g = main ∨ g = idle ∨ ∃ i ∈ tr, i.call = .add g := by
  induction h generalizing g with
  | init =>
    rcases hg with h | h | h
    · exact .inl h
    · simp [Fiber.init] at h
    · exact absurd rfl h
  | @step w tr c o hh lg ih =>
    have wider : (g = main ∨ g = idle ∨ ∃ i ∈ tr, i.call = .add g) →
        g = main ∨ g = idle ∨ ∃ i ∈ tr ++ [(Fiber.step w c o).2], i.call = .add g := fun h => by
      rcases h with h | h | ⟨i, h1, h2⟩
      · exact .inl h
      · exact .inr (.inl h)
      · exact .inr (.inr ⟨i, by simp [h1], h2⟩)
    rcases step_ok hh.inv lg with ⟨f, hc, h⟩ | h
    · rw [h] at hg
      exact wider (ih hg)
    · obtain ⟨w1, f, q, e, hs, m, af, hit, hf⟩ := h.out
      have hq : ∀ k, k ∈ w1.runq → k = main ∨ k = idle ∨ ∃ i ∈ tr ++ [(Fiber.step w c o).2], i.call = .add k := fun k hk => by
        rcases runq_from hh.inv lg hs hk with h | h | h | h
        · rcases ih (.inl h) with h | h | ⟨i, h1, h2⟩
          · exact .inl h
          · exact .inr (.inl h)
          · exact .inr (.inr ⟨i, by simp [h1], h2⟩)
        · rcases ih (.inr (.inl h)) with h | h | ⟨i, h1, h2⟩
          · exact .inl h
          · exact .inr (.inl h)
          · exact .inr (.inr ⟨i, by simp [h1], h2⟩)
        · exact .inr (.inr ⟨(Fiber.step w c o).2, by simp, by rw [hit]; exact h⟩)
        · rcases ih (.inr (.inr h)) with h | h | ⟨i, h1, h2⟩
          · exact .inl h
          · exact .inr (.inl h)
          · exact .inr (.inr ⟨i, by simp [h1], h2⟩)
      have hfq : f = main ∨ f = idle ∨ ∃ i ∈ tr ++ [(Fiber.step w c o).2], i.call = .add f := by
        rcases hf with ⟨h1, _⟩ | ⟨_, _, h3, _, _⟩
        · exact hq f (by simp [h1])
        · right; left; rw [h3, (hstep_frame hs).2.1]; exact hh.idle_eq
      have hqq : ∀ k ∈ q, k ∈ w1.runq := fun k hk => by
        rcases hf with ⟨h1, _⟩ | ⟨_, h2, _, _, _⟩
        · rw [h1]; simp [hk]
        · rw [h2] at hk; cases hk
      rcases hg with h | h | h
      · rw [af.cur] at h; rw [h]; exact hfq
      · rw [af.runq] at h; exact hq g (hqq g h)
      · rw [af.call] at h
        by_cases hgf : g = f
        · rw [hgf]; exact hfq
        · dsimp only at h
          rw [if_neg hgf] at h
          unfold inside at h
          split at h
          · next e => exact wider (ih (.inl e))
          · exact wider (ih (.inr (.inr h)))

theorem step_item (w : Sys) (c : Call) (o : Oracle) : (step w c o).2.who = w.cur ∧ (step w c o).2.call = c := by
  unfold step
  dsimp only
  split
  · exact ⟨rfl, rfl⟩
  · cases (handler w c o).1.runq with
    | cons f q => exact ⟨rfl, rfl⟩
    | nil =>
      dsimp only
      split <;> exact ⟨rfl, rfl⟩

/-- closing an open mailbox is not refused when its release succeeds -/
theorem close_ok {w : Sys} {a : Nat} {o : Oracle} {b : Box} (hb : w.boxes a = some b) (hq : o.q 0 = SUCCESS) (ha : o.a 0 = SUCCESS) :
    (step w (.boxClose a) o).2.refused = false := by
  have h1 : handler w (.boxClose a) o = ({ setEv (setBox w a none) w.cur ⟨.msg, MSG_CLOSE, SUCCESS.toNat⟩ with
      runq := w.cur :: w.runq }, SUCCESS) := by
    simp [handler, boxCloseH, hb, ha, front, hq, setBox]
  unfold step
  rw [h1]
  simp [switch, setCall, setEv, Item.refused, result, statusOf, SUCCESS]

end Rcpr.Fiber

namespace Rcpr.FibMem

open Rcpr Fiber
open Rcpr.SList (Addr okEnv Unused)

theorem dropped_snoc (i : Item) : ∀ (tr pre : List Item), dropped pre (tr ++ [i]) = dropped pre tr ++ drops (pre ++ tr) i
  | [], pre => by simp [dropped, drops]
  | j :: tr, pre => by
    have := dropped_snoc i tr (pre ++ [j])
    simp only [List.cons_append, dropped, this, List.append_assoc, List.nil_append]

theorem Fiber.Hist.held {main idle : Nat} {φ : Sys} {R : List Nat} {B : Nat → Option Box} {K : Nat → Option (List Nat)} {tr : List Item}
    (h : Hist main idle (over φ R B K) tr) {a : Nat} {b : Box} (hb : B a = some b) : b.msgs = unread a tr := by
  have := (h.box a).eq b hb
  unfold unread
  rw [this]; simp

theorem step_hist {main idle : Nat} {w : World} {R : List Nat} {B : Nat → Option Box} {K : Nat → Option (List Nat)} {x : Ans} {c : Call}
    {pre : List Item} (h : Rel w R B K) (hh : Hist main idle (over w.fib R B K) pre) (hx : x.Fair) (hc : Args c)
    (hi : idle ≠ 0) (hn : ∀ r, stepQ w c x = some r → ∀ st ∈ r.1.log, st = SUCCESS) (hr : c.isRequest = false) (hid : w.fib.cur = idle → c = .run)
    (hf : ∀ f, c = .add f → f ≠ main ∧ f ≠ idle ∧ ∀ i ∈ pre, i.call ≠ .add f) :
    ∃ w' R' B' K' it, stepQ w c x = some (w', it) ∧ Rel w' R' B' K' ∧ Hist main idle (over w'.fib R' B' K') (pre ++ [it]) ∧
      w'.mem.sl.released = w.mem.sl.released ++ drops pre it ∧ w'.runq = w.runq ∧ it.who = w.fib.cur ∧ it.call = c ∧
      (∀ a, BoxStep (over w.fib R B K) (over w'.fib R' B' K') it a) ∧ drops pre it = freed B c ∧
      w.fib.mindex ≤ w'.fib.mindex := by
  obtain ⟨w', R', B', K', it, e1, e3, e4, e5, e6, _⟩ := step_sim h hx c hc
  have hq : ∀ k, (oracle w c x w'.log).q k = SUCCESS := oracle_ok (hn _ e1) c
  generalize ho : oracle w c x w'.log = o at e3 hq
  have hoa : o.a = told w c x := by rw [← ho]; rfl
  have lg : Legal (over w.fib R B K) c o := by
    refine ⟨hq, hr, fun f e => ?_, fun hcur => hid (hcur.trans hh.idle_eq), .inl (by rw [hh.idle_eq]; exact hi)⟩
    obtain ⟨f1, f2, f3⟩ := hf f e
    subst e
    have hno : ¬ (f = (over w.fib R B K).cur ∨ f ∈ (over w.fib R B K).runq ∨ (over w.fib R B K).call f ≠ none) := fun hg => by
      rcases hh.from hg with h | h | ⟨i, h1, h2⟩
      · exact f1 h
      · exact f2 h
      · exact f3 i h1 h2
    refine ⟨hc, fun hm => hno ?_, ?_⟩
    · rcases List.mem_cons.1 hm with h | h
      · exact .inl h
      · exact .inr (.inl h)
    · cases hcl : (over w.fib R B K).call f with
      | none => rfl
      | some d => exact absurd (.inr (.inr (by simp [hcl]))) hno
  have hst := Hist.step c o hh lg
  have hitem := step_item (over w.fib R B K) c o
  rw [e3] at hst hitem
  have hbox : ∀ a, BoxStep (over w.fib R B K) (over w'.fib R' B' K') it a := fun a => by
    rcases step_ok hh.inv lg with ⟨f, hc', h⟩ | h
    · rw [e3] at h
      have h1 : over w'.fib R' B' K' = over w.fib R B K := congrArg Prod.fst h
      have h2 : it = ⟨(over w.fib R B K).cur, c, .fail (o.a 0)⟩ := congrArg Prod.snd h
      rw [h1, h2, hc']
      exact BoxStep.of_same rfl rfl rfl (fun e => by cases e) fun _ e => by rcases e with e | e | ⟨m, e⟩ <;> cases e
    · have := box_step hh.inv lg h a
      rw [e3] at this
      exact this
  have hidx : w.fib.mindex ≤ w'.fib.mindex := by
    rcases step_ok hh.inv lg with ⟨f, hc', h⟩ | h
    · rw [e3] at h
      have h1 : (over w'.fib R' B' K').mindex = (over w.fib R B K).mindex := congrArg (fun p => p.1.mindex) h
      exact Nat.le_of_eq h1.symm
    · have := create_step hh.inv lg h
      rw [e3] at this
      rcases this with h | h
      · exact Nat.le_of_eq h.1.symm
      · have h1 : w'.fib.mindex = w.fib.mindex + 1 := h.1
        omega
  suffices hd : drops pre it = freed B c from ⟨w', R', B', K', it, e1, e4, hst, by rw [e5, hd], e6, hitem.1, hitem.2, hbox, hd, hidx⟩
  symm
  unfold drops
  rw [show it.call = c from hitem.2]
  cases c with
  | boxClose a =>
    show held B a = _
    unfold held
    cases hb : B a with
    | none =>
      have hbs : it.refused = true := (hbox a).refused hb (.inr (.inl hitem.2))
      simp [hbs]
    | some b =>
      have := close_ok (w := over w.fib R B K) (a := a) (o := o) hb (hq 0) (by rw [hoa]; rfl)
      rw [e3] at this
      have this' : it.refused = false := this
      simp only [this', if_true]
      exact Fiber.Hist.held hh hb
  | _ => rfl

/-! ### Every message is accounted for -/

/-- the sum of `f` below `n` -/
def total (f : Nat → Nat) : Nat → Nat
  | 0 => 0
  | n + 1 => total f n + f n

theorem total_add (f g : Nat → Nat) : ∀ n, total (fun a => f a + g a) n = total f n + total g n
  | 0 => rfl
  | n + 1 => by simp only [total, total_add f g n]; omega

theorem total_one (k v : Nat) : ∀ n, total (fun a => if a = k then v else 0) n = if k < n then v else 0
  | 0 => rfl
  | n + 1 => by
    simp only [total, total_one k v n]
    by_cases h1 : k < n
    · have : n ≠ k := by omega
      have h2 : k < n + 1 := by omega
      simp [h1, h2, this]
    · by_cases h2 : n = k
      · subst h2; simp
      · have h3 : ¬ k < n + 1 := by omega
        simp [h1, h2, h3]

theorem total_zero : ∀ n, total (fun _ => 0) n = 0
  | 0 => rfl
  | n + 1 => by simp only [total, total_zero n]

theorem total_list : ∀ (as : List Nat) (h : Nat → Nat) (n : Nat), as.Nodup → (∀ a ∈ as, a < n) → (∀ a, a ∉ as → h a = 0) →
    total h n = (as.map h).sum
  | [], h, n, _, _, hz => by
    rw [show h = fun _ => 0 from funext fun a => hz a (by simp), total_zero]; simp
  | k :: as, h, n, hn, hl, hz => by
    have hk := (List.nodup_cons.1 hn).1
    have e : h = fun a => (if a = k then h k else 0) + if a = k then 0 else h a := by
      funext a; by_cases e : a = k <;> simp [e]
    have ih := total_list as (fun a => if a = k then 0 else h a) n (List.nodup_cons.1 hn).2 (fun a ha => hl a (by simp [ha]))
      fun a ha => by
        by_cases e : a = k
        · simp [e]
        · simp only [e, if_false]; exact hz a (by simp [e, ha])
    have ih' : (as.map fun a => if a = k then 0 else h a) = as.map h := List.map_congr_left fun a ha => by
      have : a ≠ k := fun e => hk (e ▸ ha)
      simp [this]
    rw [ih'] at ih
    rw [e, total_add, total_one, if_pos (hl k (by simp)), ih, ← e]
    simp

/-- how often `m` is in the mailbox `a` -/
def inBox (B : Nat → Option Box) (m a : Nat) : Nat := (held B a).count m

/-- what was sent is received, dropped or still there -/
def Even (w : Sys) (tr : List Item) : Prop :=
  ∀ m n, w.mindex < n → (tr.filterMap sends).count m =
    (tr.filterMap takes).count m + (dropped [] tr).count m + total (inBox w.boxes m) n

theorem total_sent (it : Item) (m n : Nat) (h : ∀ a, sent1 a it ≠ [] → a < n) :
    total (fun a => (sent1 a it).count m) n = (sends it).toList.count m := by
  unfold sends
  cases hc : it.call with
  | send k m' =>
    by_cases hr : it.refused = false
    · have e : ∀ a, sent1 a it = if a = k then [m'] else [] := fun a => by
        unfold sent1; rw [hc]
        by_cases hk : k = a
        · simp [hk, hr]
        · have : ¬ a = k := fun h => hk h.symm
          simp [hk, this]
      have hk := h k (by simp [e])
      rw [show (fun a => (sent1 a it).count m) = fun a => if a = k then [m'].count m else 0 from funext fun a => by
        rw [e]; split <;> simp]
      rw [total_one, if_pos hk]
      simp [hr]
    · rw [show (fun a => (sent1 a it).count m) = fun _ => 0 from funext fun a => by unfold sent1; rw [hc]; simp [hr], total_zero]
      simp [hr]
  | _ =>
    rw [show (fun a => (sent1 a it).count m) = fun _ => 0 from funext fun a => by unfold sent1; rw [hc]; rfl, total_zero]
    rfl

theorem total_recvd (it : Item) (m n : Nat) (h : ∀ a, it.recvd a ≠ none → a < n) :
    total (fun a => (it.recvd a).toList.count m) n = (takes it).toList.count m := by
  by_cases hx : ∃ f k e, it.next = .ret f (.receive k) e
  · obtain ⟨f, k, e, hnx⟩ := hx
    have hr : ∀ a, it.recvd a = if k = a ∧ (result (.receive k) e).1 = SUCCESS then (result (.receive k) e).2 else none := fun a => by
      unfold Item.recvd; rw [hnx]
    have ht : takes it = if (result (.receive k) e).1 = SUCCESS then (result (.receive k) e).2 else none := by
      unfold takes; rw [hnx]
    rw [show (fun a => (it.recvd a).toList.count m) = fun a => if a = k then (takes it).toList.count m else 0 from funext fun a => by
      rw [hr, ht]
      by_cases hk : k = a
      · simp [hk.symm]
      · have : ¬ a = k := fun h => hk h.symm
        simp [hk, this]]
    rw [total_one]
    cases hv : takes it with
    | none => simp
    | some v => rw [if_pos (h k (by
        have : it.recvd k = takes it := by rw [hr, ht]; simp
        rw [this, hv]; simp))]
  · have hr : ∀ a, it.recvd a = none := fun a => by
      unfold Item.recvd
      split
      · next f k e hnx => exact absurd ⟨f, k, e, hnx⟩ hx
      · rfl
    have ht : takes it = none := by
      unfold takes
      split
      · next f k e hnx => exact absurd ⟨f, k, e, hnx⟩ hx
      · rfl
    rw [show (fun a => (it.recvd a).toList.count m) = fun _ => 0 from funext fun a => by rw [hr]; rfl, total_zero, ht]
    rfl

theorem even_step {w w' : Sys} {pre : List Item} {it : Item} {c : Call} (h : Even w pre) (hb : ∀ a, BoxStep w w' it a) (hc : it.call = c)
    (hd : drops pre it = freed w.boxes c) (hm : w.mindex ≤ w'.mindex) (hi : ∀ a, w.boxes a ≠ none → a ≤ w.mindex)
    (hi' : ∀ a, w'.boxes a ≠ none → a ≤ w'.mindex) : Even w' (pre ++ [it]) := by
  intro m n hn
  have h0 := h m n (by omega)
  have hs := total_sent it m n fun a ha => by
    have : w'.boxes a ≠ none := fun e => ha ((hb a).none e).1
    have := hi' a this; omega
  have hr := total_recvd it m n fun a ha => by
    have : w'.boxes a ≠ none := fun e => ha ((hb a).none e).2
    have := hi' a this; omega
  have hdr : total (fun a => if c = .boxClose a then (drops pre it).count m else 0) n = (drops pre it).count m := by
    by_cases hcl : ∃ k, c = .boxClose k
    · obtain ⟨k, rfl⟩ := hcl
      rw [show (fun a => if Call.boxClose k = .boxClose a then (drops pre it).count m else 0) =
        fun a => if a = k then (drops pre it).count m else 0 from funext fun a => by
          by_cases e : a = k
          · simp [e]
          · have : ¬ k = a := fun h => e h.symm
            simp [e, this]]
      rw [total_one]
      by_cases hk : k < n
      · rw [if_pos hk]
      · rw [if_neg hk, hd]
        have : w.boxes k = none := by
          cases e : w.boxes k with
          | none => rfl
          | some b => have := hi k (by simp [e]); omega
        simp [freed, held, this]
    · have hz : drops pre it = [] := by
        rw [hd]; cases c <;> first | rfl | exact absurd ⟨_, rfl⟩ hcl
      rw [show (fun a => if c = .boxClose a then (drops pre it).count m else 0) = fun _ => 0 from funext fun a =>
        if_neg fun e => hcl ⟨a, e⟩, total_zero, hz]
      rfl
  have key : ∀ a, (sent1 a it).count m + inBox w.boxes m a =
      (it.recvd a).toList.count m + (inBox w'.boxes m a + if c = .boxClose a then (drops pre it).count m else 0) := fun a => by
    have b := hb a
    cases e' : w'.boxes a with
    | some b2 =>
      have hz : (if c = .boxClose a then (drops pre it).count m else 0) = 0 := by
        by_cases ec : c = .boxClose a
        · have hrf : it.refused ≠ false := fun hrf => by
            have := b.closed (hc.trans ec) hrf
            rw [e'] at this; cases this
          have : drops pre it = [] := by unfold drops; rw [hc, ec]; exact if_neg hrf
          rw [this, if_pos ec]; rfl
        · rw [if_neg ec]
      rw [hz]
      rcases b.some b2 e' with ⟨b1, e1, e2⟩ | ⟨e1, e2, e3, e4⟩
      · have := congrArg (List.count m) e2
        simp only [List.count_append] at this
        simp only [inBox, held, e', e1]
        omega
      · have hn0 : w.boxes a = none := by
          cases e : w.boxes a with
          | none => rfl
          | some b => have := hi a (by simp [e]); omega
        simp [inBox, held, e', hn0, e2, e3, e4]
    | none =>
      obtain ⟨s1, s2⟩ := b.none e'
      cases e : w.boxes a with
      | none =>
        have hz : (if c = .boxClose a then (drops pre it).count m else 0) = 0 := by
          by_cases ec : c = .boxClose a
          · rw [if_pos ec, hd, ec]; simp [freed, held, e]
          · rw [if_neg ec]
        simp [inBox, held, e, e', s1, s2, hz]
      | some b1 =>
        have ec : c = .boxClose a := by
          apply Classical.byContradiction
          intro ec
          exact b.keep (by simp [e]) (by rw [hc]; exact ec) e'
        rw [if_pos ec, hd, ec]
        simp [inBox, held, freed, e, e', s1, s2]
  have ks := congrArg (total · n) (funext key)
  rw [total_add, total_add, total_add, hs, hr, hdr] at ks
  rw [List.filterMap_append, List.filterMap_append, dropped_snoc, List.count_append, List.count_append, List.count_append,
    List.nil_append]
  have e1 : ([it].filterMap sends) = (sends it).toList := by cases hx : sends it <;> simp [List.filterMap_cons, hx]
  have e2 : ([it].filterMap takes) = (takes it).toList := by cases hx : takes it <;> simp [List.filterMap_cons, hx]
  rw [e1, e2]
  omega

theorem exec_hist {main idle : Nat} (hi : idle ≠ 0) : ∀ (cs : List (Call × Ans)) (w : World) (R : List Nat) (B : Nat → Option Box)
    (K : Nat → Option (List Nat)) (pre : List Item), Rel w R B K → Hist main idle (over w.fib R B K) pre →
    w.mem.sl.released = dropped [] pre → Even (over w.fib R B K) pre → (∀ p ∈ cs, p.2.Fair ∧ Args p.1) → Granted w cs →
    (∀ p ∈ cs, p.1.isRequest = false) → (added cs).Nodup → (∀ f ∈ added cs, f ≠ main ∧ f ≠ idle ∧ ∀ i ∈ pre, i.call ≠ .add f) →
    ∀ w' tr, execQ w cs = some (w', tr) → (∀ i ∈ tr, i.who = idle → i.call = .run) →
    ∃ R' B' K', Rel w' R' B' K' ∧ Hist main idle (over w'.fib R' B' K') (pre ++ tr) ∧ w'.mem.sl.released = dropped [] (pre ++ tr) ∧
      Even (over w'.fib R' B' K') (pre ++ tr)
  | [], w, R, B, K, pre, h, hh, hd, hev, _, _, _, _, _, w', tr, he, _ => by
    simp only [execQ, Option.some.injEq, Prod.mk.injEq] at he
    obtain ⟨rfl, rfl⟩ := he
    exact ⟨R, B, K, h, by simpa using hh, by simpa using hd, by simpa using hev⟩
  | (c, x) :: cs, w, R, B, K, pre, h, hh, hd, hev, hf, hn, hr, hnd, hnew, w', tr, he, hid => by
    obtain ⟨h1, h2⟩ := hf (c, x) (by simp)
    have hwho : w.fib.cur = idle → c = .run := fun hcur => by
      obtain ⟨w1, R1, B1, K1, it, e1, e3, _⟩ := step_sim h h1 c h2
      have hitem := step_item (over w.fib R B K) c (oracle w c x w1.log)
      rw [e3] at hitem
      simp only [execQ, e1, Option.bind_some] at he
      cases hx : execQ w1 cs with
      | none => rw [hx] at he; cases he
      | some r =>
        rw [hx, Option.map_some] at he
        simp only [Option.some.injEq, Prod.mk.injEq] at he
        have := hid it (by rw [← he.2]; simp) (hitem.1.trans hcur)
        rw [← this]; exact hitem.2.symm
    have hadd : ∀ f, c = .add f → f ∈ added ((c, x) :: cs) := fun f e => by subst e; simp [added]
    obtain ⟨w1, R1, B1, K1, it, e1, e2, e3, e4, e5, e6, e7, e8, e9, e10⟩ := step_hist h hh h1 h2 hi (fun r hr => by unfold Granted at hn; rw [hr] at hn; exact hn.1) (hr (c, x) (by simp)) hwho
      fun f e => hnew f (hadd f e)
    simp only [execQ, e1, Option.bind_some] at he
    cases hx : execQ w1 cs with
    | none => rw [hx] at he; cases he
    | some r =>
      rw [hx, Option.map_some] at he
      simp only [Option.some.injEq, Prod.mk.injEq] at he
      obtain ⟨rfl, rfl⟩ := he
      have hsub : ∀ f ∈ added cs, f ∈ added ((c, x) :: cs) := fun f hm => by
        unfold added at hm ⊢
        rw [List.filterMap_cons]
        split
        · exact hm
        · exact List.mem_cons_of_mem _ hm
      have hnd' : (added cs).Nodup ∧ ∀ f, c = .add f → f ∉ added cs := by
        refine ⟨?_, fun f e => ?_⟩
        · unfold added at hnd ⊢
          rw [List.filterMap_cons] at hnd
          split at hnd
          · exact hnd
          · exact (List.nodup_cons.1 hnd).2
        · subst e
          have : added ((.add f, x) :: cs) = f :: added cs := by simp [added]
          rw [this] at hnd
          exact (List.nodup_cons.1 hnd).1
      have := exec_hist hi cs w1 R1 B1 K1 (pre ++ [it]) e2 e3 (by rw [e4, hd, dropped_snoc, List.nil_append])
        (even_step hev e8 e7 e9 e10 (fun a ha => (hh.inv.j.bidx a ha).2) fun a ha => (e3.inv.j.bidx a ha).2)
        (fun p hp => hf p (by simp [hp])) (by unfold Granted at hn; rw [e1] at hn; exact hn.2) (fun p hp => hr p (by simp [hp])) hnd'.1
        (fun f hm => by
          obtain ⟨f1, f2, f3⟩ := hnew f (hsub f hm)
          refine ⟨f1, f2, fun i hi => ?_⟩
          rcases List.mem_append.1 hi with hi | hi
          · exact f3 i hi
          · simp only [List.mem_singleton] at hi
            subst hi
            rw [e7]
            exact fun e => hnd'.2 f e hm)
        r.1 r.2 hx fun i hi => hid i (by simp [hi])
      simpa using this

end Rcpr.FibMem
