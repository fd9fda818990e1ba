import Verif.Props.Monitor

/-!
A client of C74 and C75: a bounded buffer with any capacity, shared by any number of producers and consumers
that use one mutex and two conditions and signal one thread at a time. It shows that the hypotheses of the
theorems of `Verif.Props.Monitor` can be met, and what follows for a program a user might write.
-/
namespace Rcpr.Monitor.Buffer

open Rcpr Rcpr.Monitor

/-- Where a thread is. The flag says that it came from a wait. -/
inductive At
  | acq
  | look (o : Bool)
  | sleep (o : Bool)
  | move (o : Bool)
  | tell
  | unlock
  deriving DecidableEq

/-- Threads with even numbers produce, the others consume. -/
def produces (t : Nat) : Bool := t % 2 == 0

/-- Can the thread go ahead? -/
def ready (cap t x : Nat) : Bool := if produces t then decide (x < cap) else decide (0 < x)

/-- Condition 0 is "not empty", condition 1 is "not full". -/
def waitsOn (t : Nat) : Nat := if produces t then 1 else 0
def tells (t : Nat) : Nat := if produces t then 0 else 1

def prog (n cap : Nat) : Prog At Nat where
  n := n
  act t l := match l with
    | .acq => .acquire 0 none
    | .look _ => .access 0 id
    | .sleep _ => .wait 0 (waitsOn t)
    | .move _ => .access 0 (fun x => if produces t then x + 1 else x - 1)
    | .tell => .signalOne 0 (tells t)
    | .unlock => .release 0
  next t l a := match l, a with
    | .acq, .acquired st _ => if st = SUCCESS then .look false else .acq
    | .look o, .data x => if ready cap t x then .move o else .sleep o
    | .sleep o, .waited st => if st = SUCCESS then .look true else .sleep o
    | .move _, .data _ => .tell
    | .tell, .signalled st => if st = SUCCESS then .unlock else .tell
    | .unlock, .released st => if st = SUCCESS then .acq else .unlock
    | l, _ => l

def says (cap t : Nat) : At → Nat → Prop
  | .acq, _ => True
  | .look _, x => x ≤ cap
  | .sleep _, x => x = if produces t then cap else 0
  | .move _, x => x ≤ cap ∧ ready cap t x = true
  | .tell, x => x ≤ cap
  | .unlock, x => x ≤ cap

theorem ready_not {cap t x : Nat} (hx : x ≤ cap) (h : ready cap t x = false) :
    x = if produces t then cap else 0 := by
  unfold ready at h
  by_cases hp : produces t = true
  · rw [if_pos hp] at h ⊢
    have := of_decide_eq_false h
    omega
  · rw [if_neg hp] at h ⊢
    have := of_decide_eq_false h
    omega

def outline (n cap : Nat) : Outline (prog n cap) where
  held _ l m := m = 0 ∧ l ≠ .acq
  inv m x := m = 0 → x ≤ cap
  asserts t l d := says cap t l (d 0)
  mutexOf _ := 0
  owned t l d d' h ha := by
    cases l with
    | acq => trivial
    | _ => rw [← h 0 ⟨rfl, by intro hh; cases hh⟩]; exact ha
  acquire_ok t l m v hact d ha hn hi := by
    cases l with
    | acq =>
      simp only [prog] at hact
      injection hact with h1 _
      subst h1
      refine ⟨hi rfl, ?_⟩
      intro k
      simp [prog]
    | _ => cases hact
  acquire_fail t l m v hact st v' d hst ha := by
    cases l with
    | acq => simp [prog, hst, says]
    | _ => cases hact
  release_pre t l m hact := by
    cases l with
    | unlock =>
      simp only [prog] at hact
      injection hact with h1
      subst h1
      exact ⟨⟨rfl, by intro hh; cases hh⟩, fun d ha _ => ha⟩
    | _ => cases hact
  release_ok t l m hact d ha := by
    cases l with
    | unlock =>
      simp only [prog] at hact
      injection hact with h1
      subst h1
      simp [prog, says]
    | _ => cases hact
  release_fail t l m hact st d hst ha := by
    cases l with
    | unlock => simpa [prog, hst] using ha
    | _ => cases hact
  wait_pre t l m c hact := by
    cases l with
    | sleep o =>
      simp only [prog] at hact
      injection hact with h1 h2
      subst h1
      refine ⟨⟨rfl, by intro hh; cases hh⟩, rfl, ?_⟩
      intro d ha _
      simp only [says] at ha
      rw [ha]
      split <;> omega
    | _ => cases hact
  wait_ok t l m c hact d d' ha _ hi := by
    cases l with
    | sleep o =>
      simp only [prog] at hact
      injection hact with h1 h2
      subst h1
      simpa [prog, says] using hi rfl
    | _ => cases hact
  wait_held t l m c hact k := by
    cases l with
    | sleep o => simp [prog]
    | _ => cases hact
  wait_fail t l m c hact st d hst ha := by
    cases l with
    | sleep o => simpa [prog, hst] using ha
    | _ => cases hact
  signal t l m c hact st d ha := by
    cases l with
    | tell =>
      by_cases hst : st = SUCCESS
      · simpa [prog, hst, says] using ha
      · simpa [prog, hst, says] using ha
    | _ => rcases hact with hact | hact <;> cases hact
  access t l m f hact := by
    cases l with
    | look o =>
      simp only [prog] at hact
      injection hact with h1 h2
      subst h1 h2
      refine ⟨⟨rfl, by intro hh; cases hh⟩, ?_⟩
      intro d ha
      simp only [prog, says, id, upd] at ha ⊢
      cases hr : ready cap t (d 0) with
      | true => simp [hr, ha]
      | false =>
        simp
        exact ready_not ha hr
    | move o =>
      simp only [prog] at hact
      injection hact with h1 h2
      subst h1 h2
      refine ⟨⟨rfl, by intro hh; cases hh⟩, ?_⟩
      intro d ha
      simp only [prog, says, upd, if_true] at ha ⊢
      refine ⟨?_, by simp⟩
      obtain ⟨h1, h2⟩ := ha
      unfold ready at h2
      by_cases hp : produces t = true
      · rw [if_pos hp] at h2 ⊢
        have := of_decide_eq_true h2
        omega
      · rw [if_neg hp]
        omega
    | _ => cases hact

/-- What a thread owes: the wake-up it took until it has moved an item, and one to the other side behind a
move. -/
def owes (t : Nat) (l : At) (c : Nat) : Nat :=
  match l with
  | .look true | .sleep true | .move true => if c = waitsOn t then 1 else 0
  | .tell => if c = tells t then 1 else 0
  | _ => 0

/-- Consumers may be woken as often as there are items, producers as often as there are free places. -/
def due (cap c x : Nat) : Nat := if c = 0 then x else if c = 1 then cap - x else 0

theorem waits_or_tells (t : Nat) : (produces t = true ∧ waitsOn t = 1 ∧ tells t = 0) ∨
    (produces t = false ∧ waitsOn t = 0 ∧ tells t = 1) := by
  cases h : produces t <;> simp [waitsOn, tells, h]

def discipline (n cap : Nat) : Discipline (outline n cap) where
  due := due cap
  owes := owes
  acquire t l m v hact st v' c _ := by
    cases l with
    | acq => exact Nat.zero_le _
    | _ => cases hact
  release t l m hact d c ha _ := by
    cases l with
    | unlock => exact Or.inr rfl
    | _ => cases hact
  release_other t l m hact st c _ := by
    cases l with
    | unlock => exact Nat.zero_le _
    | _ => cases hact
  wait t l m c hact d ha := by
    cases l with
    | sleep o =>
      simp only [prog] at hact
      injection hact with h1 h2
      subst h1 h2
      simp only [outline, says] at ha
      have hz : due cap (waitsOn t) (d 0) = 0 := by
        rcases waits_or_tells t with ⟨h1, h2, _⟩ | ⟨h1, h2, _⟩
        · rw [h2, ha, h1]; simp [due]
        · rw [h2, ha, h1]; simp [due]
      refine ⟨hz, ?_⟩
      intro c' _
      by_cases hc : c' = waitsOn t
      · left; rw [hc]; exact hz
      · right
        cases o <;> simp [owes, hc]
    | _ => cases hact
  wait_takes t l m c hact := by
    cases l with
    | sleep o =>
      simp only [prog] at hact
      injection hact with h1 h2
      subst h1 h2
      simp [prog, owes]
    | _ => cases hact
  wait_other t l m c hact st c' hor := by
    cases l with
    | sleep o =>
      simp only [prog] at hact
      injection hact with h1 h2
      subst h1 h2
      by_cases hst : st = SUCCESS
      · rcases hor with h | h
        · exact absurd hst h
        · exact absurd rfl h
      · simp [prog, hst]
    | _ => cases hact
  signalOne t l m c hact := by
    cases l with
    | tell =>
      simp only [prog] at hact
      injection hact with h1 h2
      subst h1 h2
      simp [prog, owes]
    | _ => cases hact
  signal_other t l m c hact st c' hor := by
    cases l with
    | tell =>
      rcases hact with hact | hact
      · simp only [prog] at hact
        injection hact with h1 h2
        subst h1 h2
        by_cases hst : st = SUCCESS
        · rcases hor with h | h
          · exact absurd hst h
          · simp [owes, h]
        · simp [prog, hst]
      · cases hact
    | _ => rcases hact with hact | hact <;> cases hact
  access t l m f hact d c ha _ := by
    cases l with
    | look o =>
      simp only [prog] at hact
      injection hact with h1 h2
      subst h1 h2
      right
      simp only [id, prog]
      cases hr : ready cap t (d 0) <;> cases o <;> simp [owes]
    | move o =>
      simp only [prog] at hact
      injection hact with h1 h2
      subst h1 h2
      right
      simp only [outline, says, ready] at ha
      simp only [prog]
      obtain ⟨ha1, ha2⟩ := ha
      rcases waits_or_tells t with ⟨h1, h2, h3⟩ | ⟨h1, h2, h3⟩
      · rw [h1] at ha2
        simp only [if_true, decide_eq_true_eq] at ha2
        simp only [h1, if_true]
        by_cases hc0 : c = 0
        · subst hc0
          cases o <;> simp [owes, due, h2, h3]
        · by_cases hc1 : c = 1
          · subst hc1
            cases o <;> simp [owes, due, h2, h3] <;> omega
          · cases o <;> simp [owes, due, h2, h3, hc0, hc1]
      · rw [h1] at ha2
        simp only [Bool.false_eq_true, if_false, decide_eq_true_eq] at ha2
        simp only [h1, Bool.false_eq_true, if_false]
        by_cases hc0 : c = 0
        · subst hc0
          cases o <;> simp [owes, due, h2, h3] <;> omega
        · by_cases hc1 : c = 1
          · subst hc1
            cases o <;> simp [owes, due, h2, h3] <;> omega
          · cases o <;> simp [owes, due, h2, h3, hc0, hc1]
    | _ => cases hact
  access_other t l m f hact x c hc := by
    cases l with
    | look o =>
      simp only [prog] at hact
      injection hact with h1 h2
      exact absurd h1 hc
    | move o =>
      simp only [prog] at hact
      injection hact with h1 h2
      exact absurd h1 hc
    | _ => cases hact

theorem begins (n cap : Nat) : (outline n cap).Begins (fun _ => .acq) (fun _ => 0) where
  held := by
    rintro t _ m ⟨_, h⟩
    exact h rfl
  inv := fun _ _ => Nat.zero_le _
  asserts := fun _ _ => trivial

/-- **C74 and C75 for the bounded buffer.** Any number of producers and consumers, any capacity, any
interleaving, failures and spurious wake-ups: nothing undefined happens; at most one thread at a time is between
its acquire and its release; and whenever the lock is free the buffer is not overfull, a consumer sleeps only if
as many others have been woken as there are items, and a producer only if as many others have been woken as there
are free places. -/
theorem bounded_buffer (n cap : Nat) (s : State At Nat)
    (hr : Reach (prog n cap) (start (fun _ => .acq) (fun _ => 0)) s) :
    (∀ t ch, step (prog n cap) s t ch ≠ .fault) ∧
    (∀ t u, t < n → u < n → s.mode t = .run → s.mode u = .run → s.loc t ≠ .acq → s.loc u ≠ .acq → t = u) ∧
    (s.owner 0 = none → s.data 0 ≤ cap ∧
      (∀ t < n, s.mode t = .waiting 0 0 →
        s.data 0 ≤ ((List.range n).filter fun u => s.mode u = .woken 0 0).length) ∧
      (∀ t < n, s.mode t = .waiting 1 0 →
        cap - s.data 0 ≤ ((List.range n).filter fun u => s.mode u = .woken 1 0).length)) := by
  obtain ⟨h1, h2, h3, _⟩ := monitor_sound _ (outline n cap) _ _ (begins n cap) s hr
  refine ⟨h1, ?_, ?_⟩
  · intro t u ht hu hrt hru hlt hlu
    exact h2 t u 0 ht hu hrt hru ⟨rfl, hlt⟩ ⟨rfl, hlu⟩
  · intro hfree
    refine ⟨?_, ?_, ?_⟩
    · exact (reach_inv (init_inv (outline n cap) (begins n cap)) hr).free 0 hfree rfl
    · intro t ht hm
      exact no_lost_wakeup _ _ (discipline n cap) _ _ (begins n cap) s hr 0 hfree t ht 0 hm
    · intro t ht hm
      exact no_lost_wakeup _ _ (discipline n cap) _ _ (begins n cap) s hr 1 hfree t ht 0 hm

/-- A run in which a consumer sleeps and a producer wakes it: the hypotheses of `no_lost_wakeup` occur with a
thread asleep. -/
example : ∃ s, Reach (prog 4 2) (start (fun _ => .acq) (fun _ => 0)) s ∧ s.mode 1 = .woken 0 0 ∧
    s.mode 3 = .waiting 0 0 ∧ s.data 0 = 1 ∧ s.owner 0 = none := by
  let go (t : Nat) : Nat × Choice := (t, .call SUCCESS fun u => u == 1)
  refine ⟨_, .step 0 (go 0).2 (.step 0 (go 0).2 (.step 0 (go 0).2 (.step 0 (go 0).2 (.step 0 (go 0).2
    (.step 3 (go 3).2 (.step 3 (go 3).2 (.step 3 (go 3).2
    (.step 1 (go 1).2 (.step 1 (go 1).2 (.step 1 (go 1).2 .refl rfl) rfl) rfl) rfl) rfl) rfl) rfl) rfl) rfl) rfl) rfl,
    rfl, rfl, rfl, rfl⟩

end Rcpr.Monitor.Buffer
