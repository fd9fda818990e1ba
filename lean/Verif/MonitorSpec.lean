import Verif.Monitor

/-!
What each thread has to keep to, thread by thread and without regard to the others, in terms of the answers
documented in include/rcpr/thread.h: the proof outline of C74, and the signalling discipline of C75.
-/
namespace Rcpr.Monitor

open Rcpr

variable {L D : Type}

/-- A proof outline. `held` is which locks the thread believes it has at a point of its program, `inv` the
invariant of the data of each mutex, `asserts` what the thread relies on at a point. Each thread is looked at
alone; other threads appear only as arbitrary changes to data of mutexes it does not hold, within `inv`. -/
structure Outline (p : Prog L D) where
  held : Nat → L → Nat → Prop
  inv : Nat → D → Prop
  asserts : Nat → L → (Nat → D) → Prop
  /-- the mutex that is used with a condition -/
  mutexOf : Nat → Nat
  /-- a thread relies only on data it has locked -/
  owned : ∀ t l d d', (∀ m, held t l m → d m = d' m) → asserts t l d → asserts t l d'
  /-- a successful acquire gives the lock, and the data satisfy the invariant -/
  acquire_ok : ∀ t l m v, p.act t l = .acquire m v → ∀ d, asserts t l d → ¬ held t l m → inv m (d m) →
    asserts t (p.next t l (.acquired SUCCESS (some m))) d ∧
    ∀ k, held t (p.next t l (.acquired SUCCESS (some m))) k ↔ (held t l k ∨ k = m)
  /-- a failed one does not -/
  acquire_fail : ∀ t l m v, p.act t l = .acquire m v → ∀ st v' d, st ≠ SUCCESS → asserts t l d →
    asserts t (p.next t l (.acquired st v')) d ∧
    ∀ k, held t (p.next t l (.acquired st v')) k ↔ held t l k
  /-- the thread releases a lock it has, with the invariant restored -/
  release_pre : ∀ t l m, p.act t l = .release m → held t l m ∧ ∀ d, asserts t l d → inv m (d m)
  release_ok : ∀ t l m, p.act t l = .release m → ∀ d, asserts t l d →
    asserts t (p.next t l (.released SUCCESS)) d ∧
    ∀ k, held t (p.next t l (.released SUCCESS)) k ↔ (held t l k ∧ k ≠ m)
  release_fail : ∀ t l m, p.act t l = .release m → ∀ st d, st ≠ SUCCESS → asserts t l d →
    asserts t (p.next t l (.released st)) d ∧ ∀ k, held t (p.next t l (.released st)) k ↔ held t l k
  /-- the thread waits with the lock of the mutex of the condition, with the invariant restored -/
  wait_pre : ∀ t l m c, p.act t l = .wait m c →
    held t l m ∧ mutexOf c = m ∧ ∀ d, asserts t l d → inv m (d m)
  /-- after the wait it has the lock again, and the data satisfy the invariant -/
  wait_ok : ∀ t l m c, p.act t l = .wait m c → ∀ d d', asserts t l d → (∀ k, held t l k → k ≠ m → d k = d' k) →
    inv m (d' m) → asserts t (p.next t l (.waited SUCCESS)) d'
  wait_held : ∀ t l m c, p.act t l = .wait m c → ∀ k, held t (p.next t l (.waited SUCCESS)) k ↔ held t l k
  wait_fail : ∀ t l m c, p.act t l = .wait m c → ∀ st d, st ≠ SUCCESS → asserts t l d →
    asserts t (p.next t l (.waited st)) d ∧ ∀ k, held t (p.next t l (.waited st)) k ↔ held t l k
  signal : ∀ t l m c, p.act t l = .signalOne m c ∨ p.act t l = .signalAll m c → ∀ st d, asserts t l d →
    asserts t (p.next t l (.signalled st)) d ∧ ∀ k, held t (p.next t l (.signalled st)) k ↔ held t l k
  /-- data are used with the lock -/
  access : ∀ t l m f, p.act t l = .access m f → held t l m ∧ ∀ d, asserts t l d →
    asserts t (p.next t l (.data (d m))) (upd d m (f (d m))) ∧
    ∀ k, held t (p.next t l (.data (d m))) k ↔ held t l k

/-- The outline holds at the beginning. -/
structure Outline.Begins {p : Prog L D} (o : Outline p) (loc : Nat → L) (data : Nat → D) : Prop where
  held : ∀ t < p.n, ∀ m, ¬ o.held t (loc t) m
  inv : ∀ m, o.inv m (data m)
  asserts : ∀ t < p.n, o.asserts t (loc t) data

/-- The signalling discipline. `due c d` is how many wake-ups of threads that wait on `c` the data warrant (for
instance the number of items in a queue); `owes` is how many the thread has still to give at a point of its
program. Making more wake-ups due is a debt; a successful signal pays one, a broadcast all; a thread that
returns from a wait takes over the wake-up it got; a debt is void when none are due; no debt may be left when the
lock is given up; and a thread waits only if none are due. -/
structure Discipline {p : Prog L D} (o : Outline p) where
  due : Nat → D → Nat
  owes : Nat → L → Nat → Nat
  acquire : ∀ t l m v, p.act t l = .acquire m v → ∀ st v' c, o.held t l (o.mutexOf c) →
    owes t l c ≤ owes t (p.next t l (.acquired st v')) c
  release : ∀ t l m, p.act t l = .release m → ∀ d c, o.asserts t l d → o.mutexOf c = m →
    due c (d m) = 0 ∨ owes t l c = 0
  release_other : ∀ t l m, p.act t l = .release m → ∀ st c, st ≠ SUCCESS ∨ o.mutexOf c ≠ m →
    owes t l c ≤ owes t (p.next t l (.released st)) c
  wait : ∀ t l m c, p.act t l = .wait m c → ∀ d, o.asserts t l d →
    due c (d m) = 0 ∧ ∀ c', o.mutexOf c' = m → due c' (d m) = 0 ∨ owes t l c' = 0
  wait_takes : ∀ t l m c, p.act t l = .wait m c → 1 ≤ owes t (p.next t l (.waited SUCCESS)) c
  wait_other : ∀ t l m c, p.act t l = .wait m c → ∀ st c', st ≠ SUCCESS ∨ o.mutexOf c' ≠ m →
    owes t l c' ≤ owes t (p.next t l (.waited st)) c'
  signalOne : ∀ t l m c, p.act t l = .signalOne m c →
    owes t l c ≤ owes t (p.next t l (.signalled SUCCESS)) c + 1
  signal_other : ∀ t l m c, p.act t l = .signalOne m c ∨ p.act t l = .signalAll m c → ∀ st c',
    st ≠ SUCCESS ∨ c' ≠ c → owes t l c' ≤ owes t (p.next t l (.signalled st)) c'
  access : ∀ t l m f, p.act t l = .access m f → ∀ d c, o.asserts t l d → o.mutexOf c = m →
    due c (f (d m)) = 0 ∨ due c (f (d m)) + owes t l c ≤ due c (d m) + owes t (p.next t l (.data (d m))) c
  access_other : ∀ t l m f, p.act t l = .access m f → ∀ x c, o.mutexOf c ≠ m →
    owes t l c ≤ owes t (p.next t l (.data x)) c

end Rcpr.Monitor
