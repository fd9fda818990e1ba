import Verif.Mandel

/-! What is said about the mandelbrot example. -/
namespace Rcpr.Mandel

open Rcpr Rcpr.Monitor

/-- line `j` of frame `i`, drawn with the parameters of frame `i` -/
def row (c : Cfg) (i j : Nat) : List Pix := (List.range c.cols).map fun k => ⟨some i, j, k⟩

/-- frame `i` as it should be -/
def frame (c : Cfg) (i : Nat) : List Slot := (List.range c.lines).map fun j => .line (row c i j)

/-- the files that the main thread has written -/
def files (s : St) : List (List Slot) :=
  match s.loc 0 with
  | .begin _ f | .tell _ f | .sleep _ f | .write _ f | .finish f | .quit _ f | .relock _ f | .tellQuit f | .unlockQuit f
  | .join _ f | .exit _ f => f
  | _ => []

/-- The main thread wakes up only when it is signalled. POSIX does not promise that. -/
def Prompt (r : Run) : Prop := ∀ p ∈ r, p.2 = .spurious → p.1 ≠ 0

/-- No call of the threads library fails. -/
def Succeed (r : Run) : Prop := ∀ p ∈ r, ∀ e w, p.2 = .call e w → e = SUCCESS

/-- how often a thread woke up without a signal -/
def spuriousCount (r : Run) : Nat := r.countP fun p => match p.2 with | .spurious => true | _ => false

/-- Main has not started the first frame, and a worker has already taken the lock. -/
def Ready (c : Cfg) (s : St) : Prop :=
  (s.loc 0 = .setup ∨ s.loc 0 = .acquire) ∧ ∃ t, t ≠ 0 ∧ t ≤ c.jobs ∧ s.loc t ≠ .acq

/-- The most steps without spurious wake-ups: per line `cols` pixels and 8 for the locking around it; per frame 5 for each worker
and 15 for the main thread. -/
def most (c : Cfg) : Nat :=
  c.frames * (c.lines * (c.cols + 8) + 5 * c.jobs + 15) + c.lines * (c.cols + 8) + 2 * c.jobs + 2

/-- Groups of fields of `struct thread_info`. -/
inductive Field
  /-- `curr_line`, `lines_written`, `done` -/
  | state
  | quiesce
  /-- `cols`, `lines`, `scalex`, `scaley`, `startx`, `starty` -/
  | params
  /-- the entries of `array` and what they point to -/
  | array
  deriving DecidableEq

/-- Which fields are used at a point: `some true` is a write. -/
def uses : At → Field → Option Bool
  | .setup, .params => some true
  | .begin _ _, .state => some true
  | .write _ _, .params => some true
  | .write _ _, .array => some true
  | .quit _ _, .quiesce => some true
  | .look, .quiesce => some false
  | .test, .state => some false
  | .take, .state => some true
  | .take, .params => some false
  | .draw _ _, .params => some false
  | .save _ _, .state => some true
  | .save _ _, .params => some false
  | .save _ _, .array => some true
  | .failed, .quiesce => some true
  | .broken _, .quiesce => some true
  | _, _ => none

/-- Two threads are about to use the same field and one of them to write it. -/
def Race (c : Cfg) (s : St) (x : Field) : Prop :=
  ∃ t u, t ≤ c.jobs ∧ u ≤ c.jobs ∧ t ≠ u ∧ s.mode t = .run ∧ s.mode u = .run ∧
    ∃ a b, uses (s.loc t) x = some a ∧ uses (s.loc u) x = some b ∧ (a || b) = true

/-- Nothing can happen any more, unless a thread wakes up without a signal. -/
def Stuck (c : Cfg) (s : St) : Prop := ∀ t ch s', step c s t ch = .ok s' → ch = .spurious

end Rcpr.Mandel
