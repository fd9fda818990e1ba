import Verif.Monitor

/-!
The mandelbrot example (examples/mandelbrot/src/main.c, draw_line.c): a main thread that has worker threads draw
the lines of one frame after the other, with one mutex and two conditions. The threads library is `Verif.Monitor`; what the
example does without the lock is in `step` below.

Thread 0 is the main thread, the workers are 1 to `jobs`. Simplifications: the threads exist from the start (in the code
main creates them before it comes to `setup`, so there are at most more interleavings here); the creation of threads, mutex and
conditions does not fail; `malloc` of a line succeeds; the value of a pixel is the term made of all it depends on, that is the
parameters of the frame, the line and the column; counters do not overflow.
-/
namespace Rcpr.Mandel

open Rcpr Rcpr.Monitor

/-- What the configuration says (config_create.c:79-98): number of jobs, height, width, number of frames. -/
structure Cfg where
  jobs : Nat
  lines : Nat
  cols : Nat
  frames : Nat

/-- A pixel: which parameters, which line, which column (draw_line.c:83-105). -/
structure Pix where
  zoom : Option Nat
  line : Nat
  col : Nat
  deriving DecidableEq

/-- An entry of `info.array`: not initialised (main.c:74), NULL, or the pixels of a line. -/
inductive Slot
  | wild
  | null
  | line (ps : List Pix)
  deriving DecidableEq

/-- `struct thread_info` (thread.h:14-32). `zoom` stands for `scalex`, `scaley`, `startx` and `starty`: the frame
for which main has computed them; `lines` and `cols` are in `Cfg`, they are written in `setup` only. -/
structure Info where
  curr : Nat
  written : Nat
  quiesce : Bool
  done : Bool
  zoom : Option Nat
  array : Nat → Slot

/-- Where a thread is. `f` is what main has written to files so far, `h` whether the thread has the lock there. -/
inductive At
  /- main.c -/
  /-- computes the first parameters (130-158) -/
  | setup
  /-- takes the lock (161) -/
  | acquire
  /-- starts frame `i` (172-175) -/
  | begin (i : Nat) (f : List (List Slot))
  /-- wakes the workers (178) -/
  | tell (i : Nat) (f : List (List Slot))
  /-- waits for the frame (186) -/
  | sleep (i : Nat) (f : List (List Slot))
  /-- writes and frees the frame, zooms (193-242) -/
  | write (i : Nat) (f : List (List Slot))
  /-- has written all frames (246) -/
  | finish (f : List (List Slot))
  /-- `cleanup_threads` (259) -/
  | quit (h : Bool) (f : List (List Slot))
  /-- takes the lock for the clean-up (262) -/
  | relock (h : Bool) (f : List (List Slot))
  /-- wakes the workers for the clean-up (271) -/
  | tellQuit (f : List (List Slot))
  /-- gives up the lock (281) -/
  | unlockQuit (f : List (List Slot))
  /-- releases, that is joins, thread `k` (291-297) -/
  | join (k : Nat) (f : List (List Slot))
  /-- has ended with an error (267, 277, 287, or after the joins) -/
  | exit (h : Bool) (f : List (List Slot))
  /- draw_line.c -/
  /-- takes the lock (33) -/
  | acq
  /-- waits for a frame (44) -/
  | doze
  /-- looks whether to quiesce (52) -/
  | look
  /-- looks whether the frame is done (58) -/
  | test
  /-- takes a line (60-65, 138) -/
  | take
  /-- gives up the lock (71) -/
  | unlock (j : Nat)
  /-- draws (81-106) -/
  | draw (j : Nat) (ps : List Pix)
  /-- takes the lock (109) -/
  | lock (j : Nat) (ps : List Pix)
  /-- saves the line (119-125) -/
  | save (j : Nat) (ps : List Pix)
  /-- signals the main thread (128) -/
  | report
  /-- something failed with the lock held: sets `quiesce` (47, 131) -/
  | failed
  /-- `cleanup_lock` (144) -/
  | leave
  /-- an acquire or release failed: sets `quiesce` (37, 75, 113) -/
  | broken (h : Bool)
  /-- has returned (150) -/
  | over (h : Bool)
  deriving DecidableEq

/-- The conditions (thread.h:17-18). -/
def workerCond : Nat := 0
def mainCond : Nat := 1

/-- The head of the loop over the frames (main.c:169). -/
def top (c : Cfg) (i : Nat) (f : List (List Slot)) : At := if i < c.frames then .begin i f else .finish f

/-- What goes into the file of a frame (main.c:201-216). -/
def file (c : Cfg) (d : Info) : List Slot := (List.range c.lines).map d.array

/-- What each thread calls at a point. Points where something is done without the library, or outside the lock, are in
`step`. (main.c:161-287, draw_line.c:33-144) -/
def act (c : Cfg) : At → Act Info
  | .acquire => .acquire 0 none
  | .begin _ _ => .access 0 fun d => { d with done := false, curr := 0, written := 0 }
  | .tell _ _ => .signalAll 0 workerCond
  | .sleep _ _ => .wait 0 mainCond
  | .write i _ => .access 0 fun d => { d with array := fun j => if j < c.lines then .null else d.array j, zoom := some (i + 1) }
  | .relock _ _ => .acquire 0 (some 0)
  | .tellQuit _ => .signalAll 0 workerCond
  | .unlockQuit _ => .release 0
  | .acq => .acquire 0 none
  | .doze => .wait 0 workerCond
  | .look => .access 0 id
  | .test => .access 0 id
  | .take => .access 0 fun d => if d.curr < c.lines then { d with curr := d.curr + 1 } else { d with done := true }
  | .unlock _ => .release 0
  | .lock _ _ => .acquire 0 (some 0)
  | .save j ps => .access 0 fun d =>
      { d with
        array := fun k => if k = j then .line ps else d.array k
        written := d.written + 1
        done := if d.written + 1 = c.lines then true else d.done }
  | .report => .signalOne 0 mainCond
  | .failed => .access 0 fun d => { d with quiesce := true }
  | .leave => .release 0
  | .setup | .finish _ | .quit _ _ | .join _ _ | .exit _ _ | .draw _ _ | .broken _ | .over _ => .stop

/-- How it goes on. (main.c:162-242, 262-297, draw_line.c:34-147) -/
def next (c : Cfg) : At → Ans Info → At
  | .acquire, .acquired st _ => if st ≠ SUCCESS then .quit false [] else top c 0 []
  | .begin i f, .data _ => .tell i f
  | .tell i f, .signalled st => if st ≠ SUCCESS then .quit true f else .sleep i f
  | .sleep i f, .waited st => if st ≠ SUCCESS then .quit true f else .write i f
  | .write i f, .data d => top c (i + 1) (f ++ [file c d])
  | .relock h f, .acquired st _ => if st ≠ SUCCESS then .exit h f else .tellQuit f
  | .tellQuit f, .signalled st => if st ≠ SUCCESS then .exit true f else .unlockQuit f
  | .unlockQuit f, .released st => if st ≠ SUCCESS then .exit true f else .join 1 f
  | .acq, .acquired st _ => if st ≠ SUCCESS then .broken false else .doze
  | .doze, .waited st => if st ≠ SUCCESS then .failed else .look
  | .look, .data d => if d.quiesce then .leave else .test
  | .test, .data d => if d.done then .doze else .take
  | .take, .data d => if d.curr < c.lines then .unlock d.curr else .test
  | .unlock j, .released st => if st ≠ SUCCESS then .broken true else .draw j []
  | .lock j ps, .acquired st _ => if st ≠ SUCCESS then .broken false else .save j ps
  | .save _ _, .data d => if d.written + 1 = c.lines then .report else .test
  | .report, .signalled st => if st ≠ SUCCESS then .failed else .test
  | .failed, .data _ => .leave
  | .leave, .released st => if st ≠ SUCCESS then .over true else .over false
  | l, _ => l

/-- The program as a client of the threads library. (main.c:161-287, draw_line.c:33-144) -/
def prog (c : Cfg) : Prog At Info where
  n := c.jobs + 1
  act _ := act c
  next _ := next c

/-- The state of the process. Not in the code. -/
abbrev St := State At Info

/-- The thread goes on at `l`, and the shared structure becomes `d`, without the lock. Not in the code. -/
def put (s : St) (t : Nat) (l : At) (d : Info) : St :=
  { s with loc := upd s.loc t l, data := upd s.data 0 d }

/-- One step of thread `t`: what is done outside the library, and a step of the library otherwise. It is undefined
behaviour to use an entry of the array that was not initialised (main.c:203-207). -/
def step (c : Cfg) (s : St) (t : Nat) (ch : Choice) : Out St :=
  if c.jobs < t then .blocked else
  match s.mode t, ch, s.loc t with
  | .run, .call _ _, .setup => .ok (put s t .acquire { s.data 0 with zoom := some 0 })
  | .run, .call _ _, .quit h f => .ok (put s t (.relock h f) { s.data 0 with quiesce := true })
  | .run, .call _ _, .join k f =>
    if c.jobs < k then .ok (put s t (.exit false f) (s.data 0))
    else match s.loc k with
      | .over _ => .ok (put s t (.join (k + 1) f) (s.data 0))
      | _ => .blocked
  | .run, .call _ _, .draw j ps =>
    if ps.length < c.cols then .ok (put s t (.draw j (ps ++ [⟨(s.data 0).zoom, j, ps.length⟩])) (s.data 0))
    else .ok (put s t (.lock j ps) (s.data 0))
  | .run, .call _ _, .broken h => .ok (put s t (.over h) { s.data 0 with quiesce := true })
  | .run, .call e w, .write _ _ =>
    if (file c (s.data 0)).any (· == .wild) then .fault
    else Monitor.step (prog c) s t (.call e w)
  | _, _, _ => Monitor.step (prog c) s t ch

/-- The structure after lines 71-82 of main.c. -/
def initial : Info := ⟨0, 0, false, true, none, fun _ => .wild⟩

/-- The threads at their beginnings (main.c:120-130, draw_line.c:26-33). -/
def begins : St := Monitor.start (fun t => if t = 0 then .setup else .acq) fun _ => initial

/-- The steps of an execution: which thread, and what the operating system chose. Not in the code. -/
abbrev Run := List (Nat × Choice)

/-- The state after these steps, if they can be made. Not in the code. -/
def exec (c : Cfg) : St → Run → Out St
  | s, [] => .ok s
  | s, (t, ch) :: r =>
    match step c s t ch with
    | .ok s' => exec c s' r
    | .fault => .fault
    | .blocked => .blocked

end Rcpr.Mandel
