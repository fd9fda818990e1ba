import Verif.EchoLife
import Verif.Mandel

/-!
What the mandelbrot example acquires and gives back (examples/mandelbrot/src/main.c, config_create.c): the ledger
of `Verif.Life` for `main`. What the threads do with the lock is in `Verif.Mandel`.

Simplifications: the numbers in the configuration are parameters, not the defaults (config_create.c:87-94), and
the width is not 0; `wait` and the broadcasts to the workers in the loop over the frames do not fail (what
happens then is `Mandel.cleanup_hangs_violated`), and the workers come to their end when they are told to
quiesce. `printf` is left out. `free` is `drop`: it cannot fail.
-/
namespace Rcpr.MandelLife

open Life
open EchoLife (fault)
open Mandel (Cfg)

/-- `struct config` (config_internal.h:25-50): the structure and `filename_prefix`, if it is not NULL. -/
structure Config where
  p : Nat
  name : Option Nat
  deriving DecidableEq, Repr

/-- `config_create` (config_create.c:42-73, 80-98). The result of `strdup` is not looked at. -/
def configCreate (al : Nat) : M (Status × Out Config) := do
  use al
  match ← get .mem with
  | .error a => pure (a, .untouched)
  | .ok p =>
    match ← get .mem with
    | .error _ => pure (SUCCESS, .set ⟨p, none⟩)
    | .ok q => pure (SUCCESS, .set ⟨p, some q⟩)

/-- `config_resource_release` (config_create.c:107-119) -/
def configRelease (h : Config) : M Status := do
  use h.p
  match h.name with
  | some q => let _ ← drop .mem q
  | none => pure ()
  use h.p
  pure SUCCESS

/-- The loop that creates the threads (main.c:117-128), with the array; NULL is `none`. The calls of the
library that acquire or give back memory use the allocator `al`, here and below. -/
def spawn (al : Nat) : Nat → M (Status × List (Option Thread))
  | 0 => pure (SUCCESS, [])
  | n + 1 => do
    use al
    match ← threadCreate with
    | (_, .set t) =>
      let (a, ts) ← spawn al n
      pure (a, some t :: ts)
    | (a, _) => pure (a, List.replicate (n + 1) none)

/-- How `main` ends: it returns (333), or calls `exit` (267, 277, 287). -/
inductive Outcome
  | returned (code : Nat) | exited (code : Nat)
  deriving DecidableEq, Repr

/-- `if (STATUS_SUCCESS != r) if (0 == errorcode) errorcode = n;` (main.c:295-296 and others) -/
def note (code : Nat) (r : Status) (n : Nat) : Nat := if r ≠ SUCCESS then if code = 0 then n else code else code

/-- label `cleanup_allocator` (main.c:327-333) -/
def cleanupAllocator (code al : Nat) : M Outcome := do
  use al
  let _ ← drop .mem al
  pure (.returned code)

/-- label `cleanup_config` (main.c:322-325) and what follows -/
def cleanupConfig (code : Nat) (cf : Config) (al : Nat) : M Outcome := do
  let r ← configRelease cf
  cleanupAllocator (note code r 91) al

/-- label `free_array` (main.c:319-320) and what follows -/
def freeArray (code arr : Nat) (cf : Config) (al : Nat) : M Outcome := do
  let _ ← drop .mem arr
  cleanupConfig code cf al

/-- label `release_mutex` (main.c:313-317) and what follows -/
def releaseMutex (code : Nat) (m : Two) (arr : Nat) (cf : Config) (al : Nat) : M Outcome := do
  use al
  let r ← mutexRelease m
  freeArray (note code r 92) arr cf al

/-- label `release_worker_cond` (main.c:307-311) and what follows -/
def releaseWorker (code : Nat) (wc m : Two) (arr : Nat) (cf : Config) (al : Nat) : M Outcome := do
  use al
  let r ← condRelease wc
  releaseMutex (note code r 93) m arr cf al

/-- label `release_main_cond` (main.c:301-305) and what follows -/
def releaseMain (code : Nat) (mc wc m : Two) (arr : Nat) (cf : Config) (al : Nat) : M Outcome := do
  use al
  let r ← condRelease mc
  releaseWorker (note code r 94) wc m arr cf al

/-- The loop that releases the threads (main.c:291-297). `thread_resource_handle` of NULL has no vtable to be
released with. `exits`: what the threads answered. -/
def joinAll (al : Nat) (exits : Nat → Status) (code : Nat) : List (Option Thread) → M Nat
  | [] => pure code
  | none :: _ => fault
  | some t :: ts => do
    use al
    let r ← threadRelease (exits t.p) t
    joinAll al exits (note code r 95) ts

/-- label `cleanup_threads` (main.c:255-299) and what follows -/
def cleanupThreads (exits : Nat → Status) (code : Nat) (ts : List (Option Thread)) (th : Nat) (mc wc m : Two)
    (arr : Nat) (cf : Config) (al : Nat) : M Outcome := do
  use m.p
  let a ← ask
  if a ≠ SUCCESS then pure (.exited 99)
  else
    use wc.p
    let a ← ask
    if a ≠ SUCCESS then pure (.exited (if code = 0 then 96 else code))
    else
      let a ← ask
      if a ≠ SUCCESS then pure (.exited 97)
      else
        use th
        let code ← joinAll al exits code ts
        let _ ← drop .mem th
        releaseMain code mc wc m arr cf al

/-- The workers allocate and save the lines of a frame (draw_line.c:68, 105, 119). The result of `malloc` is not
looked at. -/
def drawLines : Nat → M (List Nat)
  | 0 => pure []
  | n + 1 => do
    match ← get .mem with
    | .error _ => fault
    | .ok p =>
      use p
      let ls ← drawLines n
      pure (p :: ls)

/-- main.c:220-225 -/
def freeLines : List Nat → M Unit
  | [] => pure ()
  | p :: ls => do
    let _ ← drop .mem p
    freeLines ls

/-- One pass of the loop over the frames (main.c:169-243). `NULL` is no argument for `%s` (197), nor a file to
write to (200). -/
def frame (c : Cfg) (arr : Nat) (cf : Config) : M Unit := do
  use arr
  let ls ← drawLines c.lines
  match cf.name with
  | none => fault
  | some q =>
    use q
    match ← get .desc with
    | .error _ => fault
    | .ok f =>
      use arr
      let _ ← drop .desc f
      freeLines ls

/-- The loop over the frames (main.c:169-243). -/
def frames (c : Cfg) (arr : Nat) (cf : Config) : Nat → M Unit
  | 0 => pure ()
  | n + 1 => do
    frame c arr cf
    frames c arr cf n

/-- `main` (main.c:26-334) -/
def main (c : Cfg) (exits : Nat → Status) : M Outcome := do
  match ← get .mem with
  | .error _ => pure (.returned 1)
  | .ok al =>
    match ← configCreate al with
    | (_, .set cf) =>
      use cf.p
      match ← get .mem with
      | .error _ => cleanupConfig 4 cf al
      | .ok arr =>
        use al
        match ← mutexCreate with
        | (_, .set m) =>
          use al
          match ← condCreate with
          | (_, .set wc) =>
            use al
            match ← condCreate with
            | (_, .set mc) =>
              match ← get .mem with
              | .error _ => releaseMain 8 mc wc m arr cf al
              | .ok th =>
                match ← spawn al c.jobs with
                | (a, ts) =>
                  if a ≠ SUCCESS then cleanupThreads exits 9 ts th mc wc m arr cf al
                  else
                    use m.p
                    let a ← ask
                    if a ≠ SUCCESS then cleanupThreads exits 11 ts th mc wc m arr cf al
                    else
                      frames c arr cf c.frames
                      cleanupConfig 0 cf al
            | (_, _) => releaseWorker 7 wc m arr cf al
          | (_, _) => releaseMutex 6 m arr cf al
        | (_, _) => freeArray 5 arr cf al
    | (_, _) => cleanupAllocator 2 al

end Rcpr.MandelLife
