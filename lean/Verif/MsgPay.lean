import Verif.Life

/-!
The payload of a message, as part of the ledger of `Verif.Life`: who has to release it.
-/
namespace Rcpr.Life

open Rcpr

/-- `message_payload` (src/message/message_payload.c:34-49): the payload, and the message afterwards. -/
def messagePayload (xfer : Bool) (h : Msg) : M (Option Nat × Msg) := do
  use h.p
  pure (h.payload, if xfer then { h with payload := none } else h)

/-- A program that uses messages: the resources it has to release, and its messages. Not in the code: a client. -/
structure Pay where
  st : St
  mine : List Nat
  msgs : List Msg

/-- What the program does: acquire a resource; put its `k`-th resource into a message; make a message without payload;
look at the payload of its `k`-th message; take it; release its `k`-th message; release its `k`-th resource.
Not in the code: a client. -/
inductive PayAct
  | acquire | wrap (k : Nat) | blank | look (k : Nat) | take (k : Nat) | release (k : Nat) | discard (k : Nat)

/-- One step of the program, with what `message_payload` answered: `none` is undefined behaviour. What is not there is
left alone. Not in the code: a client. -/
def payStep (e : Env) (w : Pay) : PayAct → Option (Option Nat × Pay)
  | .acquire => do
    let (r, s) ← get .given e w.st
    match r with
    | .ok x => some (none, { st := s, mine := w.mine ++ [x], msgs := w.msgs })
    | .error _ => some (none, { w with st := s })
  | .wrap k =>
    match w.mine[k]? with
    | none => some (none, w)
    | some x => do
      let ((_, o), s) ← messageCreate (some x) e w.st
      match o with
      | .set m => some (none, { st := s, mine := w.mine.eraseIdx k, msgs := w.msgs ++ [m] })
      | _ => some (none, { w with st := s })
  | .blank => do
    let ((_, o), s) ← messageCreate none e w.st
    match o with
    | .set m => some (none, { st := s, mine := w.mine, msgs := w.msgs ++ [m] })
    | _ => some (none, { w with st := s })
  | .look k =>
    match w.msgs[k]? with
    | none => some (none, w)
    | some m => do
      let ((x, m'), s) ← messagePayload false m e w.st
      some (x, { st := s, mine := w.mine, msgs := w.msgs.set k m' })
  | .take k =>
    match w.msgs[k]? with
    | none => some (none, w)
    | some m => do
      let ((x, m'), s) ← messagePayload true m e w.st
      some (x, { st := s, mine := w.mine ++ x.toList, msgs := w.msgs.set k m' })
  | .release k =>
    match w.msgs[k]? with
    | none => some (none, w)
    | some m => do
      let (_, s) ← messageRelease m e w.st
      some (none, { st := s, mine := w.mine, msgs := w.msgs.eraseIdx k })
  | .discard k =>
    match w.mine[k]? with
    | none => some (none, w)
    | some x => do
      let (_, s) ← put .given x e w.st
      some (none, { st := s, mine := w.mine.eraseIdx k, msgs := w.msgs })

/-- A whole program. Not in the code: a client. -/
def payRun (e : Env) : Pay → List PayAct → Option Pay
  | w, [] => some w
  | w, a :: as => do
    let (_, w') ← payStep e w a
    payRun e w' as

end Rcpr.Life
