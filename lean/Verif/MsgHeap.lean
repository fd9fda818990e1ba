import Verif.MsgOwnSpec

/-!
The memory of messages together with the mailboxes: what is in a message, and when its memory is given back.
The mailboxes are those of `Verif.Fiber`; here the numbers of the messages are addresses of memory.
-/
namespace Rcpr.MsgHeap

open Rcpr Rcpr.Fiber

/-- `struct message` (src/message/message_internal.h:24-34): `returnaddr`, `sendaddr`, `payload`; 0 is `NULL`. Simplified: the
other fields are never changed. -/
structure Rec where
  ret : Nat
  to : Nat
  payload : Nat
  deriving DecidableEq

/-- The memory of the messages; `none` is memory that is not allocated. Not in the code: the heap. -/
abbrev Heap := Nat → Option Rec

def Heap.set (hp : Heap) (m : Nat) (r : Option Rec) : Heap := fun n => if n = m then r else hp n

/-- `message_create` (src/message/message_create.c:66-94), where the allocator answers with the address `m`. An allocator that
answers with memory in use is wrong: `none`. -/
def create (hp : Heap) (m ret payload : Nat) : Option Heap :=
  match hp m with
  | none => some (hp.set m (some ⟨ret, 0, payload⟩))
  | some _ => none

/-- `message_resource_release` (src/message/message_create.c:110-143), as far as the memory of the message goes. A message that is
not there is undefined behaviour. Simplified: the release of the payload is in `Verif.MsgPay`. -/
def release (hp : Heap) (m : Nat) : Option Heap :=
  match hp m with
  | none => none
  | some _ => some (hp.set m none)

/-- `message_return_address` (src/message/message_return_address.c:31) -/
def returnAddress (hp : Heap) (m : Nat) : Option Nat :=
  match hp m with
  | none => none
  | some r => some r.ret

/-- `message_payload` (src/message/message_payload.c:34-49) -/
def payload (hp : Heap) (m : Nat) (xfer : Bool) : Option (Nat × Heap) :=
  match hp m with
  | none => none
  | some r => some (r.payload, if xfer then hp.set m (some { r with payload := 0 }) else hp)

/-- The release of the messages in a mailbox (src/message/mailbox_resource_create.c:127-129, src/queue/queue_create.c:132-133,
src/slist/slist_create.c:124-129, src/slist/slist_clear.c:39-54): one after the other, up to the first whose release reports an error;
`st i` is what the `i`-th reports, which is the status of `mailbox_close` too. -/
def releaseAll (st : Nat → Status) (hp : Heap) (i : Nat) : List Nat → Option Heap
  | [] => some hp
  | m :: ms =>
    match release hp m with
    | none => none
    | some hp => if st i ≠ SUCCESS then some hp else releaseAll st hp (i + 1) ms

/-- `message_send` stores the address in the message (src/message/message_send.c:50), and the callback reads it there
(message_discipline_message_send_callback_handler.c:59). -/
def store (hp : Heap) (m a : Nat) : Option Heap :=
  match hp m with
  | none => none
  | some r => some (hp.set m (some { r with to := a }))

/-- What a call does to the memory of messages: a send stores the address, closing a mailbox
(src/message/message_discipline_mailbox_close_callback_handler.c:51-52) releases what is in it; `a (i + 1)` answers
the release of the `i`-th message. -/
def callHeap (w : Sys) (hp : Heap) (o : Oracle) : Call → Option Heap
  | .send a m => store hp m a
  | .boxClose a =>
    match w.boxes a with
    | none => some hp
    | some b => releaseAll (fun i => o.a (i + 1)) hp 0 b.msgs
  | _ => some hp

/-- What a program does: a call that gives up control, or something with the message at an address.
Not in the code: a client. -/
inductive Act
  | call (c : Call) (o : Oracle)
  | create (m ret payload : Nat)
  | release (m : Nat)
  | address (m : Nat)
  | look (m : Nat)
  | take (m : Nat)
  | pass (m f : Nat)

structure World where
  w : Sys
  hp : Heap

/-- One step of the program: what was read, the item of the trace, and the world after it. `none` is undefined behaviour.
Passing a message to another fiber does nothing. Not in the code: a client. -/
def run (W : World) : Act → Option (Option Nat × List Item × World)
  | .call c o => (callHeap W.w W.hp o c).map fun hp => (none, [(step W.w c o).2], ⟨(step W.w c o).1, hp⟩)
  | .create m r p => (create W.hp m r p).map fun hp => (some m, [], { W with hp := hp })
  | .release m => (release W.hp m).map fun hp => (none, [], { W with hp := hp })
  | .address m => (returnAddress W.hp m).map fun x => (some x, [], W)
  | .look m => (payload W.hp m false).map fun x => (some x.1, [], { W with hp := x.2 })
  | .take m => (payload W.hp m true).map fun x => (some x.1, [], { W with hp := x.2 })
  | .pass _ _ => some (none, [], W)

end Rcpr.MsgHeap
