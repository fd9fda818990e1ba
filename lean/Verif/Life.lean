import Verif.Status

/-!
Constructors and release methods, as a ledger of what has been acquired and not yet given back: memory,
threads, pthread objects, mappings, descriptors, and resources handed over by the caller.

Every acquisition, every other call of the operating system that can fail, and every attempt to give
something back is answered by a parameter (`Env`). Giving back or using something that is not held is
undefined (`none`). Simplified: contents of objects are left out except for the pointers that decide what
is released; `memset` and initialisation of fields are left out; `allocator_allocate` is one acquisition.
-/
namespace Rcpr.Life

open Rcpr

/-- What can be held. `given`: a resource with a release method of its own, handed over by the caller.
Not in the code: names for what the C library, the kernel and the allocator hand out. -/
inductive Kind
  | mem | attr | thread | pmutex | pcond | map | desc | given
  deriving DecidableEq, Repr

/-- `ask n`: status of the n-th call that acquires something or can fail; `put n`: status of the n-th call
that gives something back. Not in the code: the C library, the kernel and the allocator. -/
structure Env where
  ask : Nat → Status
  put : Nat → Status

/-- `live`: what is held; `next`: the next fresh name; `asks`, `puts`: calls so far.
Not in the code: a record of what is held. -/
structure St where
  live : Nat → Option Kind
  next : Nat
  asks : Nat
  puts : Nat

/-- A program: `none` is undefined behaviour. Not in the code: the way the functions below are written. -/
def M (α : Type) := Env → St → Option (α × St)

instance : Monad M where
  pure a := fun _ s => some (a, s)
  bind x f := fun e s => match x e s with
    | none => none
    | some (a, s') => f a e s'

/-- Acquire something: `allocator_allocate`, `pthread_attr_init`, `pthread_create`, `pthread_mutex_init`,
`pthread_cond_init`, `mmap`, `socket`, `epoll_create1`. (The functions cited below call them.) -/
def get (k : Kind) : M (Except Status Nat) := fun e s =>
  if e.ask s.asks = SUCCESS then
    some (.ok s.next, { s with live := fun i => if i = s.next then some k else s.live i, next := s.next + 1, asks := s.asks + 1 })
  else some (.error (e.ask s.asks), { s with asks := s.asks + 1 })

/-- A call that acquires nothing but may fail: `pthread_attr_setstacksize`, `connect`, `bind`, `listen`,
`gethostbyname2`, `socket_utility_set_nonblock`, `allocator_reallocate` of a block that is kept.
(The functions cited below call them.) -/
def ask : M Status := fun e s => some (e.ask s.asks, { s with asks := s.asks + 1 })

/-- Give something back: `allocator_reclaim`, `pthread_join`, `pthread_mutex_destroy`,
`pthread_cond_destroy`, `munmap`, `resource_release` of a resource of the caller. If it fails, it is still
held. (The functions cited below call them.) -/
def put (k : Kind) (i : Nat) : M Status := fun e s =>
  if s.live i = some k then
    if e.put s.puts = SUCCESS then
      some (SUCCESS, { s with live := fun j => if j = i then none else s.live j, puts := s.puts + 1 })
    else some (e.put s.puts, { s with puts := s.puts + 1 })
  else none

/-- Give something back whose failure the code cannot undo: `close`, `pthread_attr_destroy`. The
descriptor is gone also if `close` reports an error, as on Linux. (The functions cited below call them.) -/
def drop (k : Kind) (i : Nat) : M Status := fun e s =>
  if s.live i = some k then
    some (e.put s.puts, { s with live := fun j => if j = i then none else s.live j, puts := s.puts + 1 })
  else none

/-- Read or write a field of an object in memory. An access to memory that was given back is undefined. -/
def use (i : Nat) : M Unit := fun _ s => if s.live i = some .mem then some ((), s) else none

/-- What a constructor did to the variable of its caller. Not in the code: a record for the specification. -/
inductive Out (H : Type)
  | untouched | null | set (h : H)
  deriving DecidableEq, Repr

/-- `if (STATUS_SUCCESS != new) retval = new;`. As in src/message/mailbox_resource_create.c:98-102. -/
def over (old new : Status) : Status := if new ≠ SUCCESS then new else old

/-- `if (STATUS_SUCCESS != first) return first; else return second;`.
As in src/fiber/common/fiber_scheduler_resource_release.c:68-85. -/
def first (a b : Status) : Status := if a ≠ SUCCESS then a else b

/-! ### Threads -/

/-- What a `thread` holds: the structure, the thread (src/platform/pthread/thread/thread_internal.h). -/
structure Thread where
  p : Nat
  t : Nat
  deriving DecidableEq, Repr

/-- `thread_create` (src/platform/pthread/thread/thread_create.c:72-159) -/
def threadCreate : M (Status × Out Thread) := do
  match ← get .attr with
  | .error _ => pure (ERROR_THREAD_ATTRIBUTE_INIT, .untouched)
  | .ok attr =>
    let st ← ask
    if st ≠ SUCCESS then
      let _ ← drop .attr attr
      pure (ERROR_THREAD_ATTRIBUTE_SETSTACKSIZE, .untouched)
    else
      match ← get .mem with
      | .error _ =>
        let _ ← drop .attr attr
        pure (ERROR_GENERAL_OUT_OF_MEMORY, .untouched)
      | .ok p =>
        match ← get .thread with
        | .error _ =>
          let r ← put .mem p
          let _ ← drop .attr attr
          pure (over ERROR_THREAD_CREATE r, .untouched)
        | .ok t =>
          let _ ← drop .attr attr
          pure (SUCCESS, .set ⟨p, t⟩)

/-- `thread_release` (thread_create.c:190-226); `exit` is the exit code the thread stored. -/
def threadRelease (exit : Status) (h : Thread) : M Status := do
  use h.p
  let j ← put .thread h.t
  use h.p
  let r ← put .mem h.p
  pure (over (if j ≠ SUCCESS then ERROR_THREAD_JOIN else exit) r)

/-- An object that holds one further thing. -/
structure Two where
  p : Nat
  q : Nat
  deriving DecidableEq, Repr

/-- `thread_mutex_create` (src/platform/pthread/thread/thread_mutex_create.c:68-149) -/
def mutexCreate : M (Status × Out Two) := do
  match ← get .mem with
  | .error _ => pure (ERROR_GENERAL_OUT_OF_MEMORY, .untouched)
  | .ok p =>
    match ← get .pmutex with
    | .error _ =>
      let r ← put .mem p
      pure (over ERROR_THREAD_MUTEX_INIT r, .untouched)
    | .ok m => pure (SUCCESS, .set ⟨p, m⟩)

/-- `thread_mutex_release` (thread_mutex_create.c:158-194) -/
def mutexRelease (h : Two) : M Status := do
  use h.p
  let d ← put .pmutex h.q
  use h.p
  let r ← put .mem h.p
  pure (over (if d ≠ SUCCESS then ERROR_THREAD_MUTEX_DESTROY else SUCCESS) r)

/-- `thread_cond_create` (src/platform/pthread/thread/thread_cond_create.c:61-123) -/
def condCreate : M (Status × Out Two) := do
  match ← get .mem with
  | .error _ => pure (ERROR_GENERAL_OUT_OF_MEMORY, .untouched)
  | .ok p =>
    match ← get .pcond with
    | .error _ =>
      let r ← put .mem p
      pure (over ERROR_THREAD_COND_INIT r, .untouched)
    | .ok c => pure (SUCCESS, .set ⟨p, c⟩)

/-- `thread_cond_release` (thread_cond_create.c:132-168) -/
def condRelease (h : Two) : M Status := do
  use h.p
  let d ← put .pcond h.q
  use h.p
  let r ← put .mem h.p
  pure (over (if d ≠ SUCCESS then ERROR_THREAD_COND_DESTROY else SUCCESS) r)

/-! ### Stacks and fibers -/

/-- `stack_create` (src/stack/stack_create.c:75-143) -/
def stackCreate : M (Status × Out Two) := do
  match ← get .mem with
  | .error _ => pure (ERROR_GENERAL_OUT_OF_MEMORY, .untouched)
  | .ok p =>
    match ← get .map with
    | .error _ =>
      let r ← put .mem p
      pure (over ERROR_GENERAL_OUT_OF_MEMORY r, .untouched)
    | .ok m => pure (SUCCESS, .set ⟨p, m⟩)

/-- `stack_release` (stack_create.c:152-173). If the mapping cannot be removed, the structure is not
reclaimed. -/
def stackRelease (h : Two) : M Status := do
  use h.p
  let d ← put .map h.q
  if d ≠ SUCCESS then pure ERROR_STACK_UNMAP
  else put .mem h.p

/-- What a fiber holds: the structure, its stack (src/fiber/common/fiber_internal.h:27-45). -/
structure Fiber where
  p : Nat
  st : Option Two
  deriving DecidableEq, Repr

/-- `fiber_create` (src/fiber/common/fiber_create.c:71-152) -/
def fiberCreate : M (Status × Out Fiber) := do
  match ← get .mem with
  | .error _ => pure (ERROR_GENERAL_OUT_OF_MEMORY, .untouched)
  | .ok p =>
    match ← stackCreate with
    | (_, .set st) =>
      use p
      use st.p
      pure (SUCCESS, .set ⟨p, some st⟩)
    | (a, _) =>
      let r ← put .mem p
      pure (over a r, .untouched)

/-- `fiber_create_for_thread` (src/fiber/common/fiber_create_for_thread.c:63-120) -/
def fiberCreateForThread : M (Status × Out Fiber) := do
  match ← get .mem with
  | .error _ => pure (ERROR_GENERAL_OUT_OF_MEMORY, .untouched)
  | .ok p => pure (SUCCESS, .set ⟨p, none⟩)

/-- `fiber_resource_release` (src/fiber/common/fiber_resource_release.c:29-65) -/
def fiberRelease (h : Fiber) : M Status := do
  use h.p
  let a ← match h.st with
    | some st => stackRelease st
    | none => pure SUCCESS
  use h.p
  let r ← put .mem h.p
  pure (over a r)

/-! ### Containers without elements -/

/-- `slist_create`, `list_create`, `auto_reset_trigger_create` (src/slist/slist_create.c:62-108,
src/list/list_create.c:61-115, src/auto_reset_trigger/auto_reset_trigger_create.c:60-103): one block; the
status of the allocator is passed on. Also `psock_create_from_user_methods` for a vtable without
`release_fn`. -/
def blockCreate : M (Status × Out Nat) := do
  match ← get .mem with
  | .error a => pure (a, .untouched)
  | .ok p => pure (SUCCESS, .set p)

/-- `slist_release`, `list_release` of an empty list, `auto_reset_trigger_release`
(slist_create.c:119-136, list_create.c:126-144, auto_reset_trigger_create.c:114-128) -/
def blockRelease (p : Nat) : M Status := do
  use p
  put .mem p

/-- `rbtree_create` (src/rbtree/rbtree_create.c:75-134) -/
def treeCreate : M (Status × Out Nat) := do
  match ← get .mem with
  | .error _ => pure (ERROR_GENERAL_OUT_OF_MEMORY, .untouched)
  | .ok p => pure (SUCCESS, .set p)

/-- `queue_create` (src/queue/queue_create.c:62-113), `mailbox_resource_create` with the queue as a
parameter: see `mailboxCreate`. -/
def queueCreate : M (Status × Out Two) := do
  match ← get .mem with
  | .error a => pure (a, .untouched)
  | .ok q =>
    match ← blockCreate with
    | (_, .set l) =>
      use q
      pure (SUCCESS, .set ⟨q, l⟩)
    | (a, _) =>
      let r ← put .mem q
      pure (over a r, .untouched)

/-- `queue_release` (queue_create.c:124-147) of a queue without elements. The allocator is read through
the list. -/
def queueRelease (h : Two) : M Status := do
  use h.p
  use h.q
  let a ← blockRelease h.q
  let r ← put .mem h.p
  pure (over a r)

/-- `bigint_create_zero` (src/bigint/bigint_create_zero.c:64-147) and `bigint_clone`
(src/bigint/bigint_clone.c:52-121). A failing reclaim does not replace the status (142, 116). -/
def bigintCreate : M (Status × Out Two) := do
  match ← get .mem with
  | .error a => pure (a, .untouched)
  | .ok p =>
    match ← get .mem with
    | .error a =>
      let _ ← put .mem p
      pure (a, .untouched)
    | .ok arr => pure (SUCCESS, .set ⟨p, arr⟩)

/-- `bigint_release` (src/bigint/bigint_release.c:28-50) -/
def bigintRelease (h : Two) : M Status := do
  use h.p
  use h.q
  let a ← put .mem h.q
  use h.p
  let r ← put .mem h.p
  pure (if r = SUCCESS then a else r)

/-! ### Messages and conditions -/

/-- What a message holds: the structure, its payload (src/message/message_internal.h:24-34). -/
structure Msg where
  p : Nat
  payload : Option Nat
  deriving DecidableEq, Repr

/-- `message_create` (src/message/message_create.c:51-99) -/
def messageCreate (payload : Option Nat) : M (Status × Out Msg) := do
  match ← get .mem with
  | .error a => pure (a, .untouched)
  | .ok p => pure (SUCCESS, .set ⟨p, payload⟩)

/-- `message_resource_release` (message_create.c:110-143) -/
def messageRelease (h : Msg) : M Status := do
  use h.p
  let a ← match h.payload with
    | some x => put .given x
    | none => pure SUCCESS
  let r ← put .mem h.p
  pure (first a r)

/-- What a mailbox holds: the structure, the queue (src/message/message_internal.h:38-48). -/
structure Mailbox where
  p : Nat
  q : Two
  deriving DecidableEq, Repr

/-- `mailbox_resource_create` (src/message/mailbox_resource_create.c:42-106) -/
def mailboxCreate : M (Status × Out Mailbox) := do
  match ← get .mem with
  | .error a => pure (a, .untouched)
  | .ok p =>
    match ← queueCreate with
    | (_, .set q) =>
      use p
      pure (SUCCESS, .set ⟨p, q⟩)
    | (a, _) =>
      let r ← put .mem p
      pure (over a r, .untouched)

/-- `mailbox_resource_release` (mailbox_resource_create.c:117-143) of a mailbox without messages -/
def mailboxRelease (h : Mailbox) : M Status := do
  use h.p
  let a ← queueRelease h.q
  let r ← put .mem h.p
  pure (first a r)

/-- `condition_barrier_create` (src/condition/condition_barrier_create.c:43-106) -/
def barrierCreate : M (Status × Out Two) := do
  match ← get .mem with
  | .error a => pure (a, .untouched)
  | .ok p =>
    match ← blockCreate with
    | (_, .set l) =>
      use p
      pure (SUCCESS, .set ⟨p, l⟩)
    | (a, _) =>
      let r ← put .mem p
      pure (over a r, .untouched)

/-- `condition_barrier_release` (condition_barrier_create.c:117-161) without waiting fibers -/
def barrierRelease (h : Two) : M Status := do
  use h.p
  let a ← blockRelease h.q
  let r ← put .mem h.p
  pure (first a r)

/-- `message_discipline_context_create` (src/message/message_discipline_context_create.c:48-119) and
`condition_discipline_context_create` (src/condition/fiber/condition_discipline_context_create.c:48-120) -/
def contextCreate : M (Status × Out Two) := do
  match ← get .mem with
  | .error a => pure (a, .untouched)
  | .ok p =>
    match ← treeCreate with
    | (_, .set t) =>
      use p
      pure (SUCCESS, .set ⟨p, t⟩)
    | (a, _) =>
      let r ← put .mem p
      pure (over a r, .untouched)

/-- `message_discipline_context_resource_release` (message_discipline_context_create.c:178-211),
`condition_discipline_context_resource_release` (condition_discipline_context_create.c:180-213) of a
context without mailboxes or conditions -/
def contextRelease (h : Two) : M Status := do
  use h.p
  let a ← blockRelease h.q
  use h.p
  let r ← put .mem h.p
  pure (first a r)

/-- What a discipline holds: the structure, `callback_vector`, `callback_codes` (src/fiber/common/fiber_internal.h:86-99). -/
structure Disc where
  p : Nat
  vec : Nat
  codes : Nat
  deriving DecidableEq, Repr

/-- `fiber_scheduler_discipline_create` (src/fiber/common/fiber_scheduler_discipline_create.c:71-175). If
the first reclaim fails, the second is not attempted (160-164). -/
def discCreate : M (Status × Out Disc) := do
  match ← get .mem with
  | .error _ => pure (ERROR_GENERAL_OUT_OF_MEMORY, .untouched)
  | .ok p =>
    match ← get .mem with
    | .error _ =>
      let r ← put .mem p
      pure (over ERROR_GENERAL_OUT_OF_MEMORY r, .untouched)
    | .ok vec =>
      match ← get .mem with
      | .error _ =>
        use p
        let r ← put .mem vec
        if r ≠ SUCCESS then pure (r, .untouched)
        else
          let r ← put .mem p
          pure (over ERROR_GENERAL_OUT_OF_MEMORY r, .untouched)
      | .ok codes => pure (SUCCESS, .set ⟨p, vec, codes⟩)

/-- `fiber_scheduler_discipline_resource_release` (fiber_scheduler_discipline_create.c:186-221) -/
def discRelease (h : Disc) : M Status := do
  use h.p
  let a ← put .mem h.vec
  use h.p
  let b ← put .mem h.codes
  let r ← put .mem h.p
  pure (first a (first b r))

/-! ### Sockets -/

/-- `psock_create_from_descriptor` (src/psock/psock_create_from_descriptor.c:78-129) -/
def descCreate (fd : Nat) : M (Status × Out Two) := do
  match ← get .mem with
  | .error a => pure (a, .untouched)
  | .ok p => pure (SUCCESS, .set ⟨p, fd⟩)

/-- `psock_from_descriptor_release` (src/psock/psock_from_descriptor_release.c:31-46). The status of
`close` is not looked at. -/
def descRelease (h : Two) : M Status := do
  use h.p
  let _ ← drop .desc h.q
  use h.p
  put .mem h.p

/-- The end of `psock_create_from_hostname_and_port` (143-155), from `connect` on -/
def hostnameConnect (fd : Nat) : M (Status × Out Two) := do
  let c ← ask
  if c ≠ SUCCESS then
    let _ ← drop .desc fd
    pure (ERROR_PSOCK_CONNECTION_REFUSED, .untouched)
  else
    match ← descCreate fd with
    | (_, .set h) => pure (SUCCESS, .set h)
    | (a, _) =>
      let _ ← drop .desc fd
      pure (a, .untouched)

/-- `psock_create_from_hostname_and_port` (src/psock/psock_create_from_hostname_and_port.c:65-159) -/
def hostnameCreate : M (Status × Out Two) := do
  let v4 ← ask
  if v4 = SUCCESS then
    match ← get .desc with
    | .error _ => pure (ERROR_PSOCK_SOCKET_CREATE, .untouched)
    | .ok fd => hostnameConnect fd
  else
    let v6 ← ask
    if v6 ≠ SUCCESS then pure (ERROR_PSOCK_HOSTNAME_LOOKUP_FAILURE, .untouched)
    else
      match ← get .desc with
      | .error _ => pure (ERROR_PSOCK_SOCKET_CREATE, .untouched)
      | .ok fd => hostnameConnect fd

/-- `psock_create_from_listen_address`, label `cleanup_socket`
(src/psock/psock_create_from_listen_address.c:111-119) -/
def listenCleanup (fd : Nat) (st : Status) : M (Status × Out Two) := do
  let c ← drop .desc fd
  pure (if c ≠ SUCCESS then ERROR_PSOCK_CREATE_FROM_ADDRESS_CLOSE else st, .untouched)

/-- `psock_create_from_listen_address` (src/psock/psock_create_from_listen_address.c:62-120) -/
def listenCreate : M (Status × Out Two) := do
  match ← get .desc with
  | .error _ => pure (ERROR_PSOCK_CREATE_FROM_ADDRESS_SOCKET_CREATE, .untouched)
  | .ok fd =>
    let b ← ask
    if b ≠ SUCCESS then listenCleanup fd ERROR_PSOCK_CREATE_FROM_ADDRESS_BIND
    else
      let l ← ask
      if l ≠ SUCCESS then listenCleanup fd ERROR_PSOCK_CREATE_FROM_ADDRESS_LISTEN
      else
        match ← descCreate fd with
        | (_, .set h) => pure (SUCCESS, .set h)
        | (a, _) => listenCleanup fd a

/-- `psock_create_from_user_methods` (src/psock/psock_create_from_user_methods.c:92-146); the resource
that the user's `release_fn` gives back, if there is one -/
def userCreate (rel : Option Nat) : M (Status × Out Msg) := do
  match ← get .mem with
  | .error a => pure (a, .untouched)
  | .ok p => pure (SUCCESS, .set ⟨p, rel⟩)

/-- `psock_from_user_methods_release` (psock_create_from_user_methods.c:158-191) -/
def userRelease (h : Msg) : M Status := do
  use h.p
  let a ← match h.payload with
    | some x => put .given x
    | none => pure SUCCESS
  use h.p
  let r ← put .mem h.p
  pure (over a r)

/-- What a psock for buffers holds (src/psock/psock_internal.h:92-103). -/
structure Buf where
  p : Nat
  inp : Option Nat
  out : Option Nat
  queue : Option Nat
  deriving DecidableEq, Repr

/-- `if (NULL != p) reclaim(p)`. As in src/psock/psock_from_buffer_release.c. -/
def putIf (x : Option Nat) : M Status :=
  match x with
  | some i => put .mem i
  | none => pure SUCCESS

/-- `psock_from_buffer_release` (src/psock/psock_from_buffer_release.c:33-88); no elements in the output
queue -/
def bufRelease (h : Buf) : M Status := do
  use h.p
  let a ← putIf h.inp
  use h.p
  let b ← putIf h.out
  use h.p
  let c ← match h.queue with
    | some l => blockRelease l
    | none => pure SUCCESS
  use h.p
  let r ← put .mem h.p
  pure (first a (first b (first c r)))

/-- `psock_create_from_buffer` (src/psock/psock_create_from_buffer.c:80-183); `reading`: `buffer` is not
NULL -/
def bufCreate (reading : Bool) : M (Status × Out Buf) := do
  match ← get .mem with
  | .error a => pure (a, .untouched)
  | .ok p =>
    if reading then
      match ← get .mem with
      | .error a =>
        let r ← bufRelease ⟨p, none, none, none⟩
        pure (over a r, .untouched)
      | .ok i => pure (SUCCESS, .set ⟨p, some i, none, none⟩)
    else
      match ← blockCreate with
      | (_, .set l) =>
        match ← get .mem with
        | .error a =>
          let r ← bufRelease ⟨p, none, none, some l⟩
          pure (over a r, .untouched)
        | .ok o => pure (SUCCESS, .set ⟨p, none, some o, some l⟩)
      | (a, _) =>
        let r ← bufRelease ⟨p, none, none, none⟩
        pure (over a r, .untouched)

/-- What a buffered reader holds (src/psock/psock_internal.h:50-62). -/
structure Br where
  p : Nat
  buffer : Option Nat
  deriving DecidableEq, Repr

/-- `psock_br_release` (src/psock/psock_br_release.c:27-62) -/
def brRelease (h : Br) : M Status := do
  use h.p
  let a ← putIf h.buffer
  use h.p
  let r ← put .mem h.p
  pure (first a r)

/-- `psock_br_create_from_psock` (src/psock/psock_br_create_from_psock.c:69-139). Line 132 tests `retval`
where `release_retval` is meant. -/
def brCreate : M (Status × Out Br) := do
  match ← get .mem with
  | .error a => pure (a, .untouched)
  | .ok p =>
    match ← get .mem with
    | .error _ =>
      let r ← brRelease ⟨p, none⟩
      pure (r, .untouched)
    | .ok b => pure (SUCCESS, .set ⟨p, some b⟩)

/-- `psock_fiber_scheduler_discipline_context_create`
(src/psock/platform/epoll/psock_fiber_scheduler_discipline_context_create.c:43-112) -/
def epollCreate : M (Status × Out Two) := do
  match ← get .mem with
  | .error a => pure (a, .untouched)
  | .ok p =>
    match ← get .desc with
    | .error _ =>
      let r ← put .mem p
      pure (over ERROR_PSOCK_EPOLL_CREATE_FAILED r, .untouched)
    | .ok fd => pure (SUCCESS, .set ⟨p, fd⟩)

/-- `psock_io_epoll_context_resource_release` (the same file, 123-142) -/
def epollRelease (h : Two) : M Status := do
  use h.p
  let _ ← drop .desc h.q
  use h.p
  put .mem h.p

/-- `psock_fiber_scheduler_discipline_context_create`
(src/psock/platform/poll/psock_fiber_scheduler_discipline_context_create.c:42-141) -/
def pollCreate : M (Status × Out Disc) := do
  match ← get .mem with
  | .error a => pure (a, .untouched)
  | .ok p =>
    match ← get .mem with
    | .error a =>
      let r ← put .mem p
      pure (over a r, .untouched)
    | .ok events =>
      match ← get .mem with
      | .error a =>
        use p
        let r ← put .mem events
        let r' ← put .mem p
        pure (over (over a r) r', .untouched)
      | .ok fibers => pure (SUCCESS, .set ⟨p, events, fibers⟩)

/-- `psock_io_poll_context_resource_release` (the same file, 152-197) -/
def pollRelease (h : Disc) : M Status := do
  use h.p
  use h.vec
  let a ← put .mem h.vec
  use h.codes
  let b ← put .mem h.codes
  use h.p
  let r ← put .mem h.p
  pure (first a (first b r))

/-- A discipline whose context is released with it (`discipline_cache`, src/message/message_internal.h:60). -/
structure Chained where
  ctx : Two
  disc : Disc
  deriving DecidableEq, Repr

/-- `psock_fiber_scheduler_discipline_create` (src/psock/psock_fiber_scheduler_discipline_create.c:40-96)
on a platform with epoll -/
def ioDiscCreate : M (Status × Out Chained) := do
  match ← epollCreate with
  | (_, .set c) =>
    match ← discCreate with
    | (_, .set d) =>
      use d.p
      use c.p
      pure (SUCCESS, .set ⟨c, d⟩)
    | (a, _) =>
      let r ← epollRelease c
      pure (over a r, .untouched)
  | (a, _) => pure (a, .untouched)

/-- `psock_epoll_discipline_chained_release`
(src/psock/platform/epoll/psock_fiber_scheduler_discipline_set_resource_release.c:63-91) -/
def ioDiscRelease (h : Chained) : M Status := do
  use h.disc.p
  use h.ctx.p
  let a ← epollRelease h.ctx
  use h.disc.p
  let r ← discRelease h.disc
  pure (first a r)

/-- `psock_create_wrap_async` (src/psock/psock_create_wrap_async.c:158-224), from the allocation of the
wrapper on; `child` is the wrapped psock -/
def asyncCreate (child : Nat) : M (Status × Out Two) := do
  match ← get .mem with
  | .error a => pure (a, .untouched)
  | .ok p =>
    let n ← ask
    if n ≠ SUCCESS then
      let r ← put .mem p
      pure (over n r, .untouched)
    else pure (SUCCESS, .set ⟨p, child⟩)

/-- `psock_wrap_async_release` (psock_create_wrap_async.c:235-263) -/
def asyncRelease (h : Two) : M Status := do
  use h.p
  let a ← put .given h.q
  use h.p
  let r ← put .mem h.p
  pure (first a r)

end Rcpr.Life
