import Verif.LifeWp

/-!
Properties of constructors and release methods: C60–C62.
-/
namespace Rcpr.Life

open Rcpr

/-- What `own` describes is given back by `m`, whenever `m` is run, and nothing else is touched. If `m`
reports success, or nothing is refused, then everything is gone. -/
def Releases (m : M Status) (own : Nat → Prop) (s : St) : Prop :=
  ∀ e t, t.Ok → (∀ i, own i → t.live i = s.live i) →
    ∃ st t', m e t = some (st, t') ∧ t'.Ok ∧
      (∀ i, ¬ own i → t'.live i = t.live i) ∧
      (e.Good → st = SUCCESS) ∧
      (st = SUCCESS → ∀ i, own i → t'.live i = none)

/-- The contract of a constructor and its release method. `args` is what the constructor takes over when
it succeeds. -/
def Contract {H : Type} (create : M (Status × Out H)) (release : H → M Status) (args : List (Nat × Kind)) : Prop :=
  ∀ e s, s.Ok → (∀ a ∈ args, s.live a.1 = some a.2) →
    ∃ st o s', create e s = some ((st, o), s') ∧ s'.Ok ∧
      (st = SUCCESS ↔ ∃ h, o = .set h) ∧
      (e.Willing → st = SUCCESS) ∧
      (∀ i, i < s.next → s'.live i = s.live i) ∧
      (st ≠ SUCCESS → e.Good → ∀ i, s'.live i = s.live i) ∧
      ∀ h, o = .set h →
        Releases (release h) (fun i => s.next ≤ i ∧ s'.live i ≠ none ∨ i ∈ args.map (·.1)) s'

section tools

variable {H : Type} {release : H → M Status} {args : List (Nat × Kind)} {e : Env} {s : St}

/-- The last part of `Contract`. -/
private def Post (release : H → M Status) (args : List (Nat × Kind)) (e : Env) (s : St) (r : Status × Out H)
    (s' : St) : Prop :=
  s'.Ok ∧ (r.1 = SUCCESS ↔ ∃ h, r.2 = .set h) ∧ (e.Willing → r.1 = SUCCESS) ∧ (∀ i, i < s.next → s'.live i = s.live i) ∧
    (r.1 ≠ SUCCESS → e.Good → ∀ i, s'.live i = s.live i) ∧
    ∀ h, r.2 = .set h →
      Releases (release h) (fun i => s.next ≤ i ∧ s'.live i ≠ none ∨ i ∈ args.map (·.1)) s'

private theorem contract_of {create : M (Status × Out H)}
    (h : ∀ e s, s.Ok → (∀ a ∈ args, s.live a.1 = some a.2) → wp create e s (Post release args e s)) :
    Contract create release args := by
  intro e s ok ha
  obtain ⟨⟨st, o⟩, s', h1, h2⟩ := h e s ok ha
  exact ⟨st, o, s', h1, h2⟩

private theorem post_fail {st : Status} {s' : St} (h1 : st ≠ SUCCESS) (hw : ¬ e.Willing) (h2 : s'.Ok)
    (h3 : ∀ i, i < s.next → s'.live i = s.live i) (h4 : e.Good → ∀ i, s'.live i = s.live i) :
    Post release args e s (st, .untouched) s' :=
  ⟨h2, ⟨fun h => absurd h h1, fun ⟨_, h⟩ => by cases h⟩, fun w => absurd w hw, h3, fun _ g => h4 g, fun _ h => by cases h⟩

private theorem post_ok {h : H} {s' : St} (h2 : s'.Ok)
    (h3 : ∀ i, i < s.next → s'.live i = s.live i)
    (h4 : ∀ e t, t.Ok → (∀ i, (s.next ≤ i ∧ s'.live i ≠ none ∨ i ∈ args.map (·.1)) → t.live i = s'.live i) →
      wp (release h) e t fun st t' =>
        t'.Ok ∧ (∀ i, ¬ (s.next ≤ i ∧ s'.live i ≠ none ∨ i ∈ args.map (·.1)) → t'.live i = t.live i) ∧
        (e.Good → st = SUCCESS) ∧
        (st = SUCCESS → ∀ i, (s.next ≤ i ∧ s'.live i ≠ none ∨ i ∈ args.map (·.1)) → t'.live i = none)) :
    Post release args e s (SUCCESS, .set h) s' := by
  refine ⟨h2, ⟨fun _ => ⟨h, rfl⟩, fun _ => rfl⟩, fun _ => rfl, h3, fun g => absurd rfl g, ?_⟩
  intro h' hh
  cases hh
  intro e t ok ht
  exact h4 e t ok ht

end tools

/-- The error codes of the modelled functions are errors. -/
theorem errors_differ :
    ERROR_GENERAL_OUT_OF_MEMORY ≠ SUCCESS ∧ ERROR_THREAD_ATTRIBUTE_INIT ≠ SUCCESS ∧
    ERROR_THREAD_ATTRIBUTE_SETSTACKSIZE ≠ SUCCESS ∧ ERROR_THREAD_CREATE ≠ SUCCESS ∧ ERROR_THREAD_JOIN ≠ SUCCESS ∧
    ERROR_THREAD_MUTEX_INIT ≠ SUCCESS ∧ ERROR_THREAD_MUTEX_DESTROY ≠ SUCCESS ∧ ERROR_THREAD_COND_INIT ≠ SUCCESS ∧
    ERROR_THREAD_COND_DESTROY ≠ SUCCESS ∧ ERROR_STACK_UNMAP ≠ SUCCESS ∧ ERROR_PSOCK_CONNECTION_REFUSED ≠ SUCCESS ∧
    ERROR_PSOCK_HOSTNAME_LOOKUP_FAILURE ≠ SUCCESS ∧ ERROR_PSOCK_SOCKET_CREATE ≠ SUCCESS ∧
    ERROR_PSOCK_CREATE_FROM_ADDRESS_SOCKET_CREATE ≠ SUCCESS ∧ ERROR_PSOCK_CREATE_FROM_ADDRESS_BIND ≠ SUCCESS ∧
    ERROR_PSOCK_CREATE_FROM_ADDRESS_LISTEN ≠ SUCCESS ∧ ERROR_PSOCK_CREATE_FROM_ADDRESS_CLOSE ≠ SUCCESS ∧
    ERROR_PSOCK_EPOLL_CREATE_FAILED ≠ SUCCESS := by decide

local macro "fin" : tactic => `(tactic|
  (have := errors_differ
   grind (ext := false) (gen := 24) (ematch := 20) (splits := 24) [St.Ok, over_eq, first_eq]))

/-- Proves a contract by running the constructor and, where it succeeds, the release method. -/
local macro "contract" "[" c:ident,* "]" "[" r:ident,* "]" : tactic => `(tactic|
  (apply contract_of
   intro e s ok ha
   try simp only [List.mem_cons, List.not_mem_nil, or_false, forall_eq] at ha
   unfold $[$c]*
   wps
   all_goals first
     | (apply post_fail <;> fin)
     | (apply post_ok
        · fin
        · fin
        · intro e t ok ht
          simp only [List.map_cons, List.map_nil, List.mem_cons, List.not_mem_nil, or_false] at ht ⊢
          try unfold $[$r]*
          wps
          all_goals (refine ⟨?_, ?_, ?_, ?_⟩ <;> fin))))

theorem thread_contract : Contract threadCreate (threadRelease SUCCESS) [] := by
  contract [threadCreate] [threadRelease]

theorem mutex_contract : Contract mutexCreate mutexRelease [] := by
  contract [mutexCreate] [mutexRelease]

theorem cond_contract : Contract condCreate condRelease [] := by
  contract [condCreate] [condRelease]

theorem stack_contract : Contract stackCreate stackRelease [] := by
  contract [stackCreate] [stackRelease]

theorem fiber_contract : Contract fiberCreate fiberRelease [] := by
  contract [fiberCreate, stackCreate] [fiberRelease, stackRelease]

theorem fiber_for_thread_contract : Contract fiberCreateForThread fiberRelease [] := by
  contract [fiberCreateForThread] [fiberRelease]

theorem block_contract : Contract blockCreate blockRelease [] := by
  contract [blockCreate] [blockRelease]

theorem tree_contract : Contract treeCreate blockRelease [] := by
  contract [treeCreate] [blockRelease]

theorem queue_contract : Contract queueCreate queueRelease [] := by
  contract [queueCreate, blockCreate] [queueRelease, blockRelease]

theorem bigint_contract : Contract bigintCreate bigintRelease [] := by
  contract [bigintCreate] [bigintRelease]

theorem message_contract (payload : Nat) : Contract (messageCreate (some payload)) messageRelease [(payload, .given)] := by
  contract [messageCreate] [messageRelease]

theorem empty_message_contract : Contract (messageCreate none) messageRelease [] := by
  contract [messageCreate] [messageRelease]

theorem mailbox_contract : Contract mailboxCreate mailboxRelease [] := by
  contract [mailboxCreate, queueCreate, blockCreate] [mailboxRelease, queueRelease, blockRelease]

theorem barrier_contract : Contract barrierCreate barrierRelease [] := by
  contract [barrierCreate, blockCreate] [barrierRelease, blockRelease]

theorem context_contract : Contract contextCreate contextRelease [] := by
  contract [contextCreate, treeCreate] [contextRelease, blockRelease]

theorem discipline_contract : Contract discCreate discRelease [] := by
  contract [discCreate] [discRelease]

theorem descriptor_contract (fd : Nat) : Contract (descCreate fd) descRelease [(fd, .desc)] := by
  contract [descCreate] [descRelease]

theorem hostname_contract : Contract hostnameCreate descRelease [] := by
  contract [hostnameCreate, hostnameConnect, descCreate] [descRelease]

theorem listen_contract : Contract listenCreate descRelease [] := by
  contract [listenCreate, listenCleanup, descCreate] [descRelease]

theorem user_contract (x : Nat) : Contract (userCreate (some x)) userRelease [(x, .given)] := by
  contract [userCreate] [userRelease]

theorem empty_user_contract : Contract (userCreate none) userRelease [] := by
  contract [userCreate] [userRelease]

theorem input_buffer_contract : Contract (bufCreate true) bufRelease [] := by
  contract [bufCreate, blockCreate, bufRelease, putIf, blockRelease] [bufRelease, putIf, blockRelease]

theorem output_buffer_contract : Contract (bufCreate false) bufRelease [] := by
  contract [bufCreate, blockCreate, bufRelease, putIf, blockRelease] [bufRelease, putIf, blockRelease]

theorem epoll_contract : Contract epollCreate epollRelease [] := by
  contract [epollCreate] [epollRelease]

theorem poll_contract : Contract pollCreate pollRelease [] := by
  contract [pollCreate] [pollRelease]

set_option maxHeartbeats 2000000 in
theorem io_discipline_contract : Contract ioDiscCreate ioDiscRelease [] := by
  contract [ioDiscCreate, epollCreate, discCreate, epollRelease] [ioDiscRelease, epollRelease, discRelease]

theorem async_contract (child : Nat) : Contract (asyncCreate child) asyncRelease [(child, .given)] := by
  contract [asyncCreate] [asyncRelease]

/-! ### What the contract leaves open -/

/-- The contract without the status: a constructor that sets no handle leaves nothing behind. -/
def Keeps {H : Type} (create : M (Status × Out H)) (release : H → M Status) : Prop :=
  ∀ e s, s.Ok → ∃ st o s', create e s = some ((st, o), s') ∧ s'.Ok ∧
    (∀ i, i < s.next → s'.live i = s.live i) ∧
    ((∀ h, o ≠ .set h) → e.Good → ∀ i, s'.live i = s.live i) ∧
    ∀ h, o = .set h → Releases (release h) (fun i => s.next ≤ i ∧ s'.live i ≠ none) s'

theorem Contract.keeps {H : Type} {create : M (Status × Out H)} {release : H → M Status}
    (h : Contract create release []) : Keeps create release := by
  intro e s ok
  obtain ⟨st, o, s', h1, h2, h3, _, h4, h5, h6⟩ := h e s ok (by simp)
  refine ⟨st, o, s', h1, h2, h4, fun hn g => h5 (fun c => ?_) g, fun x hx => ?_⟩
  · obtain ⟨x, hx⟩ := h3.1 c
    exact hn x hx
  · simpa using h6 x hx

/-- C60 for the buffered reader (what holds): nothing is left behind or freed twice. Missing: a failure to
allocate the buffer is reported as success (`br_reports_violated`). -/
theorem br_contract_partial : Keeps brCreate brRelease := by
  intro e s ok
  suffices h : wp brCreate e s fun r s' => s'.Ok ∧ (∀ i, i < s.next → s'.live i = s.live i) ∧
      ((∀ h, r.2 ≠ .set h) → e.Good → ∀ i, s'.live i = s.live i) ∧
      ∀ h, r.2 = .set h → Releases (brRelease h) (fun i => s.next ≤ i ∧ s'.live i ≠ none) s' by
    obtain ⟨⟨st, o⟩, s', h1, h2⟩ := h
    exact ⟨st, o, s', h1, h2⟩
  unfold brCreate brRelease putIf
  wps
  all_goals refine ⟨by fin, by fin, ?_, ?_⟩
  all_goals first
    | (intro h; cases h; done)
    | (intro h; exact absurd rfl (h _))
    | (intro _; fin)
    | (intro h hh
       cases hh
       intro e t ok ht
       suffices h : wp _ e t _ from h
       dsimp only
       wps
       all_goals (refine ⟨?_, ?_, ?_, ?_⟩ <;> fin))

/-- `n` acquisitions succeed, the next one fails. -/
def failing (n : Nat) (st : Status) : Env := ⟨fun k => if k = n then st else SUCCESS, fun _ => SUCCESS⟩

/-- No answer is a failure. -/
def smooth : Env := ⟨fun _ => SUCCESS, fun _ => SUCCESS⟩

/-- Nothing is held. -/
def empty : St := ⟨fun _ => none, 0, 0, 0⟩

/-- The caller holds a resource and a descriptor. -/
def caller : St := ⟨fun i => if i = 0 then some .given else if i = 1 then some .desc else none, 2, 0, 0⟩

/-- What can be seen after a call, in a world with few objects. -/
def look {α : Type} (r : Option (α × St)) : Option (α × List (Option Kind)) :=
  r.map fun (a, s) => (a, (List.range 8).map s.live)

private theorem empty_ok : empty.Ok := fun _ _ => rfl

private theorem caller_ok : caller.Ok := by
  intro i hi
  have hi : 2 ≤ i := hi
  show (if i = 0 then some Kind.given else if i = 1 then some .desc else none) = none
  rw [if_neg (by omega), if_neg (by omega)]

private theorem failing_good (n : Nat) (st : Status) : (failing n st).Good := fun _ => rfl

-- Concrete cases: each constructor succeeds, fails half-way, and its release empties the ledger.
example : look (threadCreate smooth empty) = some ((SUCCESS, .set ⟨1, 2⟩), [none, some .mem, some .thread] ++ List.replicate 5 none) := by
  decide

example : look (threadCreate (failing 3 11#32) empty) = some ((ERROR_THREAD_CREATE, .untouched), List.replicate 8 none) := by
  decide

example : look (fiberCreate smooth caller)
      = some ((SUCCESS, .set ⟨2, some ⟨3, 4⟩⟩), [some .given, some .desc, some .mem, some .mem, some .map] ++ List.replicate 3 none) ∧
    look ((do let (_, o) ← fiberCreate
              match o with
              | .set h => fiberRelease h
              | _ => pure ERROR_GENERAL_OUT_OF_MEMORY : M Status) smooth caller)
      = some (SUCCESS, [some .given, some .desc] ++ List.replicate 6 none) := by decide

example : look (mailboxCreate (failing 2 ERROR_GENERAL_OUT_OF_MEMORY) empty)
    = some ((ERROR_GENERAL_OUT_OF_MEMORY, .untouched), List.replicate 8 none) := by decide

example : look (descCreate 1 (failing 0 ERROR_GENERAL_OUT_OF_MEMORY) caller)
      = some ((ERROR_GENERAL_OUT_OF_MEMORY, .untouched), [some .given, some .desc] ++ List.replicate 6 none) ∧
    look ((do let (_, o) ← descCreate 1
              match o with
              | .set h => descRelease h
              | _ => pure ERROR_GENERAL_OUT_OF_MEMORY : M Status) smooth caller)
      = some (SUCCESS, [some .given] ++ List.replicate 7 none) := by decide

example : caller.Ok ∧ empty.Ok ∧ (failing 2 ERROR_GENERAL_OUT_OF_MEMORY).Good ∧ smooth.Willing ∧
    (∀ a ∈ [((1 : Nat), Kind.desc)], caller.live a.1 = some a.2) := by
  refine ⟨caller_ok, empty_ok, failing_good _ _, fun _ => rfl, ?_⟩
  simp [caller]

/-- C60 (violated): if the buffer cannot be allocated, the buffered reader's constructor reports success
without setting its result. -/
theorem br_reports_violated {s : St} (e : Env) (g : e.Good) (h0 : e.ask s.asks = SUCCESS)
    (h1 : e.ask (s.asks + 1) ≠ SUCCESS) : ∃ s', brCreate e s = some ((SUCCESS, .untouched), s') := by
  refine ⟨⟨fun j => if j = s.next then none else if j = s.next then some .mem else s.live j, s.next + 1, s.asks + 2, s.puts + 1⟩, ?_⟩
  simp [brCreate, bind, get, h0, h1, brRelease, use, putIf, pure, put, g _, first]

example : look (brCreate (failing 1 ERROR_GENERAL_OUT_OF_MEMORY) empty)
    = some ((SUCCESS, .untouched), List.replicate 8 none) := by decide

/-- C61: releasing a thread joins it first, returns its exit code, and gives everything back. -/
theorem thread_release_exit_code (exit : Status) {h : Thread} {e : Env} {s : St} (g : e.Good) (hp : s.live h.p = some .mem)
    (ht : s.live h.t = some .thread) :
    ∃ s', threadRelease exit h e s = some (exit, s') ∧ s'.live h.p = none ∧ s'.live h.t = none := by
  suffices w : wp (threadRelease exit h) e s fun st s' => st = exit ∧ s'.live h.p = none ∧ s'.live h.t = none by
    obtain ⟨st, s', h1, rfl, h2⟩ := w
    exact ⟨s', h1, h2⟩
  unfold threadRelease
  wps
  all_goals first
    | contradiction
    | (refine ⟨by simp [over], by grind (ext := false), by grind (ext := false)⟩)

/-- C61 (violated): a thread that could not be joined is forgotten all the same: its structure is
reclaimed while the thread still runs. -/
theorem thread_join_failure_violated : ∃ e s s',
    threadRelease SUCCESS ⟨0, 1⟩ e s = some (ERROR_THREAD_JOIN, s') ∧ s'.live 0 = none ∧ s'.live 1 = some .thread := by
  refine ⟨⟨fun _ => SUCCESS, fun n => if n = 0 then 35#32 else SUCCESS⟩,
    ⟨fun i => if i = 0 then some .mem else if i = 1 then some .thread else none, 2, 0, 0⟩, _, rfl, rfl, rfl⟩

/-- C61 (violated): if the stack of a fiber cannot be unmapped, releasing the fiber leaves the mapping and
also the stack structure behind, although its memory could have been reclaimed. -/
theorem fiber_release_violated : ∃ e s s',
    fiberRelease ⟨0, some ⟨1, 2⟩⟩ e s = some (ERROR_STACK_UNMAP, s') ∧ s'.live 0 = none ∧
      s'.live 1 = some .mem ∧ s'.live 2 = some .map := by
  refine ⟨⟨fun _ => SUCCESS, fun n => if n = 0 then 12#32 else SUCCESS⟩,
    ⟨fun i => if i = 2 then some .map else if i < 2 then some .mem else none, 3, 0, 0⟩, _, rfl, rfl, rfl, rfl⟩

end Rcpr.Life
