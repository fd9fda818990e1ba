import Verif.Props.Life

/-!
Property C64: what a release method does when one of its steps is refused.
-/
namespace Rcpr.Life

open Rcpr

/-- Of all that is given back, only what is given back in the `k`-th call may be refused. Not in the code: an
assumption on the allocator and the kernel. -/
def Env.AllBut (e : Env) (k : Nat) : Prop := ∀ n, n ≠ k → e.put n = SUCCESS

/-- Whenever `m` is run and one step of it is refused, at most one of the things `own` describes is still held;
if there is one, `m` reports an error, and nothing else is touched. -/
def Spares (m : M Status) (own : Nat → Prop) (s : St) : Prop :=
  ∀ e t k, e.AllBut k → t.Ok → (∀ i, own i → t.live i = s.live i) →
    ∃ st t', m e t = some (st, t') ∧
      (∀ i, ¬ own i → t'.live i = t.live i) ∧
      (∀ i, own i → t'.live i ≠ none → st ≠ SUCCESS) ∧
      (∀ i j, own i → own j → t'.live i ≠ none → t'.live j ≠ none → i = j)

/-- `Spares` for the objects of a constructor: what it acquired or took over. -/
def GivesRest {H : Type} (create : M (Status × Out H)) (release : H → M Status) (args : List (Nat × Kind)) : Prop :=
  ∀ e s, s.Ok → (∀ a ∈ args, s.live a.1 = some a.2) → ∀ st h s', create e s = some ((st, .set h), s') →
    Spares (release h) (fun i => s.next ≤ i ∧ s'.live i ≠ none ∨ i ∈ args.map (·.1)) s'

section tools

variable {H : Type} {release : H → M Status} {args : List (Nat × Kind)}

private theorem rest_of {create : M (Status × Out H)}
    (h : ∀ e s, s.Ok → (∀ a ∈ args, s.live a.1 = some a.2) → wp create e s fun r s' => ∀ x, r.2 = .set x →
      Spares (release x) (fun i => s.next ≤ i ∧ s'.live i ≠ none ∨ i ∈ args.map (·.1)) s') :
    GivesRest create release args := by
  intro e s ok ha st x s' hc
  obtain ⟨⟨st', o⟩, s'', h1, h2⟩ := h e s ok ha
  rw [hc] at h1
  cases h1
  exact h2 x rfl

/-- `wp_put` that remembers which call was refused. -/
private theorem wp_put' {k i e s b} {Q : Status → St → Prop} (hb : e.AllBut b) (h0 : s.live i = some k)
    (h1 : ∀ a s', a ≠ SUCCESS → s.puts = b → (∀ i, s'.live i = s.live i) → s'.next = s.next → s'.puts = s.puts + 1 → Q a s')
    (h2 : ∀ s', (∀ j, s'.live j = if j = i then none else s.live j) → s'.next = s.next → s'.puts = s.puts + 1 → Q SUCCESS s') :
    wp (put k i) e s Q := by
  unfold wp put
  rw [if_pos h0]
  by_cases h : e.put s.puts = SUCCESS
  · rw [if_pos h]; exact ⟨_, _, rfl, h2 _ (fun _ => rfl) rfl rfl⟩
  · rw [if_neg h]
    exact ⟨_, _, rfl, h1 _ _ h (Decidable.byContradiction fun c => h (hb _ c)) (fun _ => rfl) rfl rfl⟩

private theorem wp_drop' {k i e s} {Q : Status → St → Prop} (h0 : s.live i = some k)
    (h : ∀ a s', (∀ j, s'.live j = if j = i then none else s.live j) → s'.next = s.next → s'.puts = s.puts + 1 → Q a s') :
    wp (drop k i) e s Q := by
  unfold wp drop
  rw [if_pos h0]
  exact ⟨_, _, rfl, h _ _ (fun _ => rfl) rfl rfl⟩

end tools

local macro "fin" : tactic => `(tactic|
  (have := errors_differ
   grind (ext := false) (gen := 24) (ematch := 20) (splits := 24) [St.Ok, over_eq, first_eq]))

/-- Runs a release method of which one step is refused. -/
local macro "wpk" hb:ident : tactic => `(tactic|
  repeat' (first
    | (dsimp only)
    | (with_reducible apply wp_bind)
    | (with_reducible apply wp_pure)
    | (with_reducible apply wp_ite <;> intros)
    | (with_reducible refine wp_use (by grind (ext := false) (gen := 24) (ematch := 20) (splits := 24) [St.Ok]) ?_)
    | (with_reducible refine wp_put' $hb (by grind (ext := false) (gen := 24) (ematch := 20) (splits := 24) [St.Ok]) ?_ ?_ <;> intros)
    | (with_reducible refine wp_drop' (by grind (ext := false) (gen := 24) (ematch := 20) (splits := 24) [St.Ok]) ?_ <;> intros)))

local macro "rest" "[" c:ident,* "]" "[" r:ident,* "]" : tactic => `(tactic|
  (apply rest_of
   intro e s ok ha
   try simp only [List.mem_cons, List.not_mem_nil, or_false, forall_eq] at ha
   unfold $[$c]*
   wps
   all_goals
     intro x hx
     first
     | (cases hx; done)
     | (cases hx
        intro e t k hb ok ht
        suffices h : wp _ e t _ from h
        try simp only [List.map_cons, List.map_nil, List.mem_cons, List.not_mem_nil, or_false] at ht ⊢
        try unfold $[$r]*
        wpk hb
        all_goals (refine ⟨?_, ?_, ?_⟩ <;> fin))))

theorem thread_rest : GivesRest threadCreate (threadRelease SUCCESS) [] := by
  rest [threadCreate] [threadRelease]

theorem mutex_rest : GivesRest mutexCreate mutexRelease [] := by
  rest [mutexCreate] [mutexRelease]

theorem cond_rest : GivesRest condCreate condRelease [] := by
  rest [condCreate] [condRelease]

theorem block_rest : GivesRest blockCreate blockRelease [] := by
  rest [blockCreate] [blockRelease]

theorem queue_rest : GivesRest queueCreate queueRelease [] := by
  rest [queueCreate, blockCreate] [queueRelease, blockRelease]

theorem bigint_rest : GivesRest bigintCreate bigintRelease [] := by
  rest [bigintCreate] [bigintRelease]

theorem message_rest (payload : Nat) : GivesRest (messageCreate (some payload)) messageRelease [(payload, .given)] := by
  rest [messageCreate] [messageRelease]

theorem mailbox_rest : GivesRest mailboxCreate mailboxRelease [] := by
  rest [mailboxCreate, queueCreate, blockCreate] [mailboxRelease, queueRelease, blockRelease]

theorem barrier_rest : GivesRest barrierCreate barrierRelease [] := by
  rest [barrierCreate, blockCreate] [barrierRelease, blockRelease]

theorem context_rest : GivesRest contextCreate contextRelease [] := by
  rest [contextCreate, treeCreate] [contextRelease, blockRelease]

theorem discipline_rest : GivesRest discCreate discRelease [] := by
  rest [discCreate] [discRelease]

theorem descriptor_rest (fd : Nat) : GivesRest (descCreate fd) descRelease [(fd, .desc)] := by
  rest [descCreate] [descRelease]

theorem hostname_rest : GivesRest hostnameCreate descRelease [] := by
  rest [hostnameCreate, hostnameConnect, descCreate] [descRelease]

theorem listen_rest : GivesRest listenCreate descRelease [] := by
  rest [listenCreate, listenCleanup, descCreate] [descRelease]

theorem user_rest (x : Nat) : GivesRest (userCreate (some x)) userRelease [(x, .given)] := by
  rest [userCreate] [userRelease]

theorem input_buffer_rest : GivesRest (bufCreate true) bufRelease [] := by
  rest [bufCreate, blockCreate, bufRelease, putIf, blockRelease] [bufRelease, putIf, blockRelease]

theorem output_buffer_rest : GivesRest (bufCreate false) bufRelease [] := by
  rest [bufCreate, blockCreate, bufRelease, putIf, blockRelease] [bufRelease, putIf, blockRelease]

theorem br_rest : GivesRest brCreate brRelease [] := by
  rest [brCreate, brRelease, putIf] [brRelease, putIf]

theorem epoll_rest : GivesRest epollCreate epollRelease [] := by
  rest [epollCreate] [epollRelease]

theorem poll_rest : GivesRest pollCreate pollRelease [] := by
  rest [pollCreate] [pollRelease]

theorem async_rest (child : Nat) : GivesRest (asyncCreate child) asyncRelease [(child, .given)] := by
  rest [asyncCreate] [asyncRelease]

set_option maxHeartbeats 2000000 in
theorem io_discipline_rest : GivesRest ioDiscCreate ioDiscRelease [] := by
  rest [ioDiscCreate, epollCreate, discCreate, epollRelease] [ioDiscRelease, epollRelease, discRelease]

/-! ### Where the claim fails -/

/-- Only the `n`-th call that gives something back is refused. -/
def refusingPut (n : Nat) : Env := ⟨fun _ => SUCCESS, fun k => if k = n then 12#32 else SUCCESS⟩

theorem refusingPut_allBut (n : Nat) : (refusingPut n).AllBut n := fun _ h => if_neg h

/-- C64 (violated): when the mapping of a stack cannot be removed, the structure of the stack is left as well. -/
theorem stack_rest_violated : ¬ GivesRest stackCreate stackRelease [] := by
  intro h
  have hs := h smooth empty (fun _ _ => rfl) (by simp) SUCCESS ⟨0, 1⟩ _ rfl
  obtain ⟨st, t', h1, _, _, h4⟩ := hs (refusingPut 0) (stackCreate smooth empty |>.get rfl).2 0 (refusingPut_allBut 0)
    (by intro i hi
        have hi : 2 ≤ i := hi
        show (if i = 1 then some Kind.map else if i = 0 then some Kind.mem else none) = none
        rw [if_neg (by omega), if_neg (by omega)])
    (fun _ _ => rfl)
  cases h1
  have := h4 0 1 (Or.inl ⟨Nat.zero_le _, nofun⟩) (Or.inl ⟨Nat.zero_le _, nofun⟩) nofun nofun
  cases this

/-- C64 (violated): so it is for a fiber. -/
theorem fiber_rest_violated : ¬ GivesRest fiberCreate fiberRelease [] := by
  intro h
  have hs := h smooth empty (fun _ _ => rfl) (by simp) SUCCESS ⟨0, some ⟨1, 2⟩⟩ _ rfl
  obtain ⟨st, t', h1, _, _, h4⟩ := hs (refusingPut 0) (fiberCreate smooth empty |>.get rfl).2 0 (refusingPut_allBut 0)
    (by intro i hi
        have hi : 3 ≤ i := hi
        show (if i = 2 then some Kind.map else if i = 1 then some Kind.mem else if i = 0 then some Kind.mem else none) = none
        rw [if_neg (by omega), if_neg (by omega), if_neg (by omega)])
    (fun _ _ => rfl)
  cases h1
  have := h4 1 2 (Or.inl ⟨Nat.zero_le _, nofun⟩) (Or.inl ⟨Nat.zero_le _, nofun⟩) nofun nofun
  cases this

/-- C64 (violated): a mutex or a condition variable that cannot be destroyed, because it is in use, is part of a
structure that is reclaimed all the same. -/
theorem destroy_failure_violated :
    (∃ e s s', mutexRelease ⟨0, 1⟩ e s = some (ERROR_THREAD_MUTEX_DESTROY, s') ∧ s'.live 0 = none ∧ s'.live 1 = some .pmutex) ∧
    (∃ e s s', condRelease ⟨0, 1⟩ e s = some (ERROR_THREAD_COND_DESTROY, s') ∧ s'.live 0 = none ∧ s'.live 1 = some .pcond) := by
  refine ⟨⟨refusingPut 0, ⟨fun i => if i = 0 then some .mem else if i = 1 then some .pmutex else none, 2, 0, 0⟩, _, rfl, rfl, rfl⟩,
    ⟨refusingPut 0, ⟨fun i => if i = 0 then some .mem else if i = 1 then some .pcond else none, 2, 0, 0⟩, _, rfl, rfl, rfl⟩⟩

-- A discipline of which the vector is not taken back: the codes and the structure are; and the error is reported.
example : look ((do let (_, o) ← discCreate
                    match o with
                    | .set h => discRelease h
                    | _ => pure SUCCESS : M Status) (refusingPut 0) empty)
    = some (12#32, [none, some .mem] ++ List.replicate 6 none) := by decide

example : look ((do let (_, o) ← mailboxCreate
                    match o with
                    | .set h => mailboxRelease h
                    | _ => pure SUCCESS : M Status) (refusingPut 1) empty)
    = some (12#32, [none, some .mem] ++ List.replicate 6 none) := by decide

example : (refusingPut 1).AllBut 1 ∧ empty.Ok ∧ ¬ (refusingPut 1).Good :=
  ⟨refusingPut_allBut 1, fun _ _ => rfl, fun h => by have := h 1; cases this⟩

end Rcpr.Life
