import Verif.SListProof

/-!
Model of `src/queue`: a queue owns one slist.
-/
namespace Rcpr.Queue

open Rcpr.SList (Addr Env okEnv upd Out)

/-- Memory: slist memory plus the queue structures (src/queue/queue_internal.h:22-28: pointer to
the list). -/
structure Mem where
  sl : SList.Mem
  queues : Addr → Option Addr

/-- Not in the code: the memory before the first call. -/
def Mem.empty : Mem := ⟨SList.Mem.empty, fun _ => none⟩

/-- `queue_create` (src/queue/queue_create.c:62-113). `qans` and `lans` are the allocator's answers
for the queue and its list. The result's second component is the final value of `*q`,
`NULL` before the call. -/
def create (e : Env) (m : Mem) (qans lans : Option Addr) : Status × Addr × Mem :=
  match qans with
  | none => (ERROR_GENERAL_OUT_OF_MEMORY, 0, m)
  | some q =>
    -- 79: memset, list = NULL
    let m := { m with queues := upd m.queues q (some 0) }
    let (st, l, sl) := SList.create m.sl lans
    if st ≠ SUCCESS then
      -- 96-102
      if e.reclaim q ≠ SUCCESS then (e.reclaim q, 0, { m with sl := sl })
      else (st, 0, { sl := sl, queues := upd m.queues q none })
    else (SUCCESS, q, { sl := sl, queues := upd m.queues q (some l) })

/-- `queue_append` (src/queue/queue_append.c:45-55). -/
def append (m : Mem) (ans : Option Addr) (q r : Addr) : Option (Status × Mem) := do
  let l ← m.queues q
  let (st, sl) ← SList.appendTail m.sl ans l r
  return (st, { m with sl := sl })

/-- `queue_insert` (src/queue/queue_insert.c:45-55). -/
def insert (m : Mem) (ans : Option Addr) (q r : Addr) : Option (Status × Mem) := do
  let l ← m.queues q
  let (st, sl) ← SList.insertHead m.sl ans l r
  return (st, { m with sl := sl })

/-- `queue_pop` (src/queue/queue_pop.c:54-65). -/
def pop (e : Env) (m : Mem) (q rIn : Addr) : Option (Status × Addr × Mem) := do
  let l ← m.queues q
  let (st, r, sl) ← SList.pop e m.sl l rIn
  return (st, r, { m with sl := sl })

/-- `queue_count` (src/queue/queue_count.c:26-33). -/
def count (m : Mem) (q : Addr) : Option (BitVec 64) := do
  let l ← m.queues q
  SList.count m.sl l

/-- `queue_release` (src/queue/queue_create.c:124-147). Line 130 reads `q->list->alloc`, so the
list must be allocated. -/
def release (e : Env) (fuel : Nat) (m : Mem) (q : Addr) : Option (Status × Mem) := do
  let l ← m.queues q
  let _ ← m.sl.lists l
  let (lst, sl) ← SList.release e fuel m.sl l
  if e.reclaim q = SUCCESS then return (lst, { sl := sl, queues := upd m.queues q none })
  else return (e.reclaim q, { m with sl := sl })

/-- Calls of the public interface. (include/rcpr/queue.h) -/
inductive Op
  | create (qans lans : Option Addr)
  | append (q r : Addr) (ans : Option Addr)
  | insert (q r : Addr) (ans : Option Addr)
  | pop (q rIn : Addr)
  | count (q : Addr)
  | release (q : Addr) (fuel : Nat)
  deriving DecidableEq, Repr

/-- One call. (include/rcpr/queue.h) -/
def step (e : Env) (m : Mem) : Op → Option (Out × Mem)
  | .create qa la => let (s, q, m) := create e m qa la; some (.ptr s q, m)
  | .append q r ans => (append m ans q r).map fun (s, m) => (.st s, m)
  | .insert q r ans => (insert m ans q r).map fun (s, m) => (.st s, m)
  | .pop q rIn => (pop e m q rIn).map fun (s, r, m) => (.ptr s r, m)
  | .count q => (count m q).map fun c => (.cnt c, m)
  | .release q f => (release e f m q).map fun (s, m) => (.st s, m)

/-- A history. Not in the code: a client of include/rcpr/queue.h. -/
def run (e : Env) (m : Mem) : List Op → Option (List Out × Mem)
  | [] => some ([], m)
  | op :: ops => do
    let (o, m) ← step e m op
    let (os, m) ← run e m ops
    return (o :: os, m)

/-- The allocator only hands out non-NULL blocks that are not in use. Not in the code: the allocator. -/
def Legal (m : Mem) : Op → Prop
  | .create qa la => (∀ q, qa = some q → q ≠ 0 ∧ m.queues q = none) ∧
      (∀ l, la = some l → l ≠ 0 ∧ m.sl.lists l = none)
  | .append _ _ ans => ∀ a, ans = some a → a ≠ 0 ∧ m.sl.nodes a = none
  | .insert _ _ ans => ∀ a, ans = some a → a ≠ 0 ∧ m.sl.nodes a = none
  | _ => True

/-- Every allocator answer along the run is legal at the moment it is given. Not in the code: the allocator. -/
def LegalRun (e : Env) : Mem → List Op → Prop
  | _, [] => True
  | m, op :: ops => Legal m op ∧ ∀ o m', step e m op = some (o, m') → LegalRun e m' ops

/-! ### Specification: double-ended queues of resources -/

/-- Not in the code: the specification: queues with their contents, and what was released. -/
structure Spec where
  queues : List (Addr × List Addr)
  released : List Addr

/-- Not in the code: the specification before the first call. -/
def Spec.empty : Spec := ⟨[], []⟩

/-- The abstract meaning of the calls: `append` adds at the back, `insert` at the front, `pop` takes
from the front. Node and list addresses do not appear. (as include/rcpr/queue.h describes them) -/
inductive SpecStep : Spec → Op → Out → Spec → Prop
  | create_fail {s qa la} (h : qa = none ∨ la = none) :
      SpecStep s (.create qa la) (.ptr ERROR_GENERAL_OUT_OF_MEMORY 0) s
  | create_ok {s q l} : SpecStep s (.create (some q) (some l)) (.ptr SUCCESS q)
      { s with queues := (q, []) :: s.queues }
  | append_fail {A B q cs R r} (hr : r ≠ 0) :
      SpecStep ⟨A ++ (q, cs) :: B, R⟩ (.append q r none) (.st ERROR_GENERAL_OUT_OF_MEMORY)
        ⟨A ++ (q, cs) :: B, R⟩
  | append_ok {A B q cs R r a} (hr : r ≠ 0) :
      SpecStep ⟨A ++ (q, cs) :: B, R⟩ (.append q r (some a)) (.st SUCCESS) ⟨A ++ (q, cs ++ [r]) :: B, R⟩
  | insert_fail {A B q cs R r} (hr : r ≠ 0) :
      SpecStep ⟨A ++ (q, cs) :: B, R⟩ (.insert q r none) (.st ERROR_GENERAL_OUT_OF_MEMORY)
        ⟨A ++ (q, cs) :: B, R⟩
  | insert_ok {A B q cs R r a} (hr : r ≠ 0) :
      SpecStep ⟨A ++ (q, cs) :: B, R⟩ (.insert q r (some a)) (.st SUCCESS) ⟨A ++ (q, r :: cs) :: B, R⟩
  | pop_empty {A B q R rIn} :
      SpecStep ⟨A ++ (q, []) :: B, R⟩ (.pop q rIn) (.ptr SUCCESS rIn) ⟨A ++ (q, []) :: B, R⟩
  | pop_ok {A B q c cs R rIn} :
      SpecStep ⟨A ++ (q, c :: cs) :: B, R⟩ (.pop q rIn) (.ptr SUCCESS c) ⟨A ++ (q, cs) :: B, R⟩
  | count_ok {s q cs} (h : (q, cs) ∈ s.queues) :
      SpecStep s (.count q) (.cnt (BitVec.ofNat 64 cs.length)) s
  | release_ok {A B q cs R f} (hf : cs.length < f) :
      SpecStep ⟨A ++ (q, cs) :: B, R⟩ (.release q f) (.st SUCCESS) ⟨A ++ B, R ++ cs⟩

/-- Not in the code: the specification of a history. -/
inductive SpecRun : Spec → List Op → List Out → Spec → Prop
  | nil {s} : SpecRun s [] [] s
  | cons {s s' s'' op o ops os} (h : SpecStep s op o s') (t : SpecRun s' ops os s'') :
      SpecRun s (op :: ops) (o :: os) s''

end Rcpr.Queue
