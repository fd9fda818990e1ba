import Verif.Status

/-!
Pointer-level model of `src/slist`.

Memory is a pair of partial maps: addresses of `slist_node` structures and
addresses of `slist` structures. Address `0` is `NULL`. Using an address that is
not allocated (in particular `NULL`) is undefined behaviour, outcome `none`.

Simplifications: the `alloc` pointers, resource headers and model tags are not
represented (one allocator serves every list); nodes and lists live in separate
maps, i.e. memory is typed; the allocator's answer is a parameter of the call
(`none` = failure, `some a` = address `a`).
-/
namespace Rcpr.SList

open Rcpr

/-- Machine addresses; `0` is `NULL`. Not in the code: pointers in src/slist/*.c. -/
abbrev Addr := Nat

/-- `struct slist_node` (src/slist/slist_internal.h:36-46). -/
structure Node where
  parent : Addr
  next : Addr
  child : Addr
  deriving DecidableEq, Repr

/-- `struct slist` (src/slist/slist_internal.h:24-34); `count` is a 64-bit `size_t`. -/
structure Hdr where
  head : Addr
  tail : Addr
  count : BitVec 64
  deriving DecidableEq, Repr

/-- Memory, plus the trace of calls to the release methods of child resources.
(the structures of src/slist/slist_internal.h) -/
structure Mem where
  nodes : Addr → Option Node
  lists : Addr → Option Hdr
  released : List Addr

/-- No list exists yet. Not in the code: the memory before the first call. -/
def Mem.empty : Mem := ⟨fun _ => none, fun _ => none, []⟩

/-- Map update. Not in the code: a change of memory. -/
def upd {β : Type} (f : Addr → β) (a : Addr) (v : β) : Addr → β := fun x => if x = a then v else f x

/-- What the outside world answers: the status returned by releasing a child
resource and by the allocator when asked to reclaim an address.
(include/rcpr/resource.h:92, include/rcpr/allocator.h) -/
structure Env where
  rel : Addr → Status
  reclaim : Addr → Status

/-- Every release and reclaim succeeds. Not in the code: the environment. -/
def okEnv : Env := ⟨fun _ => SUCCESS, fun _ => SUCCESS⟩

/-- store through a node pointer; storing through a pointer to nothing is undefined.
As in assignments `node->field = ...` in src/slist/*.c. -/
def Mem.modNode (m : Mem) (a : Addr) (f : Node → Node) : Option Mem :=
  match m.nodes a with
  | none => none
  | some n => some { m with nodes := upd m.nodes a (some (f n)) }

/-- store through a list pointer. As in assignments `l->field = ...` in src/slist/*.c. -/
def Mem.modList (m : Mem) (l : Addr) (f : Hdr → Hdr) : Option Mem :=
  match m.lists l with
  | none => none
  | some h => some { m with lists := upd m.lists l (some (f h)) }

/-- `slist_create` (src/slist/slist_create.c:62-108). -/
def create (m : Mem) (ans : Option Addr) : Status × Addr × Mem :=
  match ans with
  | none => (ERROR_GENERAL_OUT_OF_MEMORY, 0, m)
  | some l => (SUCCESS, l, { m with lists := upd m.lists l (some ⟨0, 0, 0#64⟩) })

/-- `slist_node_create` (src/slist/slist_node_create.c:61-116). The read of
`list->alloc` makes a bad list pointer undefined behaviour. -/
def nodeCreate (m : Mem) (ans : Option Addr) (list r : Addr) : Option (Status × Addr × Mem) :=
  match m.lists list with
  | none => none
  | some _ =>
    match ans with
    | none => some (ERROR_GENERAL_OUT_OF_MEMORY, 0, m)
    | some a => some (SUCCESS, a, { m with nodes := upd m.nodes a (some ⟨list, 0, r⟩) })

/-- `slist_insert_head` (src/slist/slist_insert_head.c:45-81). -/
def insertHead (m : Mem) (ans : Option Addr) (list r : Addr) : Option (Status × Mem) := do
  let (st, node, m) ← nodeCreate m ans list r
  if st ≠ SUCCESS then return (st, m)
  let h ← m.lists list
  -- 63: node->next = list->head
  let m ← m.modNode node (fun n => { n with next := h.head })
  -- 66-74
  let m ← if h.head ≠ 0 then m.modList list (fun h => { h with head := node })
          else m.modList list (fun h => { h with head := node, tail := node })
  -- 77
  let m ← m.modList list (fun h => { h with count := h.count + 1 })
  return (SUCCESS, m)

/-- `slist_append_tail` (src/slist/slist_append_tail.c:45-79). -/
def appendTail (m : Mem) (ans : Option Addr) (list r : Addr) : Option (Status × Mem) := do
  let (st, node, m) ← nodeCreate m ans list r
  if st ≠ SUCCESS then return (st, m)
  let h ← m.lists list
  let m ← if h.tail ≠ 0 then do
              -- 65-66
              let m ← m.modNode h.tail (fun n => { n with next := node })
              m.modList list (fun h => { h with tail := node })
          else m.modList list (fun h => { h with head := node, tail := node })
  let m ← m.modList list (fun h => { h with count := h.count + 1 })
  return (SUCCESS, m)

/-- `slist_append` (src/slist/slist_append.c:51-90). -/
def append (m : Mem) (ans : Option Addr) (node r : Addr) : Option (Status × Mem) := do
  let n ← m.nodes node
  let parent := n.parent
  let (st, newNode, m) ← nodeCreate m ans parent r
  if st ≠ SUCCESS then return (st, m)
  let h ← m.lists parent
  -- 73-77
  let m ← if node = h.tail then m.modList parent (fun h => { h with tail := newNode }) else some m
  -- 80
  let n ← m.nodes node
  let m ← m.modNode newNode (fun x => { x with next := n.next })
  -- 83
  let m ← m.modNode node (fun x => { x with next := newNode })
  -- 86
  let m ← m.modList parent (fun h => { h with count := h.count + 1 })
  return (SUCCESS, m)

/-- `resource_release` on a child (src/resource/resource_release.c): dereferences the
resource, so `NULL` is undefined behaviour; the call is recorded in the trace. -/
def releaseChild (e : Env) (m : Mem) (c : Addr) : Option (Status × Mem) :=
  if c = 0 then none
  else some (e.rel c, { m with released := m.released ++ [c] })

/-- `slist_node_release` (src/slist/slist_node_release.c:31-61). A reclaim that fails
leaves the block allocated. -/
def nodeRelease (e : Env) (m : Mem) (a : Addr) : Option (Status × Mem) := do
  let n ← m.nodes a
  let (st, m) ←
    if n.child ≠ 0 then do
      let m ← m.modNode a (fun n => { n with child := 0 })
      releaseChild e m n.child
    else some (SUCCESS, m)
  if st ≠ SUCCESS then return (st, m)
  if e.reclaim a = SUCCESS then
    return (SUCCESS, { m with nodes := upd m.nodes a none })
  else return (e.reclaim a, m)

/-- The common tail of `slist_pop` and `slist_node_next_pop`
(src/slist/slist_pop.c:93-119, src/slist/slist_node_next_pop.c:97-123): release the node
`tmp`; when that fails drop the child too. Result: status, `*r`, memory. -/
def finishPop (e : Env) (m : Mem) (tmp r : Addr) : Option (Status × Addr × Mem) := do
  let (st, m) ← nodeRelease e m tmp
  if st ≠ SUCCESS then
    let (st2, m) ← releaseChild e m r
    if st2 ≠ SUCCESS then return (st2, 0, m)
    return (st2, 0, m)
  return (SUCCESS, r, m)

/-- `slist_pop` (src/slist/slist_pop.c:55-126). `rIn` is the value of `*r` before the call. -/
def pop (e : Env) (m : Mem) (list rIn : Addr) : Option (Status × Addr × Mem) := do
  let h ← m.lists list
  if h.head ≠ 0 then
    let m ← if h.head = h.tail then m.modList list (fun h => { h with tail := 0 }) else some m
    let tmp := h.head
    let n ← m.nodes tmp
    let r := n.child
    let m ← m.modNode tmp (fun n => { n with child := 0 })
    let m ← m.modList list (fun h => { h with head := n.next })
    let m ← m.modNode tmp (fun n => { n with parent := 0, next := 0 })
    let m ← m.modList list (fun h => { h with count := h.count - 1 })
    finishPop e m tmp r
  else return (SUCCESS, rIn, m)

/-- `slist_node_next_pop` (src/slist/slist_node_next_pop.c:56-130). -/
def nextPop (e : Env) (m : Mem) (node rIn : Addr) : Option (Status × Addr × Mem) := do
  let nd ← m.nodes node
  let parent := nd.parent
  if nd.next ≠ 0 then
    let h ← m.lists parent
    let m ← if nd.next = h.tail then m.modList parent (fun h => { h with tail := node }) else some m
    let tmp := nd.next
    let n ← m.nodes tmp
    let r := n.child
    let m ← m.modNode tmp (fun n => { n with child := 0 })
    let m ← m.modNode node (fun x => { x with next := n.next })
    let m ← m.modNode tmp (fun n => { n with parent := 0, next := 0 })
    let m ← m.modList parent (fun h => { h with count := h.count - 1 })
    finishPop e m tmp r
  else return (SUCCESS, rIn, m)

/-- `slist_clear` (src/slist/slist_clear.c:33-64); `slist_node_cleanup`
(src/slist/slist_node_cleanup.c:31-39) is `slist_node_release`. The loop is bounded by
fuel; running out of fuel is outcome `none` like undefined behaviour. -/
def clear (e : Env) : Nat → Mem → Addr → Option (Status × Mem)
  | 0, _, _ => none
  | fuel + 1, m, l => do
    let h ← m.lists l
    if h.head ≠ 0 then
      let t := h.head
      let n ← m.nodes t
      let m ← m.modList l (fun h => { h with head := n.next })
      let m ← m.modList l (fun h => { h with count := h.count - 1 })
      let m ← m.modNode t (fun n => { n with parent := 0, next := 0 })
      let (st, m) ← nodeRelease e m t
      if st ≠ SUCCESS then return (st, m)
      clear e fuel m l
    else
      let m ← m.modList l (fun h => { h with tail := 0, count := 0 })
      return (SUCCESS, m)

/-- `slist_release` (src/slist/slist_create.c:119-136). -/
def release (e : Env) (fuel : Nat) (m : Mem) (l : Addr) : Option (Status × Mem) := do
  let (st, m) ← clear e fuel m l
  if st ≠ SUCCESS then return (st, m)
  let _ ← m.lists l
  if e.reclaim l = SUCCESS then return (SUCCESS, { m with lists := upd m.lists l none })
  else return (e.reclaim l, m)

/-- `slist_node_child_swap` (src/slist/slist_node_child_swap.c:53-75); returns the new `*r`. -/
def childSwap (m : Mem) (node r : Addr) : Option (Status × Addr × Mem) := do
  let n ← m.nodes node
  let m ← m.modNode node (fun n => { n with child := r })
  return (SUCCESS, n.child, m)

/-- `slist_head` (src/slist/slist_head.c:49-61). -/
def head (m : Mem) (l : Addr) : Option Addr := (m.lists l).map Hdr.head
/-- `slist_tail` (src/slist/slist_tail.c:48-60). -/
def tail (m : Mem) (l : Addr) : Option Addr := (m.lists l).map Hdr.tail
/-- `slist_count` (src/slist/slist_count.c:26-34). -/
def count (m : Mem) (l : Addr) : Option (BitVec 64) := (m.lists l).map Hdr.count
/-- `slist_node_next` (src/slist/slist_node_next.c:40-52). -/
def next (m : Mem) (n : Addr) : Option Addr := (m.nodes n).map Node.next
/-- `slist_node_child` (src/slist/slist_node_child.c:43-55). -/
def child (m : Mem) (n : Addr) : Option Addr := (m.nodes n).map Node.child

/-- `slist_swap` (src/slist/slist_swap.c:39-54): the two structures are exchanged by
`memcpy`; the `parent` pointers in the nodes are not touched. -/
def swap (m : Mem) (left right : Addr) : Option Mem := do
  let hl ← m.lists left
  let hr ← m.lists right
  let m := { m with lists := upd m.lists left (some hr) }
  return { m with lists := upd m.lists right (some hl) }

/-- Calls of the public interface. `fuel` of the clearing calls is the number of loop
iterations the model may execute. (include/rcpr/slist.h) -/
inductive Op
  | create (ans : Option Addr)
  | insertHead (list r : Addr) (ans : Option Addr)
  | appendTail (list r : Addr) (ans : Option Addr)
  | append (node r : Addr) (ans : Option Addr)
  | pop (list rIn : Addr)
  | nextPop (node rIn : Addr)
  | childSwap (node r : Addr)
  | clear (list : Addr) (fuel : Nat)
  | release (list : Addr) (fuel : Nat)
  | head (list : Addr)
  | tail (list : Addr)
  | count (list : Addr)
  | next (node : Addr)
  | child (node : Addr)
  deriving DecidableEq, Repr

/-- What a call returns: a status, a status and a pointer written through the output
argument, or a count. (include/rcpr/slist.h) -/
inductive Out
  | st (s : Status)
  | ptr (s : Status) (v : Addr)
  | cnt (n : BitVec 64)
  deriving DecidableEq, Repr

/-- One call. (include/rcpr/slist.h) -/
def step (e : Env) (m : Mem) : Op → Option (Out × Mem)
  | .create ans => let (s, l, m) := create m ans; some (.ptr s l, m)
  | .insertHead l r ans => (insertHead m ans l r).map fun (s, m) => (.st s, m)
  | .appendTail l r ans => (appendTail m ans l r).map fun (s, m) => (.st s, m)
  | .append n r ans => (append m ans n r).map fun (s, m) => (.st s, m)
  | .pop l rIn => (pop e m l rIn).map fun (s, r, m) => (.ptr s r, m)
  | .nextPop n rIn => (nextPop e m n rIn).map fun (s, r, m) => (.ptr s r, m)
  | .childSwap n r => (childSwap m n r).map fun (s, r, m) => (.ptr s r, m)
  | .clear l f => (clear e f m l).map fun (s, m) => (.st s, m)
  | .release l f => (release e f m l).map fun (s, m) => (.st s, m)
  | .head l => (head m l).map fun a => (.ptr SUCCESS a, m)
  | .tail l => (tail m l).map fun a => (.ptr SUCCESS a, m)
  | .count l => (count m l).map fun a => (.cnt a, m)
  | .next n => (next m n).map fun a => (.ptr SUCCESS a, m)
  | .child n => (child m n).map fun a => (.ptr SUCCESS a, m)

/-- A history of calls; collects what each call returned. Not in the code: a client of include/rcpr/slist.h. -/
def run (e : Env) (m : Mem) : List Op → Option (List Out × Mem)
  | [] => some ([], m)
  | op :: ops => do
    let (o, m) ← step e m op
    let (os, m) ← run e m ops
    return (o :: os, m)

end Rcpr.SList
