import Verif.SListProof

/-!
Pointer-level model of `src/list` (doubly linked list). Conventions as in
`Verif/SList.lean`.
-/
namespace Rcpr.DList

open Rcpr
open Rcpr.SList (Addr Env okEnv Hdr upd)

/-- `struct list_node` (src/list/list_internal.h:36-47). -/
structure Node where
  parent : Addr
  prev : Addr
  next : Addr
  child : Addr
  deriving DecidableEq, Repr

/-- Memory; `struct list` (src/list/list_internal.h:24-34) has the same fields as `struct slist`. -/
structure Mem where
  nodes : Addr → Option Node
  lists : Addr → Option Hdr
  released : List Addr

/-- Not in the code: the memory before the first call. -/
def Mem.empty : Mem := ⟨fun _ => none, fun _ => none, []⟩

/-- store through a node pointer. Not in the code: an assignment `node->field = ...` in src/list/*.c. -/
def Mem.modNode (m : Mem) (a : Addr) (f : Node → Node) : Option Mem :=
  match m.nodes a with
  | none => none
  | some n => some { m with nodes := upd m.nodes a (some (f n)) }

/-- store through a list pointer. Not in the code: an assignment `l->field = ...` in src/list/*.c. -/
def Mem.modList (m : Mem) (l : Addr) (f : Hdr → Hdr) : Option Mem :=
  match m.lists l with
  | none => none
  | some h => some { m with lists := upd m.lists l (some (f h)) }

/-- `list_create` (src/list/list_create.c:61-115). -/
def create (m : Mem) (ans : Option Addr) : Status × Addr × Mem :=
  match ans with
  | none => (ERROR_GENERAL_OUT_OF_MEMORY, 0, m)
  | some l => (SUCCESS, l, { m with lists := upd m.lists l (some ⟨0, 0, 0#64⟩) })

/-- `list_node_create` (src/list/list_node_create.c:61-116). -/
def nodeCreate (m : Mem) (ans : Option Addr) (list r : Addr) : Option (Status × Addr × Mem) :=
  match m.lists list with
  | none => none
  | some _ =>
    match ans with
    | none => some (ERROR_GENERAL_OUT_OF_MEMORY, 0, m)
    | some a => some (SUCCESS, a, { m with nodes := upd m.nodes a (some ⟨list, 0, 0, r⟩) })

/-- `list_insert_head` (src/list/list_insert_head.c:45-87). -/
def insertHead (m : Mem) (ans : Option Addr) (list r : Addr) : Option (Status × Mem) := do
  let (st, node, m) ← nodeCreate m ans list r
  if st ≠ SUCCESS then return (st, m)
  let h ← m.lists list
  let m ← m.modNode node (fun n => { n with next := h.head, prev := 0 })
  let m ← if h.head ≠ 0 then do
              let m ← m.modList list (fun h => { h with head := node })
              -- 74: node->next->prev = node
              let n ← m.nodes node
              m.modNode n.next (fun x => { x with prev := node })
          else m.modList list (fun h => { h with head := node, tail := node })
  let m ← m.modList list (fun h => { h with count := h.count + 1 })
  return (SUCCESS, m)

/-- `list_append_tail` (src/list/list_append_tail.c:45-88). -/
def appendTail (m : Mem) (ans : Option Addr) (list r : Addr) : Option (Status × Mem) := do
  let (st, node, m) ← nodeCreate m ans list r
  if st ≠ SUCCESS then return (st, m)
  let h ← m.lists list
  let m ← if h.tail ≠ 0 then do
              let m ← m.modNode node (fun n => { n with prev := h.tail })
              let m ← m.modNode h.tail (fun n => { n with next := node })
              m.modList list (fun h => { h with tail := node })
          else m.modList list (fun h => { h with head := node, tail := node })
  let m ← m.modList list (fun h => { h with count := h.count + 1 })
  return (SUCCESS, m)

/-- `list_append` (src/list/list_append.c:51-107). -/
def append (m : Mem) (ans : Option Addr) (node r : Addr) : Option (Status × Mem) := do
  let n ← m.nodes node
  let parent := n.parent
  let (st, newNode, m) ← nodeCreate m ans parent r
  if st ≠ SUCCESS then return (st, m)
  let h ← m.lists parent
  let m ← if node = h.tail then m.modList parent (fun h => { h with tail := newNode }) else some m
  let n ← m.nodes node
  let m ← m.modNode newNode (fun x => { x with next := n.next })
  let m ← m.modNode newNode (fun x => { x with prev := node })
  let m ← if n.next ≠ 0 then m.modNode n.next (fun x => { x with prev := newNode }) else some m
  let m ← m.modNode node (fun x => { x with next := newNode })
  let m ← m.modList parent (fun h => { h with count := h.count + 1 })
  return (SUCCESS, m)

/-- `list_insert` (src/list/list_insert.c:49-72). -/
def insert (m : Mem) (ans : Option Addr) (node r : Addr) : Option (Status × Mem) := do
  let n ← m.nodes node
  if n.prev ≠ 0 then append m ans n.prev r
  else insertHead m ans n.parent r

/-- `resource_release` on a child. (include/rcpr/resource.h:92); the resource is the user's. -/
def releaseChild (e : Env) (m : Mem) (c : Addr) : Option (Status × Mem) :=
  if c = 0 then none
  else some (e.rel c, { m with released := m.released ++ [c] })

/-- `list_node_release` (src/list/list_node_release.c:30-60). -/
def nodeRelease (e : Env) (m : Mem) (a : Addr) : Option (Status × Mem) := do
  let n ← m.nodes a
  let (st, m) ←
    if n.child ≠ 0 then do
      let m ← m.modNode a (fun n => { n with child := 0 })
      releaseChild e m n.child
    else some (SUCCESS, m)
  if st ≠ SUCCESS then return (st, m)
  if e.reclaim a = SUCCESS then
    return (SUCCESS, { m with nodes := upd m.nodes a none })
  else return (e.reclaim a, m)

/-- The tail of `list_pop` (src/list/list_pop.c:98-124). -/
def finishPop (e : Env) (m : Mem) (tmp r : Addr) : Option (Status × Addr × Mem) := do
  let (st, m) ← nodeRelease e m tmp
  if st ≠ SUCCESS then
    let (st2, m) ← releaseChild e m r
    if st2 ≠ SUCCESS then return (st2, 0, m)
    return (st2, 0, m)
  return (SUCCESS, r, m)

/-- `list_pop` (src/list/list_pop.c:54-131). -/
def pop (e : Env) (m : Mem) (list rIn : Addr) : Option (Status × Addr × Mem) := do
  let h ← m.lists list
  if h.head ≠ 0 then
    let m ← if h.head = h.tail then m.modList list (fun h => { h with tail := 0 }) else some m
    let tmp := h.head
    let n ← m.nodes tmp
    let r := n.child
    let m ← m.modNode tmp (fun n => { n with child := 0 })
    let m ← m.modList list (fun h => { h with head := n.next })
    -- 86-89
    let m ← if n.next ≠ 0 then m.modNode n.next (fun x => { x with prev := 0 }) else some m
    let m ← m.modNode tmp (fun n => { n with parent := 0, next := 0 })
    let m ← m.modList list (fun h => { h with count := h.count - 1 })
    finishPop e m tmp r
  else return (SUCCESS, rIn, m)

/-- `list_clear` (src/list/list_clear.c:31-73); `list_node_cleanup` is `list_node_release`. -/
def clear (e : Env) : Nat → Mem → Addr → Option (Status × Mem)
  | 0, _, _ => none
  | fuel + 1, m, l => do
    let h ← m.lists l
    if h.head ≠ 0 then
      let t := h.head
      let n ← m.nodes t
      let m ← m.modList l (fun h => { h with head := n.next })
      let m ← m.modList l (fun h => { h with count := h.count - 1 })
      let m ← m.modNode t (fun n => { n with parent := 0, next := 0, prev := 0 })
      let (st, m) ← nodeRelease e m t
      if st ≠ SUCCESS then return (st, m)
      clear e fuel m l
    else
      let m ← m.modList l (fun h => { h with tail := 0, count := 0 })
      return (SUCCESS, m)

/-- `list_release` (src/list/list_create.c:126-144). -/
def release (e : Env) (fuel : Nat) (m : Mem) (l : Addr) : Option (Status × Mem) := do
  let (st, m) ← clear e fuel m l
  if st ≠ SUCCESS then return (st, m)
  let _ ← m.lists l
  if e.reclaim l = SUCCESS then return (SUCCESS, { m with lists := upd m.lists l none })
  else return (e.reclaim l, m)

/-- `list_node_child_swap` (src/list/list_node_child_swap.c:52-74). -/
def childSwap (m : Mem) (node r : Addr) : Option (Status × Addr × Mem) := do
  let n ← m.nodes node
  let m ← m.modNode node (fun n => { n with child := r })
  return (SUCCESS, n.child, m)

/-- `list_head` (src/list/list_head.c:48-60). -/
def head (m : Mem) (l : Addr) : Option Addr := (m.lists l).map Hdr.head
/-- `list_tail` (src/list/list_tail.c:48-60). -/
def tail (m : Mem) (l : Addr) : Option Addr := (m.lists l).map Hdr.tail
/-- `list_count` (src/list/list_count.c:26-34). -/
def count (m : Mem) (l : Addr) : Option (BitVec 64) := (m.lists l).map Hdr.count
/-- `list_node_next` (src/list/list_node_next.c:37-49). -/
def next (m : Mem) (n : Addr) : Option Addr := (m.nodes n).map Node.next
/-- `list_node_prev` (src/list/list_node_prev.c:38-50). -/
def prev (m : Mem) (n : Addr) : Option Addr := (m.nodes n).map Node.prev
/-- `list_node_child` (src/list/list_node_child.c:40-52). -/
def child (m : Mem) (n : Addr) : Option Addr := (m.nodes n).map Node.child

/-- `list_swap` (src/list/list_swap.c:39-54). -/
def swap (m : Mem) (left right : Addr) : Option Mem := do
  let hl ← m.lists left
  let hr ← m.lists right
  let m := { m with lists := upd m.lists left (some hr) }
  return { m with lists := upd m.lists right (some hl) }

/-- Calls of the public interface. (include/rcpr/list.h) -/
inductive Op
  | create (ans : Option Addr)
  | insertHead (list r : Addr) (ans : Option Addr)
  | appendTail (list r : Addr) (ans : Option Addr)
  | append (node r : Addr) (ans : Option Addr)
  | insert (node r : Addr) (ans : Option Addr)
  | pop (list rIn : Addr)
  | childSwap (node r : Addr)
  | clear (list : Addr) (fuel : Nat)
  | release (list : Addr) (fuel : Nat)
  | head (list : Addr)
  | tail (list : Addr)
  | count (list : Addr)
  | next (node : Addr)
  | prev (node : Addr)
  | child (node : Addr)
  deriving DecidableEq, Repr

open Rcpr.SList (Out)

/-- One call. (include/rcpr/list.h) -/
def step (e : Env) (m : Mem) : Op → Option (Out × Mem)
  | .create ans => let (s, l, m) := create m ans; some (.ptr s l, m)
  | .insertHead l r ans => (insertHead m ans l r).map fun (s, m) => (.st s, m)
  | .appendTail l r ans => (appendTail m ans l r).map fun (s, m) => (.st s, m)
  | .append n r ans => (append m ans n r).map fun (s, m) => (.st s, m)
  | .insert n r ans => (insert m ans n r).map fun (s, m) => (.st s, m)
  | .pop l rIn => (pop e m l rIn).map fun (s, r, m) => (.ptr s r, m)
  | .childSwap n r => (childSwap m n r).map fun (s, r, m) => (.ptr s r, m)
  | .clear l f => (clear e f m l).map fun (s, m) => (.st s, m)
  | .release l f => (release e f m l).map fun (s, m) => (.st s, m)
  | .head l => (head m l).map fun a => (.ptr SUCCESS a, m)
  | .tail l => (tail m l).map fun a => (.ptr SUCCESS a, m)
  | .count l => (count m l).map fun a => (.cnt a, m)
  | .next n => (next m n).map fun a => (.ptr SUCCESS a, m)
  | .prev n => (prev m n).map fun a => (.ptr SUCCESS a, m)
  | .child n => (child m n).map fun a => (.ptr SUCCESS a, m)

/-- A history of calls. Not in the code: a client of include/rcpr/list.h. -/
def run (e : Env) (m : Mem) : List Op → Option (List Out × Mem)
  | [] => some ([], m)
  | op :: ops => do
    let (o, m) ← step e m op
    let (os, m) ← run e m ops
    return (o :: os, m)

end Rcpr.DList
