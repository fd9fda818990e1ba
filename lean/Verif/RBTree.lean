import Verif.Status

/-!
Model of the red-black tree (src/rbtree).

Nodes live in a heap: a partial map from addresses. Reading or writing an address that is not allocated is
undefined behaviour, `none`. Loops carry fuel; running out of it is `none` too, and the theorems show how
much is enough. The sentinel `nil` is a node like any other, as in the code, where it is embedded in the
tree structure. `count` is a number without bound (64 bits in the code).
-/
namespace Rcpr.RB

open Rcpr

/-- `rbtree_node` (include/rcpr/rbtree.h). `value` 0 is NULL. -/
structure Node where
  parent : Nat
  left : Nat
  right : Nat
  red : Bool
  value : Nat
  deriving DecidableEq

/-- Not in the code: the nodes that are allocated, with the sentinel. -/
abbrev Heap := Nat → Option Node

/-- `rbtree`: root, address of the sentinel, number of elements (src/rbtree/rbtree_internal.h:39-53) -/
structure Tree where
  root : Nat
  nil : Nat
  count : Nat
  deriving DecidableEq

/-- The callbacks of a tree: the key of a value, and the comparison. The code compares the result with
`RCPR_COMPARE_LT` and `RCPR_COMPARE_EQ` only; everything else is "greater".
(`compare`, `key`: src/rbtree/rbtree_internal.h:47-48; include/rcpr/compare.h:25-27) -/
structure Order (K : Type) where
  key : Nat → K
  cmp : K → K → Ordering

/-- Not in the code: a store to a node. -/
def put (h : Heap) (a : Nat) (n : Node) : Heap := fun b => if b = a then some n else h b

/-- `n->parent = p` in src/rbtree/*.c. -/
def setParent (h : Heap) (a p : Nat) : Option Heap := (h a).map fun n => put h a { n with parent := p }
/-- `n->left = p` in src/rbtree/*.c. -/
def setLeft (h : Heap) (a p : Nat) : Option Heap := (h a).map fun n => put h a { n with left := p }
/-- `n->right = p` in src/rbtree/*.c. -/
def setRight (h : Heap) (a p : Nat) : Option Heap := (h a).map fun n => put h a { n with right := p }
/-- `n->color = c` in src/rbtree/*.c. -/
def setRed (h : Heap) (a : Nat) (c : Bool) : Option Heap := (h a).map fun n => put h a { n with red := c }

/-- The chain that replaces `x` by `y` below the parent `p` of `x`, testing the left child first
(rbtree_left_rotate.c:50-65, rbtree_transplant.c:31-42). -/
def relinkLeft (h : Heap) (t : Tree) (p x y : Nat) : Option (Heap × Tree) :=
  if p = t.nil then some (h, { t with root := y })
  else do
    let np ← h p
    if x = np.left then some (← setLeft h p y, t)
    else some (← setRight h p y, t)

/-- The same chain testing the right child first (rbtree_right_rotate.c:49-64). -/
def relinkRight (h : Heap) (t : Tree) (p x y : Nat) : Option (Heap × Tree) :=
  if p = t.nil then some (h, { t with root := y })
  else do
    let np ← h p
    if x = np.right then some (← setRight h p y, t)
    else some (← setLeft h p y, t)

/-- `rbtree_left_rotate` (rbtree_left_rotate.c:25-72) -/
def leftRotate (h : Heap) (t : Tree) (x : Nat) : Option (Heap × Tree) := do
  let nx ← h x
  let y := nx.right
  let ny ← h y
  let h ← setRight h x ny.left
  let ny ← h y
  let h ← (if ny.left ≠ t.nil then setParent h ny.left x else some h)
  let nx ← h x
  let h ← setParent h y nx.parent
  let nx ← h x
  let (h, t) ← relinkLeft h t nx.parent x y
  let h ← setLeft h y x
  let h ← setParent h x y
  some (h, t)

/-- `rbtree_right_rotate` (rbtree_right_rotate.c:25-71) -/
def rightRotate (h : Heap) (t : Tree) (y : Nat) : Option (Heap × Tree) := do
  let ny ← h y
  let x := ny.left
  let nx ← h x
  let h ← setLeft h y nx.right
  let nx ← h x
  let h ← (if nx.right ≠ t.nil then setParent h nx.right y else some h)
  let ny ← h y
  let h ← setParent h x ny.parent
  let ny ← h y
  let (h, t) ← relinkRight h t ny.parent y x
  let h ← setRight h x y
  let h ← setParent h y x
  some (h, t)

/-- The body of the loop in `rbtree_insert_fixup`, first branch (rbtree_insert_fixup.c:31-53) -/
def insertFixupLeft (h : Heap) (t : Tree) (z p g : Nat) (ng : Node) : Option (Heap × Tree × Nat) := do
  let y := ng.right
  let ny ← h y
  if ny.red then
    let h ← setRed h p false
    let h ← setRed h y false
    let h ← setRed h g true
    some (h, t, g)
  else
    let np ← h p
    let (h, t, z) ← (if z = np.right then (leftRotate h t p).map fun (h, t) => (h, t, p) else some (h, t, z))
    let nz ← h z
    let h ← setRed h nz.parent false
    let np ← h nz.parent
    let h ← setRed h np.parent true
    let (h, t) ← rightRotate h t np.parent
    some (h, t, z)

/-- Second branch (rbtree_insert_fixup.c:54-77) -/
def insertFixupRight (h : Heap) (t : Tree) (z p g : Nat) (ng : Node) : Option (Heap × Tree × Nat) := do
  let y := ng.left
  let ny ← h y
  if ny.red then
    let h ← setRed h p false
    let h ← setRed h y false
    let h ← setRed h g true
    some (h, t, g)
  else
    let np ← h p
    let (h, t, z) ← (if z = np.left then (rightRotate h t p).map fun (h, t) => (h, t, p) else some (h, t, z))
    let nz ← h z
    let h ← setRed h nz.parent false
    let np ← h nz.parent
    let h ← setRed h np.parent true
    let (h, t) ← leftRotate h t np.parent
    some (h, t, z)

/-- The loop of `rbtree_insert_fixup` (rbtree_insert_fixup.c:28-78) -/
def insertFixupLoop : Nat → Heap → Tree → Nat → Option (Heap × Tree)
  | 0, _, _, _ => none
  | n + 1, h, t, z => do
    let nz ← h z
    let p := nz.parent
    let np ← h p
    if np.red then
      let g := np.parent
      let ng ← h g
      let (h, t, z) ← (if p = ng.left then insertFixupLeft h t z p g ng else insertFixupRight h t z p g ng)
      insertFixupLoop n h t z
    else some (h, t)

/-- `rbtree_insert_fixup` (rbtree_insert_fixup.c:24-81) -/
def insertFixup (fuel : Nat) (h : Heap) (t : Tree) (z : Nat) : Option (Heap × Tree) := do
  let (h, t) ← insertFixupLoop fuel h t z
  let h ← setRed h t.root false
  some (h, t)

/-- "make sure that nil is correct" (rbtree_insert_node.c:80-84, rbtree_remove_node.c:78-82) -/
def resetNil (h : Heap) (t : Tree) : Option Heap := do
  let n ← h t.nil
  some (put h t.nil { n with parent := t.nil, left := t.nil, right := t.nil, red := false })

section
variable {K : Type} (o : Order K)

/-- The descent of `rbtree_insert_node` (rbtree_insert_node.c:31-49): the last node before nil. -/
def insertDescend (h : Heap) (nil : Nat) (k : K) : Nat → Nat → Nat → Option Nat
  | 0, _, _ => none
  | n + 1, x, y =>
    if x = nil then some y
    else do
      let nx ← h x
      if o.cmp k (o.key nx.value) = .lt then insertDescend h nil k n nx.left x
      else insertDescend h nil k n nx.right x

/-- `rbtree_insert_node` (rbtree_insert_node.c:27-85) -/
def insertNode (fuel : Nat) (h : Heap) (t : Tree) (z : Nat) : Option (Heap × Tree) := do
  let nz ← h z
  let k := o.key nz.value
  let y ← insertDescend o h t.nil k fuel t.root t.nil
  let h ← setParent h z y
  let (h, t) ←
    (if y = t.nil then some (h, { t with root := z })
     else do
       let ny ← h y
       if o.cmp k (o.key ny.value) = .lt then some (← setLeft h y z, t)
       else some (← setRight h y z, t))
  let h ← setLeft h z t.nil
  let h ← setRight h z t.nil
  let h ← setRed h z true
  let (h, t) ← insertFixup fuel h t z
  let h ← resetNil h t
  some (h, { t with count := t.count + 1 })

/-- `rbtree_find_node` (rbtree_find_node.c:34-61): the address of the node found, if any. -/
def findNode (h : Heap) (nil : Nat) (k : K) : Nat → Nat → Option (Option Nat)
  | 0, _ => none
  | n + 1, x =>
    if x = nil then some none
    else do
      let nx ← h x
      match o.cmp k (o.key nx.value) with
      | .eq => some (some x)
      | .lt => findNode h nil k n nx.left
      | .gt => findNode h nil k n nx.right

end

/-- `rbtree_minimum_node` (rbtree_minimum_node.c:26-36) -/
def minimum (h : Heap) (nil : Nat) : Nat → Nat → Option Nat
  | 0, _ => none
  | n + 1, x => do
    let nx ← h x
    if nx.left ≠ nil then minimum h nil n nx.left else some x

/-- `rbtree_maximum_node` (rbtree_maximum_node.c:26-36) -/
def maximum (h : Heap) (nil : Nat) : Nat → Nat → Option Nat
  | 0, _ => none
  | n + 1, x => do
    let nx ← h x
    if nx.right ≠ nil then maximum h nil n nx.right else some x

/-- The loop of `rbtree_successor_node` (rbtree_successor_node.c:37-41) -/
def climbRight (h : Heap) (nil : Nat) : Nat → Nat → Nat → Option Nat
  | 0, _, _ => none
  | n + 1, x, y =>
    if y = nil then some y
    else do
      let ny ← h y
      if x = ny.right then climbRight h nil n y ny.parent else some y

/-- `rbtree_successor_node` (rbtree_successor_node.c:26-44) -/
def successor (fuel : Nat) (h : Heap) (nil x : Nat) : Option Nat := do
  let nx ← h x
  if nx.right ≠ nil then minimum h nil fuel nx.right else climbRight h nil fuel x nx.parent

/-- The loop of `rbtree_predecessor_node` (rbtree_predecessor_node.c:37-41) -/
def climbLeft (h : Heap) (nil : Nat) : Nat → Nat → Nat → Option Nat
  | 0, _, _ => none
  | n + 1, x, y =>
    if y = nil then some y
    else do
      let ny ← h y
      if x = ny.left then climbLeft h nil n y ny.parent else some y

/-- `rbtree_predecessor_node` (rbtree_predecessor_node.c:26-44) -/
def predecessor (fuel : Nat) (h : Heap) (nil x : Nat) : Option Nat := do
  let nx ← h x
  if nx.left ≠ nil then maximum h nil fuel nx.left else climbLeft h nil fuel x nx.parent

/-- `rbtree_transplant` (rbtree_transplant.c:27-53) -/
def transplant (h : Heap) (t : Tree) (u v : Nat) : Option (Heap × Tree) := do
  let nu ← h u
  let (h, t) ← relinkLeft h t nu.parent u v
  let nu ← h u
  let h ← setParent h v nu.parent
  some (h, t)

/-- The body of the loop of `rbtree_delete_fixup`, first branch (rbtree_delete_fixup.c:32-64) -/
def deleteFixupLeft (h : Heap) (t : Tree) (x : Nat) : Option (Heap × Tree × Nat) := do
  let nx ← h x
  let np ← h nx.parent
  let w := np.right
  let nw ← h w
  let (h, t, w) ←
    (if nw.red then do
       let h ← setRed h w false
       let h ← setRed h nx.parent true
       let (h, t) ← leftRotate h t nx.parent
       let nx ← h x
       let np ← h nx.parent
       some (h, t, np.right)
     else some (h, t, w))
  let nw ← h w
  let wl ← h nw.left
  let wr ← h nw.right
  if wl.red = false ∧ wr.red = false then
    let h ← setRed h w true
    let nx ← h x
    some (h, t, nx.parent)
  else
    let (h, t, w) ←
      (if wr.red = false then do
         let h ← setRed h nw.left false
         let h ← setRed h w true
         let (h, t) ← rightRotate h t w
         let nx ← h x
         let np ← h nx.parent
         some (h, t, np.right)
       else some (h, t, w))
    let nx ← h x
    let np ← h nx.parent
    let h ← setRed h w np.red
    let h ← setRed h nx.parent false
    let nw ← h w
    let h ← setRed h nw.right false
    let (h, t) ← leftRotate h t nx.parent
    some (h, t, t.root)

/-- Second branch (rbtree_delete_fixup.c:65-99). Line 69 tests the colour of `x` where the mirror image
tests that of `w`; `x` is black here. -/
def deleteFixupRight (h : Heap) (t : Tree) (x : Nat) : Option (Heap × Tree × Nat) := do
  let nx ← h x
  let np ← h nx.parent
  let w := np.left
  let (h, t, w) ←
    (if nx.red then do
       let h ← setRed h w false
       let h ← setRed h nx.parent true
       let (h, t) ← rightRotate h t nx.parent
       let nx ← h x
       let np ← h nx.parent
       some (h, t, np.left)
     else some (h, t, w))
  let nw ← h w
  let wl ← h nw.left
  let wr ← h nw.right
  if wr.red = false ∧ wl.red = false then
    let h ← setRed h w true
    let nx ← h x
    some (h, t, nx.parent)
  else
    let (h, t, w) ←
      (if wl.red = false then do
         let h ← setRed h nw.right false
         let h ← setRed h w true
         let (h, t) ← leftRotate h t w
         let nx ← h x
         let np ← h nx.parent
         some (h, t, np.left)
       else some (h, t, w))
    let nx ← h x
    let np ← h nx.parent
    let h ← setRed h w np.red
    let h ← setRed h nx.parent false
    let nw ← h w
    let h ← setRed h nw.left false
    let (h, t) ← rightRotate h t nx.parent
    some (h, t, t.root)

/-- The loop of `rbtree_delete_fixup` (rbtree_delete_fixup.c:28-100). The condition `x != tree->nil` on
line 28 is what stops the code from rebalancing when the removed node had no child. -/
def deleteFixupLoop : Nat → Heap → Tree → Nat → Option (Heap × Tree × Nat)
  | 0, _, _, _ => none
  | n + 1, h, t, x => do
    let nx ← h x
    if x ≠ t.nil ∧ nx.red = false then
      let np ← h nx.parent
      let (h, t, x) ← (if x = np.left then deleteFixupLeft h t x else deleteFixupRight h t x)
      deleteFixupLoop n h t x
    else some (h, t, x)

/-- `rbtree_delete_fixup` (rbtree_delete_fixup.c:24-103) -/
def deleteFixup (fuel : Nat) (h : Heap) (t : Tree) (x : Nat) : Option (Heap × Tree) := do
  let (h, t, x) ← deleteFixupLoop fuel h t x
  let h ← setRed h x false
  some (h, t)

/-- `rbtree_remove_node` (rbtree_remove_node.c:27-83) up to the call of the fix-up (28-68): heap, tree,
`x`, and `y_original_color`. -/
def removeSplice (fuel : Nat) (h : Heap) (t : Tree) (z : Nat) : Option (Heap × Tree × Nat × Bool) := do
  let nz ← h z
  if nz.left = t.nil then
    let (h, t) ← transplant h t z nz.right
    some (h, t, nz.right, nz.red)
  else if nz.right = t.nil then
    let (h, t) ← transplant h t z nz.left
    some (h, t, nz.left, nz.red)
  else
    let y ← minimum h t.nil fuel nz.right
    let ny ← h y
    let x := ny.right
    let (h, t) ←
      (if ny.parent = z then do
         let h ← setParent h x y
         some (h, t)
       else do
         let (h, t) ← transplant h t y x
         let nz ← h z
         let h ← setRight h y nz.right
         let ny ← h y
         let h ← setParent h ny.right y
         some (h, t))
    let (h, t) ← transplant h t z y
    let nz ← h z
    let h ← setLeft h y nz.left
    let ny' ← h y
    let h ← setParent h ny'.left y
    let nz ← h z
    let h ← setRed h y nz.red
    some (h, t, x, ny.red)

/-- `rbtree_remove_node` (rbtree_remove_node.c:27-83) -/
def removeNode (fuel : Nat) (h : Heap) (t : Tree) (z : Nat) : Option (Heap × Tree) := do
  let (h, t, x, c) ← removeSplice fuel h t z
  let (h, t) ← (if c = false then deleteFixup fuel h t x else some (h, t))
  let h ← resetNil h t
  some (h, { t with count := t.count - 1 })

/-! ### The interface -/

/-- Memory: the nodes, the tree, and the values whose release method has been called, in order.
(src/rbtree/rbtree_internal.h:25-53) -/
structure St where
  heap : Heap
  tree : Tree
  released : List Nat

/-- `rbtree_create` (rbtree_create.c:75-134) with the sentinel at address `nil`. The value of the
sentinel is a pointer to itself there; it is never used as a value. -/
def create (nil : Nat) : St :=
  ⟨fun a => if a = nil then some ⟨nil, nil, nil, false, 0⟩ else none, ⟨nil, nil, 0⟩, []⟩

/-- The answers of the environment: the status of releasing a value, and of reclaiming the memory of a
node. Memory whose reclaiming fails counts as still allocated.
Not in the code: the user's resources and the allocator. -/
structure Env where
  release : Nat → Status
  reclaim : Nat → Status

/-- `rbtree_node_release` (rbtree_node_create.c:112-140) -/
def nodeRelease (e : Env) (h : Heap) (log : List Nat) (a : Nat) : Option (Status × Heap × List Nat) := do
  let n ← h a
  let reclaim := fun (h : Heap) (log : List Nat) =>
    if e.reclaim a ≠ SUCCESS then (e.reclaim a, h, log)
    else (SUCCESS, (fun b => if b = a then none else h b : Heap), log)
  if n.value ≠ 0 then
    let h := put h a { n with value := 0 }
    let log := log ++ [n.value]
    if e.release n.value ≠ SUCCESS then some (e.release n.value, h, log)
    else some (reclaim h log)
  else some (reclaim h log)

/-- `rbtree_delete_nodes` (rbtree_delete_nodes.c:30-61) -/
def deleteNodes (e : Env) (nil : Nat) : Nat → Heap → List Nat → Nat → Option (Status × Heap × List Nat)
  | 0, _, _, _ => none
  | f + 1, h, log, n => do
    let nn ← h n
    let (sl, h, log) ← (if nil ≠ nn.left then deleteNodes e nil f h log nn.left else some (SUCCESS, h, log))
    let nn ← h n
    let (sr, h, log) ← (if nil ≠ nn.right then deleteNodes e nil f h log nn.right else some (SUCCESS, h, log))
    let (sn, h, log) ← nodeRelease e h log n
    some (if sl ≠ SUCCESS then sl else if sr ≠ SUCCESS then sr else sn, h, log)

/-- `rbtree_clear` (rbtree_clear.c:40-66) -/
def clear (e : Env) (s : St) : Option (Status × St) := do
  let (st, h, log) ←
    (if s.tree.root ≠ s.tree.nil then deleteNodes e s.tree.nil (s.tree.count + 2) s.heap s.released s.tree.root
     else some (SUCCESS, s.heap, s.released))
  let t := { s.tree with root := s.tree.nil, count := 0 }
  let h ← resetNil h t
  some (st, ⟨h, t, log⟩)

section
variable {K : Type} (o : Order K)

/-- `rbtree_insert` (rbtree_insert.c:45-68) with `rbtree_node_create` (rbtree_node_create.c:50-100); `st`
is the status of the allocation and `a` the address it returns. The new node's fields are set from the
cleared structure. -/
def insert (s : St) (v a : Nat) (st : Status) : Option (Status × St) :=
  if st ≠ SUCCESS then some (st, s)
  else do
    let nil := s.tree.nil
    let h := put s.heap a ⟨nil, nil, nil, false, v⟩
    let (h, t) ← insertNode o (s.tree.count + 2) h s.tree a
    some (SUCCESS, { s with heap := h, tree := t })

/-- `rbtree_find` (rbtree_find.c:44-66): the value found (0: NULL). -/
def find (s : St) (k : K) : Option (Status × Nat) := do
  match ← findNode o s.heap s.tree.nil k (s.tree.count + 2) s.tree.root with
  | none => some (ERROR_RBTREE_NOT_FOUND, 0)
  | some a =>
    let n ← s.heap a
    some (SUCCESS, n.value)

/-- `rbtree_delete_node` (rbtree_delete_node.c:53-74); `take`: the value is handed over. Returns the
status and the value handed over (0: none). -/
def deleteNode (e : Env) (s : St) (a : Nat) (take : Bool) : Option (Status × Nat × St) := do
  let (h, t) ← removeNode (s.tree.count + 2) s.heap s.tree a
  let n ← h a
  let (h, v) := if take then (put h a { n with value := 0 }, n.value) else (h, 0)
  let (st, h, log) ← nodeRelease e h s.released a
  some (st, v, ⟨h, t, log⟩)

/-- `rbtree_delete` (rbtree_delete.c:51-81) -/
def delete (e : Env) (s : St) (k : K) (take : Bool) : Option (Status × Nat × St) := do
  match ← findNode o s.heap s.tree.nil k (s.tree.count + 2) s.tree.root with
  | none => some (ERROR_RBTREE_NOT_FOUND, 0, s)
  | some a => deleteNode e s a take

end

/-- `rbtree_resource_release` (rbtree_create.c:145-176): the nodes, then the structure itself with the
sentinel in it; `st` is the status of reclaiming the structure. -/
def treeRelease (e : Env) (st : Status) (s : St) : Option (Status × Heap × List Nat) := do
  let (sd, h, log) ←
    (if s.tree.root ≠ s.tree.nil then deleteNodes e s.tree.nil (s.tree.count + 2) s.heap s.released s.tree.root
     else some (SUCCESS, s.heap, s.released))
  some (if sd ≠ SUCCESS then sd else st, h, log)

/-! ### Two trees -/

/-- Two trees in the same memory: the structures and the addresses of the sentinels embedded in them.
(`nil_impl`, src/rbtree/rbtree_internal.h:50) -/
structure Pair where
  heap : Heap
  nl : Nat
  nr : Nat
  left : Tree
  right : Tree

/-- `rbtree_swap` (rbtree_swap.c:37-52): the structures are exchanged byte by byte, the sentinels embedded
in them included. The callbacks and the context go along with the tree; they are not part of the model's
structure. -/
def swap (p : Pair) : Option Pair := do
  let a ← p.heap p.nl
  let b ← p.heap p.nr
  some { p with heap := put (put p.heap p.nl b) p.nr a, left := p.right, right := p.left }

/-- Releasing the right tree (`rbtree_resource_release`, rbtree_create.c:145-176): the nodes, then the
structure with its sentinel. `st` is the status of reclaiming the structure. -/
def releaseRight (e : Env) (st : Status) (p : Pair) : Option (Status × Pair × List Nat) := do
  let (r, h, log) ← treeRelease e st ⟨p.heap, p.right, []⟩
  some (r, { p with heap := if st = SUCCESS then (fun b => if b = p.nr then none else h b) else h }, log)

end Rcpr.RB
