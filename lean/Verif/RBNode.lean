import Verif.RBSpec

/-!
The functions with which a user looks at the nodes of a tree, and two loops a user writes with them.
-/
namespace Rcpr.RB

/-- `rbtree_root_node` (src/rbtree/rbtree_root_node.c:25-33) -/
def rootNode (t : Tree) : Nat := t.root

/-- `rbtree_nil_node` (src/rbtree/rbtree_nil_node.c:25-33) -/
def nilOf (t : Tree) : Nat := t.nil

/-- `rbtree_count` (src/rbtree/rbtree_count.c:23-30) -/
def treeCount (t : Tree) : Nat := t.count

/-- `rbtree_left_node` (src/rbtree/rbtree_left_node.c:27-34) -/
def leftNode (h : Heap) (x : Nat) : Option Nat := do
  let n ← h x
  some n.left

/-- `rbtree_right_node` (src/rbtree/rbtree_right_node.c:27-34) -/
def rightNode (h : Heap) (x : Nat) : Option Nat := do
  let n ← h x
  some n.right

/-- `rbtree_parent_node` (src/rbtree/rbtree_parent_node.c:27-34) -/
def parentNode (h : Heap) (x : Nat) : Option Nat := do
  let n ← h x
  some n.parent

/-- `rbtree_node_value` (src/rbtree/rbtree_node_value.c:28-41) -/
def nodeValue (h : Heap) (x : Nat) : Option Nat := do
  let n ← h x
  some n.value

/-- A user's function that lists what is below a node: first what is to the left, then the value of the node,
then what is to the right. Not in the code: a client. -/
def collect (h : Heap) (t : Tree) : Nat → Nat → Option (List Nat)
  | 0, _ => none
  | n + 1, x =>
    if x = nilOf t then some []
    else do
      let y ← leftNode h x
      let a ← collect h t n y
      let v ← nodeValue h x
      let z ← rightNode h x
      let b ← collect h t n z
      some (a ++ v :: b)

/-- A user's loop from a node up: `for (; x != nil; x = parent(x))`, listing the nodes. Not in the code: a client. -/
def climb (h : Heap) (t : Tree) : Nat → Nat → Option (List Nat)
  | 0, _ => none
  | n + 1, x =>
    if x = nilOf t then some []
    else do
      let y ← parentNode h x
      let l ← climb h t n y
      some (x :: l)

end Rcpr.RB
