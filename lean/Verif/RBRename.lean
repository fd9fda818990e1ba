import Verif.RBRun
import Verif.RBShape

/-!
The tree operations do not depend on which addresses the nodes have: run on two heaps that differ by a
renaming of addresses they do the same. With this a property of trees of bounded size is settled by running the
operations on the finitely many trees with addresses 0, 1, 2, ...
-/
namespace Rcpr.RB

open Rcpr

/-- A renaming `f` of the addresses in `S`; `V` and `V'` give the values of the nodes on both sides, `h0` is what
the first heap holds elsewhere. -/
structure Ren where
  S : List Nat
  f : Nat → Nat
  inj : ∀ a ∈ S, ∀ b ∈ S, f a = f b → a = b
  V : Nat → Nat
  V' : Nat → Nat
  h0 : Heap

namespace Ren

variable (ρ : Ren)

def A (a a' : Nat) : Prop := a ∈ ρ.S ∧ a' = ρ.f a

structure N (a : Nat) (n n' : Node) : Prop where
  parent : ρ.A n.parent n'.parent
  left : ρ.A n.left n'.left
  right : ρ.A n.right n'.right
  red : n.red = n'.red
  value : n.value = ρ.V a
  value' : n'.value = ρ.V' (ρ.f a)

structure H (h h' : Heap) : Prop where
  cell : ∀ a ∈ ρ.S, ∃ n n', h a = some n ∧ h' (ρ.f a) = some n' ∧ ρ.N a n n'
  rest : ∀ a, a ∉ ρ.S → h a = ρ.h0 a

structure R (t t' : Tree) : Prop where
  root : ρ.A t.root t'.root
  nil : ρ.A t.nil t'.nil
  count : t.count = t'.count

/-- Both fail, or both succeed with related results. -/
def O {α β : Type} (Q : α → β → Prop) : Option α → Option β → Prop
  | none, none => True
  | some a, some b => Q a b
  | _, _ => False

theorem O.bind {α β γ δ : Type} {Q : α → β → Prop} {Q' : γ → δ → Prop} {x : Option α} {x' : Option β}
    {g : α → Option γ} {g' : β → Option δ} (hx : O Q x x') (hg : ∀ a b, Q a b → O Q' (g a) (g' b)) :
    O Q' (x >>= g) (x' >>= g') := by
  cases x <;> cases x'
  · trivial
  · cases hx
  · cases hx
  · exact hg _ _ hx

theorem O.map {α β γ δ : Type} {Q : α → β → Prop} {Q' : γ → δ → Prop} {x : Option α} {x' : Option β}
    {g : α → γ} {g' : β → δ} (hx : O Q x x') (hg : ∀ a b, Q a b → Q' (g a) (g' b)) :
    O Q' (x.map g) (x'.map g') := by
  cases x <;> cases x'
  · trivial
  · cases hx
  · cases hx
  · exact hg _ _ hx

theorem O.ite {α β : Type} {Q : α → β → Prop} {c c' : Prop} [Decidable c] [Decidable c'] {x y : Option α} {x' y' : Option β}
    (hc : c ↔ c') (h1 : O Q x x') (h2 : O Q y y') : O Q (if c then x else y) (if c' then x' else y') := by
  by_cases h : c
  · rw [if_pos h, if_pos (hc.1 h)]; exact h1
  · rw [if_neg h, if_neg (fun h' => h (hc.2 h'))]; exact h2

variable {ρ}

theorem A.eq {a a' b b' : Nat} (ha : ρ.A a a') (hb : ρ.A b b') : a = b ↔ a' = b' :=
  ⟨fun h => by rw [ha.2, hb.2, h], fun h => ρ.inj a ha.1 b hb.1 (by rw [← ha.2, ← hb.2, h])⟩

theorem A.ne {a a' b b' : Nat} (ha : ρ.A a a') (hb : ρ.A b b') : a ≠ b ↔ a' ≠ b' := by
  rw [ne_eq, ne_eq, A.eq ha hb]

theorem H.get {h h' : Heap} (hh : ρ.H h h') {a a' : Nat} (ha : ρ.A a a') : O (ρ.N a) (h a) (h' a') := by
  obtain ⟨n, n', h1, h2, h3⟩ := hh.cell a ha.1
  rw [ha.2, h1, h2]; exact h3

theorem H.put {h h' : Heap} (hh : ρ.H h h') {a a' : Nat} (ha : ρ.A a a') {n n' : Node} (hn : ρ.N a n n') :
    ρ.H (put h a n) (put h' a' n') := by
  refine ⟨fun b hb => ?_, fun b hb => ?_⟩
  · by_cases hab : b = a
    · subst hab; exact ⟨n, n', put_same, by rw [← ha.2]; exact put_same, hn⟩
    · have : ρ.f b ≠ a' := fun h => hab (ρ.inj b hb a ha.1 (by rw [h, ha.2]))
      obtain ⟨m, m', h1, h2, h3⟩ := hh.cell b hb
      exact ⟨m, m', by rw [put_ne hab]; exact h1, by rw [put_ne this]; exact h2, h3⟩
  · have : b ≠ a := fun h => hb (h ▸ ha.1)
    rw [put_ne this]; exact hh.rest b hb

theorem setParent_rel {h h' : Heap} (hh : ρ.H h h') {a a' p p' : Nat} (ha : ρ.A a a') (hp : ρ.A p p') :
    O ρ.H (setParent h a p) (setParent h' a' p') :=
  (hh.get ha).map fun _ _ hn => hh.put ha ⟨hp, hn.left, hn.right, hn.red, hn.value, hn.value'⟩

theorem setLeft_rel {h h' : Heap} (hh : ρ.H h h') {a a' p p' : Nat} (ha : ρ.A a a') (hp : ρ.A p p') :
    O ρ.H (setLeft h a p) (setLeft h' a' p') :=
  (hh.get ha).map fun _ _ hn => hh.put ha ⟨hn.parent, hp, hn.right, hn.red, hn.value, hn.value'⟩

theorem setRight_rel {h h' : Heap} (hh : ρ.H h h') {a a' p p' : Nat} (ha : ρ.A a a') (hp : ρ.A p p') :
    O ρ.H (setRight h a p) (setRight h' a' p') :=
  (hh.get ha).map fun _ _ hn => hh.put ha ⟨hn.parent, hn.left, hp, hn.red, hn.value, hn.value'⟩

theorem setRed_rel {h h' : Heap} (hh : ρ.H h h') {a a' : Nat} {c c' : Bool} (ha : ρ.A a a') (hc : c = c') :
    O ρ.H (setRed h a c) (setRed h' a' c') :=
  (hh.get ha).map fun _ _ hn => hh.put ha ⟨hn.parent, hn.left, hn.right, hc, hn.value, hn.value'⟩

variable (ρ) in
def P (x x' : Heap × Tree) : Prop := ρ.H x.1 x'.1 ∧ ρ.R x.2 x'.2

variable (ρ) in
def P3 (x x' : Heap × Tree × Nat) : Prop := ρ.H x.1 x'.1 ∧ ρ.R x.2.1 x'.2.1 ∧ ρ.A x.2.2 x'.2.2

theorem relinkLeft_rel {h h' : Heap} {t t' : Tree} {p p' x x' y y' : Nat} (hh : ρ.H h h') (ht : ρ.R t t') (hp : ρ.A p p')
    (hx : ρ.A x x') (hy : ρ.A y y') : O ρ.P (relinkLeft h t p x y) (relinkLeft h' t' p' x' y') := by
  unfold relinkLeft
  refine .ite (hp.eq ht.nil) ⟨hh, hy, ht.nil, ht.count⟩ ?_
  refine (hh.get hp).bind fun np np' hn => ?_
  refine .ite (hx.eq hn.left) ((setLeft_rel hh hp hy).bind fun h1 h1' hh1 => ⟨hh1, ht⟩) ?_
  exact (setRight_rel hh hp hy).bind fun h1 h1' hh1 => ⟨hh1, ht⟩

theorem relinkRight_rel {h h' : Heap} {t t' : Tree} {p p' x x' y y' : Nat} (hh : ρ.H h h') (ht : ρ.R t t') (hp : ρ.A p p')
    (hx : ρ.A x x') (hy : ρ.A y y') : O ρ.P (relinkRight h t p x y) (relinkRight h' t' p' x' y') := by
  unfold relinkRight
  refine .ite (hp.eq ht.nil) ⟨hh, hy, ht.nil, ht.count⟩ ?_
  refine (hh.get hp).bind fun np np' hn => ?_
  refine .ite (hx.eq hn.right) ((setRight_rel hh hp hy).bind fun h1 h1' hh1 => ⟨hh1, ht⟩) ?_
  exact (setLeft_rel hh hp hy).bind fun h1 h1' hh1 => ⟨hh1, ht⟩

theorem leftRotate_rel {h h' : Heap} {t t' : Tree} {x x' : Nat} (hh : ρ.H h h') (ht : ρ.R t t') (hx : ρ.A x x') :
    O ρ.P (leftRotate h t x) (leftRotate h' t' x') := by
  unfold leftRotate
  refine (hh.get hx).bind fun nx nx' n1 => ?_
  have hy := n1.right
  refine (hh.get hy).bind fun ny ny' n2 => ?_
  refine (setRight_rel hh hx n2.left).bind fun h h' hh => ?_
  refine (hh.get hy).bind fun ny ny' n2 => ?_
  refine (O.ite (n2.left.ne ht.nil) (setParent_rel hh n2.left hx) (by exact hh)).bind fun h h' hh => ?_
  refine (hh.get hx).bind fun nx nx' n1 => ?_
  refine (setParent_rel hh hy n1.parent).bind fun h h' hh => ?_
  refine (hh.get hx).bind fun nx nx' n1 => ?_
  refine (relinkLeft_rel hh ht n1.parent hx hy).bind fun r r' hr => ?_
  obtain ⟨hh, ht⟩ := hr
  refine (setLeft_rel hh hy hx).bind fun h h' hh => ?_
  refine (setParent_rel hh hx hy).bind fun h h' hh => ?_
  exact ⟨hh, ht⟩

theorem rightRotate_rel {h h' : Heap} {t t' : Tree} {y y' : Nat} (hh : ρ.H h h') (ht : ρ.R t t') (hy : ρ.A y y') :
    O ρ.P (rightRotate h t y) (rightRotate h' t' y') := by
  unfold rightRotate
  refine (hh.get hy).bind fun ny ny' n1 => ?_
  have hx := n1.left
  refine (hh.get hx).bind fun nx nx' n2 => ?_
  refine (setLeft_rel hh hy n2.right).bind fun h h' hh => ?_
  refine (hh.get hx).bind fun nx nx' n2 => ?_
  refine (O.ite (n2.right.ne ht.nil) (setParent_rel hh n2.right hy) (by exact hh)).bind fun h h' hh => ?_
  refine (hh.get hy).bind fun ny ny' n1 => ?_
  refine (setParent_rel hh hx n1.parent).bind fun h h' hh => ?_
  refine (hh.get hy).bind fun ny ny' n1 => ?_
  refine (relinkRight_rel hh ht n1.parent hy hx).bind fun r r' hr => ?_
  obtain ⟨hh, ht⟩ := hr
  refine (setRight_rel hh hx hy).bind fun h h' hh => ?_
  refine (setParent_rel hh hy hx).bind fun h h' hh => ?_
  exact ⟨hh, ht⟩

theorem insertFixupLeft_rel {h h' : Heap} {t t' : Tree} {z z' p p' g g' : Nat} {ng ng' : Node} {b : Nat} (hh : ρ.H h h')
    (ht : ρ.R t t') (hz : ρ.A z z') (hp : ρ.A p p') (hg : ρ.A g g') (hn : ρ.N b ng ng') :
    O ρ.P3 (insertFixupLeft h t z p g ng) (insertFixupLeft h' t' z' p' g' ng') := by
  unfold insertFixupLeft
  have hy := hn.right
  refine (hh.get hy).bind fun ny ny' n1 => ?_
  refine .ite (by rw [n1.red]) ?_ ?_
  · refine (setRed_rel hh hp rfl).bind fun h h' hh => ?_
    refine (setRed_rel hh hy rfl).bind fun h h' hh => ?_
    refine (setRed_rel hh hg rfl).bind fun h h' hh => ?_
    exact ⟨hh, ht, hg⟩
  · refine (hh.get hp).bind fun np np' n2 => ?_
    refine (O.ite (Q := ρ.P3) (hz.eq n2.right) ((leftRotate_rel hh ht hp).map fun r r' hr => ⟨hr.1, hr.2, hp⟩) (by exact ⟨hh, ht, hz⟩)).bind fun r r' hr => ?_
    obtain ⟨hh, ht, hz⟩ := hr
    refine (hh.get hz).bind fun nz nz' n3 => ?_
    refine (setRed_rel hh n3.parent rfl).bind fun h h' hh => ?_
    refine (hh.get n3.parent).bind fun np np' n4 => ?_
    refine (setRed_rel hh n4.parent rfl).bind fun h h' hh => ?_
    refine (rightRotate_rel hh ht n4.parent).bind fun r r' hr => ?_
    exact ⟨hr.1, hr.2, hz⟩

theorem insertFixupRight_rel {h h' : Heap} {t t' : Tree} {z z' p p' g g' : Nat} {ng ng' : Node} {b : Nat} (hh : ρ.H h h')
    (ht : ρ.R t t') (hz : ρ.A z z') (hp : ρ.A p p') (hg : ρ.A g g') (hn : ρ.N b ng ng') :
    O ρ.P3 (insertFixupRight h t z p g ng) (insertFixupRight h' t' z' p' g' ng') := by
  unfold insertFixupRight
  have hy := hn.left
  refine (hh.get hy).bind fun ny ny' n1 => ?_
  refine .ite (by rw [n1.red]) ?_ ?_
  · refine (setRed_rel hh hp rfl).bind fun h h' hh => ?_
    refine (setRed_rel hh hy rfl).bind fun h h' hh => ?_
    refine (setRed_rel hh hg rfl).bind fun h h' hh => ?_
    exact ⟨hh, ht, hg⟩
  · refine (hh.get hp).bind fun np np' n2 => ?_
    refine (O.ite (Q := ρ.P3) (hz.eq n2.left) ((rightRotate_rel hh ht hp).map fun r r' hr => ⟨hr.1, hr.2, hp⟩) (by exact ⟨hh, ht, hz⟩)).bind fun r r' hr => ?_
    obtain ⟨hh, ht, hz⟩ := hr
    refine (hh.get hz).bind fun nz nz' n3 => ?_
    refine (setRed_rel hh n3.parent rfl).bind fun h h' hh => ?_
    refine (hh.get n3.parent).bind fun np np' n4 => ?_
    refine (setRed_rel hh n4.parent rfl).bind fun h h' hh => ?_
    refine (leftRotate_rel hh ht n4.parent).bind fun r r' hr => ?_
    exact ⟨hr.1, hr.2, hz⟩

theorem insertFixupLoop_rel : ∀ (n : Nat) {h h' : Heap} {t t' : Tree} {z z' : Nat}, ρ.H h h' → ρ.R t t' → ρ.A z z' →
    O ρ.P (insertFixupLoop n h t z) (insertFixupLoop n h' t' z')
  | 0, _, _, _, _, _, _, _, _, _ => trivial
  | n + 1, h, h', t, t', z, z', hh, ht, hz => by
    unfold insertFixupLoop
    refine (hh.get hz).bind fun nz nz' n1 => ?_
    refine (hh.get n1.parent).bind fun np np' n2 => ?_
    refine .ite (by rw [n2.red]) ?_ ⟨hh, ht⟩
    refine (hh.get n2.parent).bind fun ng ng' n3 => ?_
    refine (O.ite (n1.parent.eq n3.left) (insertFixupLeft_rel hh ht hz n1.parent n2.parent n3)
      (insertFixupRight_rel hh ht hz n1.parent n2.parent n3)).bind fun r r' hr => ?_
    exact insertFixupLoop_rel n hr.1 hr.2.1 hr.2.2

theorem insertFixup_rel {n : Nat} {h h' : Heap} {t t' : Tree} {z z' : Nat} (hh : ρ.H h h') (ht : ρ.R t t') (hz : ρ.A z z') :
    O ρ.P (insertFixup n h t z) (insertFixup n h' t' z') := by
  unfold insertFixup
  refine (insertFixupLoop_rel n hh ht hz).bind fun r r' hr => ?_
  refine (setRed_rel hr.1 hr.2.root rfl).bind fun h h' hh => ?_
  exact ⟨hh, hr.2⟩

theorem resetNil_rel {h h' : Heap} {t t' : Tree} (hh : ρ.H h h') (ht : ρ.R t t') : O ρ.H (resetNil h t) (resetNil h' t') := by
  unfold resetNil
  refine (hh.get ht.nil).bind fun n n' hn => ?_
  exact hh.put ht.nil ⟨ht.nil, ht.nil, ht.nil, rfl, hn.value, hn.value'⟩

section
variable {K K' : Type} {o : Order K} {o' : Order K'}

variable (ρ) in
/-- The comparisons with key `k` come out alike on both sides, except perhaps at the sentinel. -/
def Key (o : Order K) (o' : Order K') (nil : Nat) (k : K) (k' : K') : Prop :=
  ∀ a ∈ ρ.S, a ≠ nil → (o.cmp k (o.key (ρ.V a)) = .lt ↔ o'.cmp k' (o'.key (ρ.V' (ρ.f a))) = .lt)

theorem insertDescend_rel {nil nil' : Nat} {k : K} {k' : K'} {h h' : Heap} (hk : ρ.Key o o' nil k k') (hh : ρ.H h h') (hnil : ρ.A nil nil') :
    ∀ (n : Nat) {x x' y y' : Nat}, ρ.A x x' → ρ.A y y' → O ρ.A (insertDescend o h nil k n x y) (insertDescend o' h' nil' k' n x' y')
  | 0, _, _, _, _, _, _ => trivial
  | n + 1, x, x', y, y', hx, hy => by
    unfold insertDescend
    by_cases hc : x = nil
    · rw [if_pos hc, if_pos ((hx.eq hnil).1 hc)]; exact hy
    · rw [if_neg hc, if_neg fun h => hc ((hx.eq hnil).2 h)]
      refine (hh.get hx).bind fun nx nx' n1 => ?_
      refine .ite (by rw [n1.value, n1.value']; exact hk x hx.1 hc) ?_ ?_
      · exact insertDescend_rel hk hh hnil n n1.left hx
      · exact insertDescend_rel hk hh hnil n n1.right hx

theorem insertNode_rel {n : Nat} {h h' : Heap} {t t' : Tree} {z z' : Nat} (hh : ρ.H h h') (ht : ρ.R t t') (hz : ρ.A z z')
    (hk : ρ.Key o o' t.nil (o.key (ρ.V z)) (o'.key (ρ.V' (ρ.f z)))) :
    O ρ.P (insertNode o n h t z) (insertNode o' n h' t' z') := by
  unfold insertNode
  refine (hh.get hz).bind fun nz nz' n1 => ?_
  rw [n1.value, n1.value']
  refine (insertDescend_rel hk hh ht.nil n ht.root ht.nil).bind fun y y' hy => ?_
  refine (setParent_rel hh hz hy).bind fun h h' hh => ?_
  have : O ρ.P (if y = t.nil then some (h, { t with root := z })
     else do
       let ny ← h y
       if o.cmp (o.key (ρ.V z)) (o.key ny.value) = .lt then some (← setLeft h y z, t)
       else some (← setRight h y z, t)) (if y' = t'.nil then some (h', { t' with root := z' })
     else do
       let ny ← h' y'
       if o'.cmp (o'.key (ρ.V' (ρ.f z))) (o'.key ny.value) = .lt then some (← setLeft h' y' z', t')
       else some (← setRight h' y' z', t')) := by
    by_cases hc : y = t.nil
    · rw [if_pos hc, if_pos ((hy.eq ht.nil).1 hc)]; exact ⟨hh, hz, ht.nil, ht.count⟩
    · rw [if_neg hc, if_neg fun h => hc ((hy.eq ht.nil).2 h)]
      refine (hh.get hy).bind fun ny ny' n1 => ?_
      refine .ite (by rw [n1.value, n1.value']; exact hk y hy.1 hc) ?_ ?_
      · exact (setLeft_rel hh hy hz).bind fun h h' hh => ⟨hh, ht⟩
      · exact (setRight_rel hh hy hz).bind fun h h' hh => ⟨hh, ht⟩
  refine this.bind fun r r' hr => ?_
  obtain ⟨hh, ht⟩ := hr
  refine (setLeft_rel hh hz ht.nil).bind fun h h' hh => ?_
  refine (setRight_rel hh hz ht.nil).bind fun h h' hh => ?_
  refine (setRed_rel hh hz rfl).bind fun h h' hh => ?_
  refine (insertFixup_rel hh ht hz).bind fun r r' hr => ?_
  obtain ⟨hh, ht⟩ := hr
  refine (resetNil_rel hh ht).bind fun h h' hh => ?_
  exact ⟨hh, ht.root, ht.nil, congrArg (· + 1) ht.count⟩

end

theorem minimum_rel {h h' : Heap} {nil nil' : Nat} (hh : ρ.H h h') (hnil : ρ.A nil nil') :
    ∀ (n : Nat) {x x' : Nat}, ρ.A x x' → O ρ.A (minimum h nil n x) (minimum h' nil' n x')
  | 0, _, _, _ => trivial
  | n + 1, x, x', hx => by
    unfold minimum
    refine (hh.get hx).bind fun nx nx' n1 => ?_
    exact .ite (n1.left.ne hnil) (minimum_rel hh hnil n n1.left) hx

theorem transplant_rel {h h' : Heap} {t t' : Tree} {u u' v v' : Nat} (hh : ρ.H h h') (ht : ρ.R t t') (hu : ρ.A u u') (hv : ρ.A v v') :
    O ρ.P (transplant h t u v) (transplant h' t' u' v') := by
  unfold transplant
  refine (hh.get hu).bind fun nu nu' n1 => ?_
  refine (relinkLeft_rel hh ht n1.parent hu hv).bind fun r r' hr => ?_
  obtain ⟨hh, ht⟩ := hr
  refine (hh.get hu).bind fun nu nu' n1 => ?_
  refine (setParent_rel hh hv n1.parent).bind fun h h' hh => ?_
  exact ⟨hh, ht⟩

theorem deleteFixupLeft_rel {h h' : Heap} {t t' : Tree} {x x' : Nat} (hh : ρ.H h h') (ht : ρ.R t t') (hx : ρ.A x x') :
    O ρ.P3 (deleteFixupLeft h t x) (deleteFixupLeft h' t' x') := by
  unfold deleteFixupLeft
  refine (hh.get hx).bind fun nx nx' n1 => ?_
  refine (hh.get n1.parent).bind fun np np' n2 => ?_
  refine (hh.get n2.right).bind fun nw nw' n3 => ?_
  refine (O.ite (Q := ρ.P3) (by rw [n3.red]) ?_ (by exact ⟨hh, ht, n2.right⟩)).bind fun r r' hr => ?_
  · refine (setRed_rel hh n2.right rfl).bind fun h h' hh => ?_
    refine (setRed_rel hh n1.parent rfl).bind fun h h' hh => ?_
    refine (leftRotate_rel hh ht n1.parent).bind fun r r' hr => ?_
    obtain ⟨hh, ht⟩ := hr
    refine (hh.get hx).bind fun nx nx' n1 => ?_
    refine (hh.get n1.parent).bind fun np np' n2 => ?_
    exact ⟨hh, ht, n2.right⟩
  obtain ⟨hh, ht, hw⟩ := hr
  refine (hh.get hw).bind fun nw nw' n3 => ?_
  refine (hh.get n3.left).bind fun wl wl' n4 => ?_
  refine (hh.get n3.right).bind fun wr wr' n5 => ?_
  refine .ite (by rw [n4.red, n5.red]) ?_ ?_
  · refine (setRed_rel hh hw rfl).bind fun h h' hh => ?_
    refine (hh.get hx).bind fun nx nx' n1 => ?_
    exact ⟨hh, ht, n1.parent⟩
  refine (O.ite (Q := ρ.P3) (by rw [n5.red]) ?_ (by exact ⟨hh, ht, hw⟩)).bind fun r r' hr => ?_
  · refine (setRed_rel hh n3.left rfl).bind fun h h' hh => ?_
    refine (setRed_rel hh hw rfl).bind fun h h' hh => ?_
    refine (rightRotate_rel hh ht hw).bind fun r r' hr => ?_
    obtain ⟨hh, ht⟩ := hr
    refine (hh.get hx).bind fun nx nx' n1 => ?_
    refine (hh.get n1.parent).bind fun np np' n2 => ?_
    exact ⟨hh, ht, n2.right⟩
  obtain ⟨hh, ht, hw⟩ := hr
  refine (hh.get hx).bind fun nx nx' n1 => ?_
  refine (hh.get n1.parent).bind fun np np' n2 => ?_
  refine (setRed_rel hh hw n2.red).bind fun h h' hh => ?_
  refine (setRed_rel hh n1.parent rfl).bind fun h h' hh => ?_
  refine (hh.get hw).bind fun nw nw' n3 => ?_
  refine (setRed_rel hh n3.right rfl).bind fun h h' hh => ?_
  refine (leftRotate_rel hh ht n1.parent).bind fun r r' hr => ?_
  exact ⟨hr.1, hr.2, hr.2.root⟩

theorem deleteFixupRight_rel {h h' : Heap} {t t' : Tree} {x x' : Nat} (hh : ρ.H h h') (ht : ρ.R t t') (hx : ρ.A x x') :
    O ρ.P3 (deleteFixupRight h t x) (deleteFixupRight h' t' x') := by
  unfold deleteFixupRight
  refine (hh.get hx).bind fun nx nx' n1 => ?_
  refine (hh.get n1.parent).bind fun np np' n2 => ?_
  refine (O.ite (Q := ρ.P3) (by rw [n1.red]) ?_ (by exact ⟨hh, ht, n2.left⟩)).bind fun r r' hr => ?_
  · refine (setRed_rel hh n2.left rfl).bind fun h h' hh => ?_
    refine (setRed_rel hh n1.parent rfl).bind fun h h' hh => ?_
    refine (rightRotate_rel hh ht n1.parent).bind fun r r' hr => ?_
    obtain ⟨hh, ht⟩ := hr
    refine (hh.get hx).bind fun nx nx' n1 => ?_
    refine (hh.get n1.parent).bind fun np np' n2 => ?_
    exact ⟨hh, ht, n2.left⟩
  obtain ⟨hh, ht, hw⟩ := hr
  refine (hh.get hw).bind fun nw nw' n3 => ?_
  refine (hh.get n3.left).bind fun wl wl' n4 => ?_
  refine (hh.get n3.right).bind fun wr wr' n5 => ?_
  refine .ite (by rw [n4.red, n5.red]) ?_ ?_
  · refine (setRed_rel hh hw rfl).bind fun h h' hh => ?_
    refine (hh.get hx).bind fun nx nx' n1 => ?_
    exact ⟨hh, ht, n1.parent⟩
  refine (O.ite (Q := ρ.P3) (by rw [n4.red]) ?_ (by exact ⟨hh, ht, hw⟩)).bind fun r r' hr => ?_
  · refine (setRed_rel hh n3.right rfl).bind fun h h' hh => ?_
    refine (setRed_rel hh hw rfl).bind fun h h' hh => ?_
    refine (leftRotate_rel hh ht hw).bind fun r r' hr => ?_
    obtain ⟨hh, ht⟩ := hr
    refine (hh.get hx).bind fun nx nx' n1 => ?_
    refine (hh.get n1.parent).bind fun np np' n2 => ?_
    exact ⟨hh, ht, n2.left⟩
  obtain ⟨hh, ht, hw⟩ := hr
  refine (hh.get hx).bind fun nx nx' n1 => ?_
  refine (hh.get n1.parent).bind fun np np' n2 => ?_
  refine (setRed_rel hh hw n2.red).bind fun h h' hh => ?_
  refine (setRed_rel hh n1.parent rfl).bind fun h h' hh => ?_
  refine (hh.get hw).bind fun nw nw' n3 => ?_
  refine (setRed_rel hh n3.left rfl).bind fun h h' hh => ?_
  refine (rightRotate_rel hh ht n1.parent).bind fun r r' hr => ?_
  exact ⟨hr.1, hr.2, hr.2.root⟩

theorem deleteFixupLoop_rel : ∀ (n : Nat) {h h' : Heap} {t t' : Tree} {x x' : Nat}, ρ.H h h' → ρ.R t t' → ρ.A x x' →
    O ρ.P3 (deleteFixupLoop n h t x) (deleteFixupLoop n h' t' x')
  | 0, _, _, _, _, _, _, _, _, _ => trivial
  | n + 1, h, h', t, t', x, x', hh, ht, hx => by
    unfold deleteFixupLoop
    refine (hh.get hx).bind fun nx nx' n1 => ?_
    refine .ite (by rw [n1.red, hx.ne ht.nil]) ?_ ⟨hh, ht, hx⟩
    refine (hh.get n1.parent).bind fun np np' n2 => ?_
    refine (O.ite (hx.eq n2.left) (deleteFixupLeft_rel hh ht hx) (deleteFixupRight_rel hh ht hx)).bind fun r r' hr => ?_
    exact deleteFixupLoop_rel n hr.1 hr.2.1 hr.2.2

theorem deleteFixup_rel {n : Nat} {h h' : Heap} {t t' : Tree} {x x' : Nat} (hh : ρ.H h h') (ht : ρ.R t t') (hx : ρ.A x x') :
    O ρ.P (deleteFixup n h t x) (deleteFixup n h' t' x') := by
  unfold deleteFixup
  refine (deleteFixupLoop_rel n hh ht hx).bind fun r r' hr => ?_
  obtain ⟨hh, ht, hx⟩ := hr
  refine (setRed_rel hh hx rfl).bind fun h h' hh => ?_
  exact ⟨hh, ht⟩

variable (ρ) in
def P4 (x x' : Heap × Tree × Nat × Bool) : Prop :=
  ρ.H x.1 x'.1 ∧ ρ.R x.2.1 x'.2.1 ∧ ρ.A x.2.2.1 x'.2.2.1 ∧ x.2.2.2 = x'.2.2.2

theorem removeSplice_rel {n : Nat} {h h' : Heap} {t t' : Tree} {z z' : Nat} (hh : ρ.H h h') (ht : ρ.R t t') (hz : ρ.A z z') :
    O ρ.P4 (removeSplice n h t z) (removeSplice n h' t' z') := by
  unfold removeSplice
  refine (hh.get hz).bind fun nz nz' n1 => ?_
  refine .ite (n1.left.eq ht.nil) ?_ (.ite (n1.right.eq ht.nil) ?_ ?_)
  · refine (transplant_rel hh ht hz n1.right).bind fun r r' hr => ?_
    exact ⟨hr.1, hr.2, n1.right, n1.red⟩
  · refine (transplant_rel hh ht hz n1.left).bind fun r r' hr => ?_
    exact ⟨hr.1, hr.2, n1.left, n1.red⟩
  refine (minimum_rel hh ht.nil n n1.right).bind fun y y' hy => ?_
  refine (hh.get hy).bind fun ny ny' n2 => ?_
  refine (O.ite (Q := ρ.P) (n2.parent.eq hz) ?_ ?_).bind fun r r' hr => ?_
  · refine (setParent_rel hh n2.right hy).bind fun h h' hh => ?_
    exact ⟨hh, ht⟩
  · refine (transplant_rel hh ht hy n2.right).bind fun r r' hr => ?_
    obtain ⟨hh, ht⟩ := hr
    refine (hh.get hz).bind fun nz nz' n1 => ?_
    refine (setRight_rel hh hy n1.right).bind fun h h' hh => ?_
    refine (hh.get hy).bind fun ny ny' n2 => ?_
    refine (setParent_rel hh n2.right hy).bind fun h h' hh => ?_
    exact ⟨hh, ht⟩
  obtain ⟨hh, ht⟩ := hr
  refine (transplant_rel hh ht hz hy).bind fun r r' hr => ?_
  obtain ⟨hh, ht⟩ := hr
  refine (hh.get hz).bind fun nz nz' n1 => ?_
  refine (setLeft_rel hh hy n1.left).bind fun h h' hh => ?_
  refine (hh.get hy).bind fun ny1 ny1' n3 => ?_
  refine (setParent_rel hh n3.left hy).bind fun h h' hh => ?_
  refine (hh.get hz).bind fun nz nz' n1 => ?_
  refine (setRed_rel hh hy n1.red).bind fun h h' hh => ?_
  exact ⟨hh, ht, n2.right, n2.red⟩

theorem removeNode_rel {n : Nat} {h h' : Heap} {t t' : Tree} {z z' : Nat} (hh : ρ.H h h') (ht : ρ.R t t') (hz : ρ.A z z') :
    O ρ.P (removeNode n h t z) (removeNode n h' t' z') := by
  unfold removeNode
  refine (removeSplice_rel hh ht hz).bind fun r r' hr => ?_
  obtain ⟨hh, ht, hx, hc⟩ := hr
  refine (O.ite (Q := ρ.P) (by rw [hc]) (deleteFixup_rel hh ht hx) (by exact ⟨hh, ht⟩)).bind fun r r' hr => ?_
  obtain ⟨hh, ht⟩ := hr
  refine (resetNil_rel hh ht).bind fun h h' hh => ?_
  exact ⟨hh, ht.root, ht.nil, congrArg (· - 1) ht.count⟩

end Ren

end Rcpr.RB
