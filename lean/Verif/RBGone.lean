import Verif.RBSpec

/-! Memory that is not allocated stays so during an insert; the address of the sentinel does not change. -/
namespace Rcpr.RB

open Rcpr

def Keeps (h h' : Heap) : Prop := ∀ b, h b = none → h' b = none

theorem Keeps.trans {h h' h'' : Heap} (x : Keeps h h') (y : Keeps h' h'') : Keeps h h'' := fun b hb => y b (x b hb)

theorem Keeps.refl {h : Heap} : Keeps h h := fun _ hb => hb

theorem keeps_put {h : Heap} {a : Nat} {m n : Node} (ha : h a = some m) : Keeps h (put h a n) := by
  intro b hb
  have : b ≠ a := by rintro rfl; rw [ha] at hb; cases hb
  simp [put, this, hb]

theorem setParent_keeps {h h' : Heap} {a p : Nat} (e : setParent h a p = some h') : Keeps h h' := by
  obtain ⟨n, hn, rfl⟩ := Option.map_eq_some_iff.1 e; exact keeps_put hn
theorem setLeft_keeps {h h' : Heap} {a p : Nat} (e : setLeft h a p = some h') : Keeps h h' := by
  obtain ⟨n, hn, rfl⟩ := Option.map_eq_some_iff.1 e; exact keeps_put hn
theorem setRight_keeps {h h' : Heap} {a p : Nat} (e : setRight h a p = some h') : Keeps h h' := by
  obtain ⟨n, hn, rfl⟩ := Option.map_eq_some_iff.1 e; exact keeps_put hn
theorem setRed_keeps {h h' : Heap} {a : Nat} {c : Bool} (e : setRed h a c = some h') : Keeps h h' := by
  obtain ⟨n, hn, rfl⟩ := Option.map_eq_some_iff.1 e; exact keeps_put hn

theorem relinkLeft_keeps {h : Heap} {t : Tree} {p x y : Nat} {r : Heap × Tree} (e : relinkLeft h t p x y = some r) :
    Keeps h r.1 ∧ r.2.nil = t.nil := by
  unfold relinkLeft at e
  split at e
  · obtain rfl := Option.some.inj e; exact ⟨.refl, rfl⟩
  · obtain ⟨np, -, e⟩ := Option.bind_eq_some_iff.1 e
    split at e <;> (obtain ⟨h1, e1, e⟩ := Option.bind_eq_some_iff.1 e; obtain rfl := Option.some.inj e)
    · exact ⟨setLeft_keeps e1, rfl⟩
    · exact ⟨setRight_keeps e1, rfl⟩

theorem relinkRight_keeps {h : Heap} {t : Tree} {p x y : Nat} {r : Heap × Tree} (e : relinkRight h t p x y = some r) :
    Keeps h r.1 ∧ r.2.nil = t.nil := by
  unfold relinkRight at e
  split at e
  · obtain rfl := Option.some.inj e; exact ⟨.refl, rfl⟩
  · obtain ⟨np, -, e⟩ := Option.bind_eq_some_iff.1 e
    split at e <;> (obtain ⟨h1, e1, e⟩ := Option.bind_eq_some_iff.1 e; obtain rfl := Option.some.inj e)
    · exact ⟨setRight_keeps e1, rfl⟩
    · exact ⟨setLeft_keeps e1, rfl⟩

theorem leftRotate_keeps {h : Heap} {t : Tree} {x : Nat} {r : Heap × Tree} (e : leftRotate h t x = some r) :
    Keeps h r.1 ∧ r.2.nil = t.nil := by
  unfold leftRotate at e
  obtain ⟨_, -, e⟩ := Option.bind_eq_some_iff.1 e
  obtain ⟨_, -, e⟩ := Option.bind_eq_some_iff.1 e
  obtain ⟨h1, k1, e⟩ := Option.bind_eq_some_iff.1 e
  obtain ⟨_, -, e⟩ := Option.bind_eq_some_iff.1 e
  obtain ⟨h2, k2, e⟩ := Option.bind_eq_some_iff.1 e
  obtain ⟨_, -, e⟩ := Option.bind_eq_some_iff.1 e
  obtain ⟨h3, k3, e⟩ := Option.bind_eq_some_iff.1 e
  obtain ⟨_, -, e⟩ := Option.bind_eq_some_iff.1 e
  obtain ⟨⟨h4, t4⟩, k4, e⟩ := Option.bind_eq_some_iff.1 e
  obtain ⟨h5, k5, e⟩ := Option.bind_eq_some_iff.1 e
  obtain ⟨h6, k6, e⟩ := Option.bind_eq_some_iff.1 e
  obtain rfl := Option.some.inj e
  have k2' : Keeps h1 h2 := by
    split at k2
    · exact setParent_keeps k2
    · obtain rfl := Option.some.inj k2; exact .refl
  obtain ⟨k4, n4⟩ := relinkLeft_keeps k4
  exact ⟨(setRight_keeps k1).trans (k2'.trans ((setParent_keeps k3).trans (k4.trans ((setLeft_keeps k5).trans (setParent_keeps k6))))), n4⟩

theorem rightRotate_keeps {h : Heap} {t : Tree} {x : Nat} {r : Heap × Tree} (e : rightRotate h t x = some r) :
    Keeps h r.1 ∧ r.2.nil = t.nil := by
  unfold rightRotate at e
  obtain ⟨_, -, e⟩ := Option.bind_eq_some_iff.1 e
  obtain ⟨_, -, e⟩ := Option.bind_eq_some_iff.1 e
  obtain ⟨h1, k1, e⟩ := Option.bind_eq_some_iff.1 e
  obtain ⟨_, -, e⟩ := Option.bind_eq_some_iff.1 e
  obtain ⟨h2, k2, e⟩ := Option.bind_eq_some_iff.1 e
  obtain ⟨_, -, e⟩ := Option.bind_eq_some_iff.1 e
  obtain ⟨h3, k3, e⟩ := Option.bind_eq_some_iff.1 e
  obtain ⟨_, -, e⟩ := Option.bind_eq_some_iff.1 e
  obtain ⟨⟨h4, t4⟩, k4, e⟩ := Option.bind_eq_some_iff.1 e
  obtain ⟨h5, k5, e⟩ := Option.bind_eq_some_iff.1 e
  obtain ⟨h6, k6, e⟩ := Option.bind_eq_some_iff.1 e
  obtain rfl := Option.some.inj e
  have k2' : Keeps h1 h2 := by
    split at k2
    · exact setParent_keeps k2
    · obtain rfl := Option.some.inj k2; exact .refl
  obtain ⟨k4, n4⟩ := relinkRight_keeps k4
  exact ⟨(setLeft_keeps k1).trans (k2'.trans ((setParent_keeps k3).trans (k4.trans ((setRight_keeps k5).trans (setParent_keeps k6))))), n4⟩

theorem fixupLeft_keeps {h : Heap} {t : Tree} {z p g : Nat} {ng : Node} {r : Heap × Tree × Nat}
    (e : insertFixupLeft h t z p g ng = some r) : Keeps h r.1 ∧ r.2.1.nil = t.nil := by
  unfold insertFixupLeft at e
  obtain ⟨_, -, e⟩ := Option.bind_eq_some_iff.1 e
  split at e
  · obtain ⟨h1, k1, e⟩ := Option.bind_eq_some_iff.1 e
    obtain ⟨h2, k2, e⟩ := Option.bind_eq_some_iff.1 e
    obtain ⟨h3, k3, e⟩ := Option.bind_eq_some_iff.1 e
    obtain rfl := Option.some.inj e
    exact ⟨(setRed_keeps k1).trans ((setRed_keeps k2).trans (setRed_keeps k3)), rfl⟩
  · obtain ⟨_, -, e⟩ := Option.bind_eq_some_iff.1 e
    obtain ⟨⟨h1, t1, z1⟩, k1, e⟩ := Option.bind_eq_some_iff.1 e
    obtain ⟨_, -, e⟩ := Option.bind_eq_some_iff.1 e
    obtain ⟨h2, k2, e⟩ := Option.bind_eq_some_iff.1 e
    obtain ⟨_, -, e⟩ := Option.bind_eq_some_iff.1 e
    obtain ⟨h3, k3, e⟩ := Option.bind_eq_some_iff.1 e
    obtain ⟨⟨h4, t4⟩, k4, e⟩ := Option.bind_eq_some_iff.1 e
    obtain rfl := Option.some.inj e
    have k1' : Keeps h h1 ∧ t1.nil = t.nil := by
      split at k1
      · obtain ⟨⟨h', t'⟩, q, e⟩ := Option.map_eq_some_iff.1 k1
        simp only [Prod.mk.injEq] at e
        obtain ⟨rfl, rfl, -⟩ := e
        exact leftRotate_keeps q
      · simp only [Option.some.injEq, Prod.mk.injEq] at k1
        obtain ⟨rfl, rfl, -⟩ := k1
        exact ⟨.refl, rfl⟩
    obtain ⟨k4, n4⟩ := rightRotate_keeps k4
    exact ⟨k1'.1.trans ((setRed_keeps k2).trans ((setRed_keeps k3).trans k4)), n4.trans k1'.2⟩

theorem fixupRight_keeps {h : Heap} {t : Tree} {z p g : Nat} {ng : Node} {r : Heap × Tree × Nat}
    (e : insertFixupRight h t z p g ng = some r) : Keeps h r.1 ∧ r.2.1.nil = t.nil := by
  unfold insertFixupRight at e
  obtain ⟨_, -, e⟩ := Option.bind_eq_some_iff.1 e
  split at e
  · obtain ⟨h1, k1, e⟩ := Option.bind_eq_some_iff.1 e
    obtain ⟨h2, k2, e⟩ := Option.bind_eq_some_iff.1 e
    obtain ⟨h3, k3, e⟩ := Option.bind_eq_some_iff.1 e
    obtain rfl := Option.some.inj e
    exact ⟨(setRed_keeps k1).trans ((setRed_keeps k2).trans (setRed_keeps k3)), rfl⟩
  · obtain ⟨_, -, e⟩ := Option.bind_eq_some_iff.1 e
    obtain ⟨⟨h1, t1, z1⟩, k1, e⟩ := Option.bind_eq_some_iff.1 e
    obtain ⟨_, -, e⟩ := Option.bind_eq_some_iff.1 e
    obtain ⟨h2, k2, e⟩ := Option.bind_eq_some_iff.1 e
    obtain ⟨_, -, e⟩ := Option.bind_eq_some_iff.1 e
    obtain ⟨h3, k3, e⟩ := Option.bind_eq_some_iff.1 e
    obtain ⟨⟨h4, t4⟩, k4, e⟩ := Option.bind_eq_some_iff.1 e
    obtain rfl := Option.some.inj e
    have k1' : Keeps h h1 ∧ t1.nil = t.nil := by
      split at k1
      · obtain ⟨⟨h', t'⟩, q, e⟩ := Option.map_eq_some_iff.1 k1
        simp only [Prod.mk.injEq] at e
        obtain ⟨rfl, rfl, -⟩ := e
        exact rightRotate_keeps q
      · simp only [Option.some.injEq, Prod.mk.injEq] at k1
        obtain ⟨rfl, rfl, -⟩ := k1
        exact ⟨.refl, rfl⟩
    obtain ⟨k4, n4⟩ := leftRotate_keeps k4
    exact ⟨k1'.1.trans ((setRed_keeps k2).trans ((setRed_keeps k3).trans k4)), n4.trans k1'.2⟩

theorem fixupLoop_keeps : ∀ {n : Nat} {h : Heap} {t : Tree} {z : Nat} {r : Heap × Tree},
    insertFixupLoop n h t z = some r → Keeps h r.1 ∧ r.2.nil = t.nil
  | n + 1, h, t, z, r, e => by
    rw [insertFixupLoop] at e
    obtain ⟨_, -, e⟩ := Option.bind_eq_some_iff.1 e
    obtain ⟨_, -, e⟩ := Option.bind_eq_some_iff.1 e
    split at e
    · obtain ⟨_, -, e⟩ := Option.bind_eq_some_iff.1 e
      obtain ⟨⟨h1, t1, z1⟩, k1, e⟩ := Option.bind_eq_some_iff.1 e
      have k1' : Keeps h h1 ∧ t1.nil = t.nil := by
        split at k1
        · exact fixupLeft_keeps k1
        · exact fixupRight_keeps k1
      obtain ⟨a, b⟩ := fixupLoop_keeps e
      exact ⟨k1'.1.trans a, b.trans k1'.2⟩
    · obtain rfl := Option.some.inj e; exact ⟨.refl, rfl⟩

section
variable {K : Type} (o : Order K)

/-- Inserting needs the sentinel. -/
theorem insert_gone {s : St} {v a : Nat} (hn : s.heap s.tree.nil = none) (ha : a ≠ s.tree.nil) :
    insert o s v a SUCCESS = none := by
  cases hi : insert o s v a SUCCESS with
  | none => rfl
  | some r =>
    exfalso
    unfold insert at hi
    rw [if_neg (by simp)] at hi
    obtain ⟨⟨h', t'⟩, e, -⟩ := Option.bind_eq_some_iff.1 hi
    unfold insertNode at e
    obtain ⟨_, -, e⟩ := Option.bind_eq_some_iff.1 e
    obtain ⟨_, -, e⟩ := Option.bind_eq_some_iff.1 e
    obtain ⟨h1, k1, e⟩ := Option.bind_eq_some_iff.1 e
    obtain ⟨⟨h2, t2⟩, k2, e⟩ := Option.bind_eq_some_iff.1 e
    obtain ⟨h3, k3, e⟩ := Option.bind_eq_some_iff.1 e
    obtain ⟨h4, k4, e⟩ := Option.bind_eq_some_iff.1 e
    obtain ⟨h5, k5, e⟩ := Option.bind_eq_some_iff.1 e
    obtain ⟨⟨h6, t6⟩, k6, e⟩ := Option.bind_eq_some_iff.1 e
    obtain ⟨h7, k7, e⟩ := Option.bind_eq_some_iff.1 e
    have k2' : Keeps h1 h2 ∧ t2.nil = s.tree.nil := by
      split at k2
      · simp only [Option.some.injEq, Prod.mk.injEq] at k2
        obtain ⟨rfl, rfl⟩ := k2; exact ⟨.refl, rfl⟩
      · obtain ⟨_, -, k2⟩ := Option.bind_eq_some_iff.1 k2
        split at k2 <;> (obtain ⟨h', e1, k2⟩ := Option.bind_eq_some_iff.1 k2; simp only [Option.some.injEq, Prod.mk.injEq] at k2; obtain ⟨rfl, rfl⟩ := k2)
        · exact ⟨setLeft_keeps e1, rfl⟩
        · exact ⟨setRight_keeps e1, rfl⟩
    have k6' : Keeps h5 h6 ∧ t6.nil = t2.nil := by
      unfold insertFixup at k6
      obtain ⟨⟨h', t'⟩, e1, k6⟩ := Option.bind_eq_some_iff.1 k6
      obtain ⟨h'', e2, k6⟩ := Option.bind_eq_some_iff.1 k6
      simp only [Option.some.injEq, Prod.mk.injEq] at k6
      obtain ⟨rfl, rfl⟩ := k6
      obtain ⟨x, y⟩ := fixupLoop_keeps e1
      exact ⟨x.trans (setRed_keeps e2), y⟩
    have hz : h6 s.tree.nil = none :=
      ((setParent_keeps k1).trans (k2'.1.trans ((setLeft_keeps k3).trans ((setRight_keeps k4).trans ((setRed_keeps k5).trans k6'.1))))) _
        (by simp [put, ha.symm, hn])
    unfold resetNil at k7
    obtain ⟨n, e1, -⟩ := Option.bind_eq_some_iff.1 k7
    rw [k6'.2, k2'.2, hz] at e1
    cases e1

end

end Rcpr.RB
