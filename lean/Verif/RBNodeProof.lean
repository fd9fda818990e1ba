import Verif.RBNode
import Verif.RBShape
import Verif.RBRun

/-! Helper lemmas for `Verif.Props.RBNode`. -/
namespace Rcpr.RB

theorem collect_rep {h : Heap} {tr : Tree} : ∀ {t : T} {p n : Nat}, Rep tr.nil h p t → tr.nil ∉ t.addrs → t.height < n →
    collect h tr n (t.root tr.nil) = some (t.io.map Prod.snd)
  | .nil, p, n, _, _, hn => by
    cases n with
    | zero => cases hn
    | succ n => simp [collect, T.root, nilOf, T.io]
  | .node c l a v r, p, n, ⟨h1, h2, h3⟩, hN, hn => by
    cases n with
    | zero => cases hn
    | succ n =>
      simp only [T.addrs, List.mem_cons, List.mem_append, not_or] at hN
      simp only [T.height] at hn
      have hl := collect_rep (n := n) h2 hN.2.1 (by omega)
      have hr := collect_rep (n := n) h3 hN.2.2 (by omega)
      show collect h tr (n + 1) a = _
      simp [collect, nilOf, Ne.symm hN.1, leftNode, rightNode, nodeValue, h1, hl, hr, T.io]

theorem climb_mono {h : Heap} {tr : Tree} : ∀ {n m x : Nat} {l : List Nat}, climb h tr n x = some l → n ≤ m → climb h tr m x = some l
  | 0, _, _, _, hc, _ => by cases hc
  | n + 1, 0, _, _, _, hm => by omega
  | n + 1, m + 1, x, l, hc, hm => by
    unfold climb at hc ⊢
    by_cases hx : x = nilOf tr
    · rw [if_pos hx] at hc ⊢; exact hc
    · rw [if_neg hx] at hc ⊢
      cases hp : parentNode h x with
      | none => rw [hp] at hc; cases hc
      | some y =>
        rw [hp] at hc
        cases hy : climb h tr n y with
        | none => simp [hy] at hc
        | some l' =>
          have := climb_mono hy (Nat.le_of_succ_le_succ hm)
          simp [hy] at hc
          simp [this, hc]

theorem climb_rep {h : Heap} {tr : Tree} : ∀ {t : T} {p m : Nat} {P : List Nat}, Rep tr.nil h p t → tr.nil ∉ t.addrs →
    climb h tr m p = some P → ∀ a ∈ t.addrs, ∃ Q, climb h tr (m + t.height) a = some (Q ++ P) ∧ Q.head? = some a ∧
      Q.length ≤ t.height ∧ Q.getLast? = some (t.root tr.nil)
  | .nil, _, _, _, _, _, _, _, ha => by cases ha
  | .node c l b v r, p, m, P, ⟨h1, h2, h3⟩, hN, hc, a, ha => by
    simp only [T.addrs, List.mem_cons, List.mem_append, not_or] at hN ha
    have hb : climb h tr (m + 1) b = some (b :: P) := by
      simp [climb, nilOf, Ne.symm hN.1, parentNode, h1, hc]
    rcases ha with rfl | ha | ha
    · exact ⟨[a], climb_mono hb (by simp only [T.height]; omega), rfl, by simp [T.height], rfl⟩
    · obtain ⟨Q, q1, q2, q3, q4⟩ := climb_rep h2 hN.2.1 hb a ha
      refine ⟨Q ++ [b], ?_, ?_, ?_, by simp [T.root]⟩
      · rw [List.append_assoc]; exact climb_mono q1 (by simp only [T.height]; omega)
      · rw [List.head?_append, q2]; rfl
      · simp only [List.length_append, List.length_singleton, T.height]; omega
    · obtain ⟨Q, q1, q2, q3, q4⟩ := climb_rep h3 hN.2.2 hb a ha
      refine ⟨Q ++ [b], ?_, ?_, ?_, by simp [T.root]⟩
      · rw [List.append_assoc]; exact climb_mono q1 (by simp only [T.height]; omega)
      · rw [List.head?_append, q2]; rfl
      · simp only [List.length_append, List.length_singleton, T.height]; omega

theorem child_parent {N : Nat} {h : Heap} : ∀ {t : T} {p : Nat}, Rep N h p t → ∀ a ∈ t.addrs, ∀ n, h a = some n →
    (n.left ≠ N → parentNode h n.left = some a) ∧ (n.right ≠ N → parentNode h n.right = some a)
  | .nil, _, _, _, ha, _, _ => by cases ha
  | .node c l b v r, p, ⟨h1, h2, h3⟩, a, ha, n, hn => by
    simp only [T.addrs, List.mem_cons, List.mem_append] at ha
    rcases ha with rfl | ha | ha
    · rw [h1] at hn
      cases hn
      constructor
      · intro hl
        cases l with
        | nil => exact absurd rfl hl
        | node c' l' a' v' r' => simp [T.root, parentNode, h2.1]
      · intro hr
        cases r with
        | nil => exact absurd rfl hr
        | node c' l' a' v' r' => simp [T.root, parentNode, h3.1]
    · exact child_parent h2 a ha n hn
    · exact child_parent h3 a ha n hn

theorem inTree_addrs {s : St} {X : T} (w : At s.tree.nil s.heap s.tree.root [] X) {a : Nat} (h : Spec.InTree s a) : a ∈ X.addrs := by
  have hroot : s.tree.root = X.root s.tree.nil := w.root
  induction h with
  | root hne =>
    cases X with
    | nil => exact absurd hroot hne
    | node c l a v r => rw [hroot]; simp [T.root, T.addrs]
  | @left a n _ hn hne ih => exact kid w.sub ih hn |>.1 hne
  | @right a n _ hn hne ih => exact kid w.sub ih hn |>.2 hne
where
  kid {N : Nat} {h : Heap} : ∀ {t : T} {p a : Nat} {n : Node}, Rep N h p t → a ∈ t.addrs → h a = some n →
      (n.left ≠ N → n.left ∈ t.addrs) ∧ (n.right ≠ N → n.right ∈ t.addrs)
    | .nil, _, _, _, _, ha, _ => by cases ha
    | .node c l b v r, p, a, n, ⟨h1, h2, h3⟩, ha, hn => by
      simp only [T.addrs, List.mem_cons, List.mem_append] at ha ⊢
      rcases ha with rfl | ha | ha
      · rw [h1] at hn
        cases hn
        refine ⟨fun hl => ?_, fun hr => ?_⟩
        · cases l with
          | nil => exact absurd rfl hl
          | node => simp [T.root, T.addrs]
        · cases r with
          | nil => exact absurd rfl hr
          | node => simp [T.root, T.addrs]
      · have := kid h2 ha hn
        exact ⟨fun hl => .inr (.inl (this.1 hl)), fun hr => .inr (.inl (this.2 hr))⟩
      · have := kid h3 ha hn
        exact ⟨fun hl => .inr (.inr (this.1 hl)), fun hr => .inr (.inr (this.2 hr))⟩

theorem size_io : ∀ {t : T}, t.io.length = t.size
  | .nil => rfl
  | .node _ l _ _ r => by simp [T.io, T.size, size_io (t := l), size_io (t := r)]; omega

end Rcpr.RB
