import Verif.RBWalk
import Verif.RBSpec

/-! Sorted trees: where the descent leads. -/
namespace Rcpr.RB

open Rcpr

section
variable {K : Type} (o : Order K)

theorem insert_split {v : Nat} : ∀ {A B : List Nat}, (∀ u ∈ A, o.cmp (o.key v) (o.key u) ≠ .lt) →
    (∀ u ∈ B, o.cmp (o.key v) (o.key u) = .lt) → Spec.insert o v (A ++ B) = A ++ v :: B
  | [], [], _, _ => rfl
  | [], u :: B, _, h => by simp [Spec.insert, h u (by simp)]
  | a :: A, B, h1, h2 => by
    rw [List.cons_append, Spec.insert, if_neg (h1 a (by simp)), insert_split (A := A) (fun u hu => h1 u (by simp [hu])) h2]; rfl

variable [Std.TransCmp o.cmp]

theorem not_lt_trans {k a b : K} (h1 : o.cmp k a ≠ .lt) (h2 : o.cmp b a ≠ .gt) : o.cmp k b ≠ .lt := by
  intro h
  apply h1
  have h2' : (o.cmp b a).isLE := by cases hc : o.cmp b a <;> simp_all
  exact Std.TransCmp.lt_of_lt_of_isLE h h2'

theorem gt_trans {k a b : K} (h1 : o.cmp k a = .gt) (h2 : o.cmp b a ≠ .gt) : o.cmp k b = .gt := by
  have h2' : (o.cmp b a).isLE := by cases hc : o.cmp b a <;> simp_all
  have h3 : o.cmp a k = .lt := Std.OrientedCmp.lt_of_gt h1
  have := Std.TransCmp.lt_of_isLE_of_lt h2' h3
  exact Std.OrientedCmp.gt_of_lt this

theorem lt_trans' {k a b : K} (h1 : o.cmp k a = .lt) (h2 : o.cmp a b ≠ .gt) : o.cmp k b = .lt := by
  have h2' : (o.cmp a b).isLE := by cases hc : o.cmp a b <;> simp_all
  exact Std.TransCmp.lt_of_lt_of_isLE h1 h2'

/-- Along a descent in a sorted tree what lies before the focus has keys not greater, what lies after has
greater ones. `P` is what is known of the comparisons that led to the right. -/
theorem path_sides {key : K} {P : Ordering → Prop} (hP : ∀ a b, P (o.cmp key a) → o.cmp b a ≠ .gt → P (o.cmp key b)) :
    ∀ {k : Ctx} {t : T}, Spec.Sorted o ((plug k t).io.map Prod.snd) →
    (∀ f ∈ k, (f.d = .l → o.cmp key (o.key f.v) = .lt) ∧ (f.d = .r → P (o.cmp key (o.key f.v)))) →
    (∀ u ∈ Ctx.pre k, P (o.cmp key (o.key u.2))) ∧ (∀ u ∈ Ctx.post k, o.cmp key (o.key u.2) = .lt)
  | [], _, _, _ => by simp [Ctx.pre, Ctx.post]
  | ⟨d, c, a, v, s⟩ :: k, t, hs, hp => by
    obtain ⟨h1, h2⟩ := path_sides hP (k := k) (t := Frame.fill ⟨d, c, a, v, s⟩ t) hs fun f hf => hp f (by simp [hf])
    have hd := hp ⟨d, c, a, v, s⟩ (by simp)
    rw [plug, plug_io, Frame.fill, br_io] at hs
    cases d with
    | l =>
      have hlt := hd.1 rfl
      refine ⟨fun u hu => h1 u (by simpa [Ctx.pre] using hu), fun u hu => ?_⟩
      simp only [Ctx.post, List.cons_append, List.mem_cons, List.mem_append] at hu
      rcases hu with rfl | hu | hu
      · exact hlt
      · refine lt_trans' o hlt ?_
        simp only [Spec.Sorted, List.map_append, List.map_cons, List.append_assoc, List.cons_append] at hs
        have := (List.pairwise_append.1 (List.pairwise_append.1 hs).2.1).2.1
        exact (List.pairwise_cons.1 this).1 u.2 (by simp only [List.mem_append, List.mem_map]; exact .inl ⟨u, hu, rfl⟩)
      · exact h2 u hu
    | r =>
      have hr := hd.2 rfl
      refine ⟨fun u hu => ?_, fun u hu => h2 u (by simpa [Ctx.post] using hu)⟩
      simp only [Ctx.pre, List.mem_append, List.mem_singleton] at hu
      rcases hu with hu | hu | rfl
      · exact h1 u hu
      · refine hP _ _ hr ?_
        simp only [Spec.Sorted, List.map_append, List.map_cons, List.append_assoc, List.cons_append] at hs
        have := (List.pairwise_append.1 (List.pairwise_append.1 hs).2.1).2.2
        exact this u.2 (List.mem_map_of_mem hu) v (by simp)
      · exact hr

theorem sorted_insert {v : Nat} {A B : List Nat} (hs : Spec.Sorted o (A ++ B)) (h1 : ∀ u ∈ A, o.cmp (o.key v) (o.key u) ≠ .lt)
    (h2 : ∀ u ∈ B, o.cmp (o.key v) (o.key u) = .lt) : Spec.Sorted o (A ++ v :: B) := by
  unfold Spec.Sorted at hs ⊢
  rw [List.pairwise_append] at hs ⊢
  refine ⟨hs.1, List.pairwise_cons.2 ⟨fun u hu => by rw [h2 u hu]; decide, hs.2.1⟩, ?_⟩
  intro a ha b hb
  rcases List.mem_cons.1 hb with rfl | hb
  · intro hg
    exact h1 a ha (Std.OrientedCmp.lt_of_gt hg)
  · exact hs.2.2 a ha b hb

/-- The list after an insertion. -/
theorem insert_path {k : Ctx} {v : Nat} (hs : Spec.Sorted o ((plug k .nil).io.map Prod.snd)) (hp : Path o (o.key v) k) :
    (Ctx.pre k).map Prod.snd ++ v :: (Ctx.post k).map Prod.snd = Spec.insert o v ((plug k .nil).io.map Prod.snd) ∧
    Spec.Sorted o ((Ctx.pre k).map Prod.snd ++ v :: (Ctx.post k).map Prod.snd) := by
  obtain ⟨h1, h2⟩ := path_sides o (key := o.key v) (P := fun c => c ≠ .lt) (fun a b h h' => not_lt_trans o h h') hs (by
    intro f hf
    have := hp f hf
    refine ⟨fun h => ?_, fun h hc => ?_⟩
    · rw [h] at this; by_cases hc : o.cmp (o.key v) (o.key f.v) = .lt
      · exact hc
      · rw [if_neg hc] at this; cases this
    · rw [h, if_pos hc] at this; cases this)
  rw [plug_io] at hs ⊢
  simp only [T.io, List.nil_append, List.map_append] at hs ⊢
  have a1 : ∀ u ∈ (Ctx.pre k).map Prod.snd, o.cmp (o.key v) (o.key u) ≠ .lt := by
    intro u hu; obtain ⟨w, hw, rfl⟩ := List.mem_map.1 hu; exact h1 w hw
  have a2 : ∀ u ∈ (Ctx.post k).map Prod.snd, o.cmp (o.key v) (o.key u) = .lt := by
    intro u hu; obtain ⟨w, hw, rfl⟩ := List.mem_map.1 hu; exact h2 w hw
  exact ⟨(insert_split o a1 a2).symm, sorted_insert o hs a1 a2⟩

/-- A descent that meets no equal key has met every element that could be equal. -/
theorem find_none {k : Ctx} {key : K} (hs : Spec.Sorted o ((plug k .nil).io.map Prod.snd)) (hp : Path o key k)
    (hne : ∀ f ∈ k, o.cmp key (o.key f.v) ≠ .eq) : ∀ v ∈ (plug k .nil).io.map Prod.snd, ¬ Spec.Match o key v := by
  obtain ⟨h1, h2⟩ := path_sides o (key := key) (P := fun c => c = .gt) (fun a b h h' => gt_trans o h h') hs (by
    intro f hf
    have := hp f hf
    refine ⟨fun h => ?_, fun h => ?_⟩
    · rw [h] at this; by_cases hc : o.cmp key (o.key f.v) = .lt
      · exact hc
      · rw [if_neg hc] at this; cases this
    · cases hc : o.cmp key (o.key f.v) with
      | lt => rw [h, if_pos hc] at this; cases this
      | eq => exact absurd hc (hne f hf)
      | gt => rfl)
  intro v hv hm
  rw [plug_io] at hv
  simp only [T.io, List.nil_append, List.map_append, List.mem_append, List.mem_map] at hv
  unfold Spec.Match at hm
  rcases hv with ⟨w, hw, rfl⟩ | ⟨w, hw, rfl⟩
  · rw [h1 w hw] at hm; cases hm
  · rw [h2 w hw] at hm; cases hm

end

end Rcpr.RB
