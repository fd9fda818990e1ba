import Verif.Fds

/-! Properties of the descriptor functions: C39, C51. -/
namespace Rcpr.Fds

open Rcpr

/-- no source is its own target, and with the pairs taken from left to right no target is a later
source, and sources and targets are each used once -/
def Apart : List (Int × Int) → Prop
  | [] => True
  | p :: ps => p.1 ≠ p.2 ∧ (∀ q ∈ ps, q.1 ≠ p.2 ∧ q.1 ≠ p.1 ∧ q.2 ≠ p.2) ∧ Apart ps

theorem setfds_pairs {lim : Int} {ps : List (Int × Int)} : ∀ {t : Tbl} {p : Int × Int},
    Apart (p :: ps) →
    (∀ q ∈ p :: ps, 0 ≤ q.1 ∧ (t q.1).isSome ∧ 0 ≤ q.2 ∧ q.2 < lim) →
    ∃ t', setfds lim t p.1 p.2 (pack ps) = some (t', SUCCESS) ∧ Moved t t' (p :: ps) := by
  induction ps with
  | nil =>
    intro t p ha h
    obtain ⟨h1, h2, h3, h4⟩ := h p (by simp)
    obtain ⟨f, hf⟩ := Option.isSome_iff_exists.1 h2
    refine ⟨close (upd t p.2 (some f)) p.1, ?_, ?_⟩
    · unfold setfds
      rw [if_pos ⟨h1, h3⟩]
      simp only [dup2, hf]
      rw [if_neg (by omega)]
      simp [pack]
    · have hne := ha.1
      refine ⟨?_, ?_, ?_⟩
      · intro q hq; simp at hq; subst hq
        simp [close, upd, Ne.symm hne, hf]
      · intro q hq _; simp at hq; subst hq; simp [close, upd]
      · intro x hx; obtain ⟨x1, x2⟩ := hx p (by simp); simp [close, upd, x1, x2]
  | cons q ps ih =>
    intro t p ha h
    obtain ⟨h1, h2, h3, h4⟩ := h p (by simp)
    obtain ⟨f, hf⟩ := Option.isSome_iff_exists.1 h2
    obtain ⟨a1, a2, a3⟩ := ha
    have hop : ∀ r ∈ q :: ps, close (upd t p.2 (some f)) p.1 r.1 = t r.1 := by
      intro r hr
      obtain ⟨b1, b2, _⟩ := a2 r hr
      simp [close, upd, b1, b2]
    obtain ⟨t', e, m1, m2, m3⟩ := ih (t := close (upd t p.2 (some f)) p.1) a3 (by
      intro r hr
      rw [hop r hr]; exact h r (List.mem_cons_of_mem _ hr))
    obtain ⟨k1, k2, k3, k4⟩ := h q (by simp)
    refine ⟨t', ?_, ?_, ?_, ?_⟩
    · unfold setfds
      rw [if_pos ⟨h1, h3⟩]
      simp only [dup2, hf]
      rw [if_neg (by omega)]
      simp only [pack]
      rw [if_neg (by omega), if_neg (by omega)]
      exact e
    · intro r hr
      rcases List.mem_cons.1 hr with rfl | hr'
      · rw [m3 r.2 (fun s hs => ⟨Ne.symm (a2 s hs).1, Ne.symm (a2 s hs).2.2⟩)]
        simp [close, upd, Ne.symm a1, hf]
      · rw [m1 r hr', hop r hr']
    · intro r hr hnt
      rcases List.mem_cons.1 hr with rfl | hr'
      · rw [m3 r.1 (fun s hs => ⟨Ne.symm (a2 s hs).2.1, Ne.symm (hnt s (List.mem_cons_of_mem _ hs))⟩)]
        simp [close, upd]
      · exact m2 r hr' (fun s hs => hnt s (List.mem_cons_of_mem _ hs))
    · intro x hx
      rw [m3 x (fun s hs => hx s (List.mem_cons_of_mem _ hs))]
      obtain ⟨x1, x2⟩ := hx p (by simp)
      simp [close, upd, x1, x2]

/-- C39 for sources that are open and do not collide with targets of the same or earlier pairs:
`setfds` succeeds and leaves exactly the requested table. The full statement, without the
condition `Apart`, is false: see `setfds_violated`. -/
theorem setfds_partial {lim : Int} {t : Tbl} {p : Int × Int} {ps : List (Int × Int)}
    (ha : Apart (p :: ps))
    (h : ∀ q ∈ p :: ps, 0 ≤ q.1 ∧ (t q.1).isSome ∧ 0 ≤ q.2 ∧ q.2 < lim) :
    ∃ t', setfds lim t p.1 p.2 (pack ps) = some (t', SUCCESS) ∧ Moved t t' (p :: ps) :=
  setfds_pairs ha h

/-- C39 violated: a descriptor mapped to itself is closed; a swap of two descriptors loses one file. Both calls
report success. -/
theorem setfds_violated :
    (∃ (t t' : Tbl), (∀ q ∈ [((3 : Int), (3 : Int))], (t q.1).isSome) ∧
      setfds 10 t 3 3 (pack []) = some (t', SUCCESS) ∧ ¬ Moved t t' [(3, 3)] ∧ t' 3 = none) ∧
    (∃ (t t' : Tbl), (∀ q ∈ [((3 : Int), (4 : Int)), (4, 3)], (t q.1).isSome) ∧
      setfds 10 t 3 4 (pack [(4, 3)]) = some (t', SUCCESS) ∧ ¬ Moved t t' [(3, 4), (4, 3)] ∧
      t' 4 = none) := by
  constructor
  · refine ⟨fun x => if x = 3 then some 7 else none, _, by decide, rfl, ?_, rfl⟩
    intro h; exact absurd (h.1 (3, 3) (by simp)) (by decide)
  · refine ⟨fun x => if x = 3 then some 7 else if x = 4 then some 8 else none, _, by decide, rfl, ?_, rfl⟩
    intro h; exact absurd (h.1 (3, 4) (by simp)) (by decide)

/-- an odd number of arguments or a negative first pair is rejected; the latter touches nothing -/
theorem setfds_bad_arguments {lim : Int} {t : Tbl} {curr mapped : Int} {args : List Int} :
    (curr < 0 ∨ mapped < 0 → setfds lim t curr mapped args = some (t, ERROR_GENERAL_INVALID_ARGUMENTS)) ∧
    (0 ≤ curr → 0 ≤ mapped → mapped < lim → (t curr).isSome → ∀ c m rest, 0 ≤ c → m < 0 →
      ∃ t', setfds lim t curr mapped (c :: m :: rest) = some (t', ERROR_GENERAL_INVALID_ARGUMENTS)) := by
  constructor
  · intro h; unfold setfds; rw [if_neg (by omega)]
  · intro h1 h2 h3 h4 c m rest hc hm
    obtain ⟨f, hf⟩ := Option.isSome_iff_exists.1 h4
    refine ⟨close (upd t mapped (some f)) curr, ?_⟩
    unfold setfds
    rw [if_pos ⟨h1, h2⟩]
    simp only [dup2, hf]
    rw [if_neg (by omega)]
    dsimp only
    rw [if_neg (by omega), if_pos hm]

/-- a source that is not open is reported, and nothing is changed by its pair -/
theorem setfds_not_open {lim : Int} {t : Tbl} {curr mapped : Int} {args : List Int} (h1 : 0 ≤ curr)
    (h2 : 0 ≤ mapped) (h : t curr = none) :
    setfds lim t curr mapped args = some (t, ERROR_SOCKET_UTILITIES_DUP2_FAILURE) := by
  unfold setfds; rw [if_pos ⟨h1, h2⟩]; simp [dup2, h]

/-- the positions `threshold`, `threshold + 1`, ... -/
def upFrom (threshold : Int) : Nat → List Int
  | 0 => []
  | n + 1 => threshold :: upFrom (threshold + 1) n

theorem upFrom_length (k : Int) (n : Nat) : (upFrom k n).length = n := by
  induction n generalizing k with
  | zero => rfl
  | succ n ih => simp [upFrom, ih]

theorem mem_upFrom {x k : Int} {n : Nat} : x ∈ upFrom k n ↔ k ≤ x ∧ x < k + n := by
  induction n generalizing k with
  | zero => simp [upFrom]
  | succ n ih => simp [upFrom, ih]; omega

theorem mem_zip_upFrom {cells : List Int} {k : Int} {n : Nat} {p : Int × Int}
    (h : p ∈ cells.zip (upFrom k n)) : p.1 ∈ cells ∧ k ≤ p.2 ∧ p.2 < k + n := by
  obtain ⟨a, b⟩ := p
  have := List.of_mem_zip h
  exact ⟨this.1, mem_upFrom.1 this.2⟩

theorem moveLoop_ok {lim : Int} {cells : List Int} : ∀ {t : Tbl} {k : Int},
    (∀ c ∈ cells, 0 ≤ c ∧ c < k ∧ (t c).isSome) → cells.Nodup → k + cells.length ≤ lim →
    ∃ t', moveLoop lim t k cells = (t', upFrom k cells.length, SUCCESS) ∧
      Moved t t' (cells.zip (upFrom k cells.length)) := by
  induction cells with
  | nil =>
    intro t k _ _ _
    exact ⟨t, rfl, by simp [Moved, upFrom]⟩
  | cons c cells ih =>
    intro t k h nd hl
    obtain ⟨h1, h2, h3⟩ := h c (by simp)
    obtain ⟨f, hf⟩ := Option.isSome_iff_exists.1 h3
    have hcn : c ∉ cells := (List.nodup_cons.1 nd).1
    simp only [List.length_cons] at hl
    have hop : ∀ x ∈ cells, close (upd t k (some f)) c x = t x := by
      intro x hx
      have x1 : x ≠ c := by rintro rfl; exact hcn hx
      have x2 : x ≠ k := by have := h x (List.mem_cons_of_mem _ hx); omega
      simp [close, upd, x1, x2]
    obtain ⟨t', e, m1, m2, m3⟩ := ih (t := close (upd t k (some f)) c) (k := k + 1) (by
      intro x hx
      rw [hop x hx]
      have := h x (List.mem_cons_of_mem _ hx)
      exact ⟨this.1, by omega, this.2.2⟩) (List.nodup_cons.1 nd).2 (by omega)
    refine ⟨t', ?_, ?_, ?_, ?_⟩
    · unfold moveLoop
      rw [if_neg (by omega)]
      simp only [dup2, hf]
      rw [if_neg (by omega)]
      simp only [e, upFrom, List.length_cons]
    · intro p hp
      simp only [List.length_cons, upFrom, List.zip_cons_cons, List.mem_cons] at hp
      rcases hp with rfl | hp
      · show t' k = t c
        rw [m3 k (fun q hq => ?_)]
        · simp [close, upd, show k ≠ c by omega, hf]
        · obtain ⟨q1, q2, q3⟩ := mem_zip_upFrom hq
          have := h q.1 (List.mem_cons_of_mem _ q1)
          omega
      · rw [m1 p hp, hop p.1 (mem_zip_upFrom hp).1]
    · intro p hp hnt
      simp only [List.length_cons, upFrom, List.zip_cons_cons, List.mem_cons] at hp hnt
      rcases hp with rfl | hp
      · show t' c = none
        rw [m3 c (fun q hq => ⟨?_, Ne.symm (hnt q (Or.inr hq))⟩)]
        · simp [close, upd]
        · rintro rfl; exact hcn (mem_zip_upFrom hq).1
      · exact m2 p hp (fun q hq => hnt q (Or.inr hq))
    · intro x hx
      simp only [List.length_cons, upFrom, List.zip_cons_cons, List.mem_cons] at hx
      rw [m3 x (fun q hq => hx q (Or.inr hq))]
      obtain ⟨x1, x2⟩ := hx (c, k) (Or.inl rfl)
      have x1 : x ≠ c := x1
      have x2 : x ≠ k := x2
      simp [close, upd, x1, x2]

/-- C39, `move_descriptors`, for descriptors that are open, different and below the threshold: it
succeeds, the variables become `threshold`, `threshold + 1`, ..., and exactly the given descriptors
move. Without `c < threshold` this is false: see `move_descriptors_violated`. -/
theorem move_descriptors_partial {lim : Int} {t : Tbl} {threshold : Int} {cells : List Int}
    (ht : 0 ≤ threshold) (h : ∀ c ∈ cells, 0 ≤ c ∧ c < threshold ∧ (t c).isSome) (nd : cells.Nodup)
    (hl : threshold + cells.length ≤ lim) :
    ∃ t', moveDescriptors lim t threshold cells = (t', upFrom threshold cells.length, SUCCESS) ∧
      Moved t t' (cells.zip (upFrom threshold cells.length)) := by
  unfold moveDescriptors
  rw [if_neg (by omega)]
  exact moveLoop_ok h nd hl

/-- C39 violated: a descriptor already at the threshold is closed while its variable still names it; a
descriptor that is at the threshold but comes later in the list is overwritten. Both calls report
success although the descriptors are different and open. -/
theorem move_descriptors_violated :
    (∃ (t t' : Tbl) (cells : List Int), (t 5).isSome ∧
      moveDescriptors 10 t 5 [5] = (t', cells, SUCCESS) ∧ cells = [5] ∧ t' 5 = none) ∧
    (∃ (t t' : Tbl) (cells : List Int), t 3 = some 7 ∧ t 5 = some 8 ∧
      moveDescriptors 10 t 5 [3, 5] = (t', cells, SUCCESS) ∧ cells = [5, 6] ∧
      t' 5 = none ∧ t' 6 = some 7) := by
  constructor
  · exact ⟨fun x => if x = 5 then some 7 else none, _, _, rfl, rfl, rfl, rfl⟩
  · exact ⟨fun x => if x = 3 then some 7 else if x = 5 then some 8 else none, _, _, rfl, rfl, rfl, rfl,
      rfl, rfl⟩

theorem apart_of {src tgt : List Int} {k : Int} (hs : src.Nodup) (ht : tgt.Nodup)
    (h1 : ∀ x ∈ src, k ≤ x) (h2 : ∀ x ∈ tgt, x < k) : Apart (src.zip tgt) := by
  induction src generalizing tgt with
  | nil => simp [Apart]
  | cons a src ih =>
    cases tgt with
    | nil => simp [Apart]
    | cons b tgt =>
      simp only [List.zip_cons_cons, Apart]
      have ha := h1 a (by simp)
      have hb := h2 b (by simp)
      refine ⟨by omega, ?_, ih (List.nodup_cons.1 hs).2 (List.nodup_cons.1 ht).2
        (fun x hx => h1 x (List.mem_cons_of_mem _ hx)) (fun x hx => h2 x (List.mem_cons_of_mem _ hx))⟩
      intro q hq
      obtain ⟨q1, q2⟩ := q
      obtain ⟨m1, m2⟩ := List.of_mem_zip hq
      refine ⟨?_, ?_, ?_⟩
      · have := h1 q1 (List.mem_cons_of_mem _ m1); show q1 ≠ b; omega
      · rintro rfl; exact (List.nodup_cons.1 hs).1 m1
      · rintro rfl; exact (List.nodup_cons.1 ht).1 m2

theorem upFrom_nodup (k : Int) (n : Nat) : (upFrom k n).Nodup := by
  induction n generalizing k with
  | zero => simp [upFrom]
  | succ n ih =>
    simp only [upFrom, List.nodup_cons]
    exact ⟨fun h => by have := mem_upFrom.1 h; omega, ih _⟩

theorem zip_mem_split {α β γ : Type} {as : List α} {bs : List β} {cs : List γ} {i : Nat} {a : α} {c : γ}
    {b : β} (h1 : as[i]? = some a) (h2 : bs[i]? = some b) (h3 : cs[i]? = some c) :
    (a, b) ∈ as.zip bs ∧ (b, c) ∈ bs.zip cs := by
  constructor
  · exact List.mem_iff_getElem?.2 ⟨i, by simp [List.getElem?_zip_eq_some, h1, h2]⟩
  · exact List.mem_iff_getElem?.2 ⟨i, by simp [List.getElem?_zip_eq_some, h2, h3]⟩

/-- C39, the documented protocol for setting up a child process: first `move_descriptors` out of the
way, then `setfds` to the final places. For open, different descriptors and different targets, all
below the threshold, both succeed and in the end the i-th target refers to the file of the i-th
descriptor — whatever collisions there are between descriptors and targets. -/
theorem move_then_set {lim : Int} {t : Tbl} {threshold : Int} {c : Int} {cells : List Int} {g : Int}
    {targets : List Int} (ht : 0 ≤ threshold)
    (h : ∀ x ∈ c :: cells, 0 ≤ x ∧ x < threshold ∧ (t x).isSome) (nd : (c :: cells).Nodup)
    (hl : threshold + (c :: cells).length ≤ lim) (hg : ∀ x ∈ g :: targets, 0 ≤ x ∧ x < threshold)
    (ndg : (g :: targets).Nodup) (hlen : targets.length = cells.length) :
    ∃ t1 new, moveDescriptors lim t threshold (c :: cells) = (t1, threshold :: new, SUCCESS) ∧
      ∃ t2, setfds lim t1 threshold g (pack (new.zip targets)) = some (t2, SUCCESS) ∧
        ∀ (i : Nat) (x y : Int), (c :: cells)[i]? = some x → (g :: targets)[i]? = some y → t2 y = t x := by
  obtain ⟨t1, e1, m1, _, _⟩ := move_descriptors_partial ht h nd hl
  refine ⟨t1, upFrom (threshold + 1) cells.length, e1, ?_⟩
  have hz : (threshold, g) :: (upFrom (threshold + 1) cells.length).zip targets =
      (upFrom threshold (cells.length + 1)).zip (g :: targets) := rfl
  have hul : (upFrom threshold (cells.length + 1)).length = cells.length + 1 := upFrom_length _ _
  have pos : ∀ (i : Nat) (u : Int), (upFrom threshold (cells.length + 1))[i]? = some u →
      ∃ x, (c :: cells)[i]? = some x ∧ t1 u = t x := by
    intro i u hu
    have hi : i < cells.length + 1 := by
      rw [← hul]; exact (List.getElem?_eq_some_iff.1 hu).1
    refine ⟨(c :: cells)[i]'(by simpa using hi), List.getElem?_eq_getElem _, ?_⟩
    refine m1 ((c :: cells)[i]'(by simpa using hi), u) ?_
    exact List.mem_iff_getElem?.2 ⟨i, by
      rw [List.getElem?_zip_eq_some]
      exact ⟨List.getElem?_eq_getElem _, hu⟩⟩
  obtain ⟨t2, e2, n1, _, _⟩ := setfds_partial (lim := lim) (t := t1) (p := (threshold, g))
    (ps := (upFrom (threshold + 1) cells.length).zip targets) (by
      rw [hz]
      exact apart_of (k := threshold) (upFrom_nodup _ _) ndg (fun x hx => (mem_upFrom.1 hx).1)
        (fun x hx => (hg x hx).2)) (by
      rw [hz]
      intro q hq
      obtain ⟨i, hi⟩ := List.mem_iff_getElem?.1 hq
      obtain ⟨q1, q2⟩ := List.getElem?_zip_eq_some.1 hi
      obtain ⟨x, hx, hx'⟩ := pos i q.1 q1
      have hxm := h x (List.mem_of_getElem? hx)
      have hqm := mem_upFrom.1 (List.mem_of_getElem? q1)
      have hgm := hg q.2 (List.mem_of_getElem? q2)
      simp only [List.length_cons] at hl
      exact ⟨by omega, by rw [hx']; exact hxm.2.2, hgm.1, by omega⟩)
  refine ⟨t2, e2, ?_⟩
  intro i x y hx hy
  rw [hz] at n1
  have hi : i < cells.length + 1 := by
    have := (List.getElem?_eq_some_iff.1 hx).1; simpa using this
  have hu : (upFrom threshold (cells.length + 1))[i]? =
      some ((upFrom threshold (cells.length + 1))[i]'(by rw [hul]; exact hi)) := List.getElem?_eq_getElem _
  obtain ⟨x', hx', e⟩ := pos i _ hu
  rw [hx] at hx'
  simp only [Option.some.injEq] at hx'
  subst hx'
  rw [← e]
  exact n1 (_, y) (zip_mem_split hx hu hy).2

theorem closeRange_eq (n : Nat) (t : Tbl) (i x : Int) :
    closeRange n t i x = if i ≤ x ∧ x < i + n then none else t x := by
  induction n generalizing t i with
  | zero => simp [closeRange]; omega
  | succ n ih =>
    simp only [closeRange, ih, close, upd]
    by_cases h1 : i + 1 ≤ x ∧ x < i + 1 + n
    · rw [if_pos h1, if_pos (by omega)]
    · rw [if_neg h1]
      by_cases h2 : x = i
      · rw [if_pos h2, if_pos (by omega)]
      · rw [if_neg h2, if_neg (by omega)]

/-- C51 for processes whose descriptors are all below `FD_SETSIZE`: exactly the descriptors up to `fd`
stay open. -/
theorem close_other_fds_partial {setSize : Int} {t : Tbl} {fd : Int} (h : ∀ x, setSize ≤ x → t x = none) :
    ∃ t', closeOtherFds setSize t fd = (t', SUCCESS) ∧
      (∀ x, fd < x → t' x = none) ∧ (∀ x, x ≤ fd → t' x = t x) := by
  refine ⟨_, rfl, ?_, ?_⟩
  · intro x hx
    rw [closeRange_eq]
    split
    · rfl
    · exact h x (by omega)
  · intro x hx
    rw [closeRange_eq, if_neg (by omega)]

/-- C51 violated: an open descriptor not below `FD_SETSIZE` stays open, and success is reported. -/
theorem close_other_fds_violated (setSize : Int) :
    ∃ (t t' : Tbl) (x : Int), 2 < x ∧ closeOtherFds setSize t 2 = (t', SUCCESS) ∧ (t' x).isSome := by
  refine ⟨fun _ => some 0, _, max setSize 3, by omega, rfl, ?_⟩
  rw [closeRange_eq, if_neg (by omega)]; rfl

/-- exactly 0, 1 and 2 are closed -/
theorem close_standard_fds (t : Tbl) : ∃ t', closeStandardFds t = (t', SUCCESS) ∧
    (∀ x, 0 ≤ x → x ≤ 2 → t' x = none) ∧ (∀ x, x < 0 ∨ 2 < x → t' x = t x) := by
  refine ⟨_, rfl, ?_, ?_⟩
  · intro x h1 h2
    simp only [close, upd]
    by_cases a : x = 2
    · simp [a]
    · by_cases b : x = 1
      · simp [b]
      · simp [show x = 0 by omega]
  · intro x h
    simp [close, upd, show x ≠ 0 by omega, show x ≠ 1 by omega, show x ≠ 2 by omega]

/-- three descriptors rotated over the standard places -/
example : ∀ x ∈ [(1 : Int), 2, 0], 0 ≤ x ∧ x < 3 ∧ ((fun x => if 0 ≤ x ∧ x < 3 then some x.toNat else none : Tbl) x).isSome := by
  decide

example : ((setfds 10 (moveDescriptors 10 (fun x => if 0 ≤ x ∧ x < 3 then some x.toNat else none) 3 [1, 2, 0]).1
    3 0 (pack [(4, 1), (5, 2)])).map fun r => (r.1 0, r.1 1, r.1 2, r.1 3, r.2)) =
    some (some 1, some 2, some 0, none, SUCCESS) := by decide

end Rcpr.Fds
