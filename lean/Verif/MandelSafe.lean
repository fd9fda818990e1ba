import Verif.MandelStage

/-! The invariants along an execution; no step is undefined. -/
namespace Rcpr.Mandel

open Rcpr Rcpr.Monitor

structure Inv (c : Cfg) (s : St) : Prop extends Shape c s where
  stage : Stage c s

theorem begins_inv (c : Cfg) : Inv c begins where
  out t ht := if_neg (show t ≠ 0 by omega)
  role t := by
    by_cases h : t = 0
    · subst h; simp [begins, start, isMain]
    · simp [begins, start, h, isMain]
  own t := by
    by_cases h : t = 0
    · subst h; simp [begins, start, holds]
    · simp [begins, start, h, holds]
  md t := .inl rfl
  stage := by
    refine ⟨⟨rfl, fun t => ?_⟩, fun j => rfl⟩
    by_cases h : t = 0
    · subst h; rfl
    · simp [begins, start, h, calm]

theorem Inv.step {c : Cfg} {s s' : St} {t : Nat} {ch : Choice} (h : Inv c s) (hs : step c s t ch = .ok s')
    (hc : ch = .spurious → t ≠ 0) : Inv c s' := by
  obtain ⟨ht, hm⟩ := step_move hs
  refine ⟨h.toShape.move ht hm, ?_⟩
  by_cases h0 : t = 0
  · subst h0; exact h.stage.main h.toShape hm fun e => hc e rfl
  · exact h.stage.worker h.toShape h0 hm

theorem Inv.not_wild {c : Cfg} {s : St} (h : Inv c s) {i : Nat} {f : List (List Slot)} (hl : s.loc 0 = .write i f) :
    (file c (s.data 0)).any (· == .wild) = false := by
  have hs := h.stage
  unfold Stage at hs
  rw [hl] at hs
  dsimp only at hs
  rw [hs.1.file hs.2.2.2.1]
  simp [frame, List.any_eq_false]

theorem ite_fault {p : Prop} [Decidable p] {x y : Out St} (h : (if p then x else y) = .fault) : p ∧ x = .fault ∨ ¬ p ∧ y = .fault := by
  split at h
  next hp => exact .inl ⟨hp, h⟩
  next hp => exact .inr ⟨hp, h⟩

theorem Inv.no_fault {c : Cfg} {s : St} {t : Nat} {ch : Choice} (h : Inv c s) : Mandel.step c s t ch ≠ .fault := by
  intro hf
  unfold Mandel.step at hf
  split at hf
  · cases hf
  next ht =>
  have hn : ¬ c.jobs + 1 ≤ t := by omega
  have hown : s.mode t = .run → holds (s.loc t) = true → s.owner 0 = some t := fun hm hh => (h.own t).2 ⟨by omega, hm, hh⟩
  have hone : ∀ cnd, (List.range (c.jobs + 1)).any (fun u => asleepOn s cnd u && !(s.mode u == .waiting cnd 0)) ≠ true := by
    intro cnd hh
    rw [List.any_eq_true] at hh
    obtain ⟨u, _, hu⟩ := hh
    simp only [asleepOn, Bool.and_eq_true, Bool.not_eq_true', beq_eq_false_iff_ne] at hu
    rcases h.md u with e | ⟨k, _, e | e⟩ <;> rw [e] at hu <;> simp at hu
  split at hf
  · cases hf
  · cases hf
  · split at hf
    · cases hf
    · split at hf <;> cases hf
  · split at hf <;> cases hf
  · cases hf
  next hm hl =>
    split at hf
    next hw =>
      have h0 : t = 0 := (h.role t).1 (by rw [hl]; rfl)
      subst h0
      rw [h.not_wild hl] at hw
      cases hw
    next hw =>
      simp only [Monitor.step, prog, if_neg hn, hm, hl, act] at hf
      rw [if_neg (by rw [hown hm (by rw [hl]; rfl)]; simp)] at hf
      cases hf
  next n1 n2 n3 n4 n5 n6 =>
    unfold Monitor.step at hf
    rw [if_neg (by exact hn)] at hf
    split at hf
    · cases hf
    · split at hf <;> cases hf
    next e w hm =>
      cases hl : s.loc t <;> simp only [prog, hl, act] at hf
      case acquire | relock | acq | lock =>
        split at hf
        · cases hf
        · split at hf <;> cases hf
      case unlockQuit | unlock | leave =>
        rw [if_neg (by rw [hown hm (by rw [hl]; rfl)]; simp)] at hf
        split at hf <;> cases hf
      case sleep | doze =>
        rw [if_neg (by rw [hown hm (by rw [hl]; rfl)]; simp)] at hf
        by_cases he : e = SUCCESS
        · rw [if_neg (by simp [he])] at hf
          rcases ite_fault hf with ⟨h1, _⟩ | ⟨_, h1⟩
          · exact hone _ h1
          · cases h1
        · rw [if_pos (by simp [he])] at hf; cases hf
      case tell | tellQuit => split at hf <;> cases hf
      case report =>
        rcases ite_fault hf with ⟨_, h1⟩ | ⟨_, h1⟩
        · cases h1
        · rcases ite_fault h1 with ⟨_, h2⟩ | ⟨_, h2⟩ <;> cases h2
      case begin | look | test | failed | take | save =>
        rw [if_neg (by rw [hown hm (by rw [hl]; rfl)]; simp)] at hf
        cases hf
      case write => exact (n6 _ _ _ _ hm rfl hl).elim
      all_goals cases hf
    · cases hf

theorem exec_inv {c : Cfg} : ∀ (r : Run) {s : St}, Inv c s → Prompt r →
    exec c s r ≠ .fault ∧ ∀ s', exec c s r = .ok s' → Inv c s'
  | [], s, h, _ => ⟨fun e => (nomatch e), fun s' e => by cases e; exact h⟩
  | (t, ch) :: r, s, h, hp => by
    unfold exec
    cases hs : step c s t ch with
    | blocked => exact ⟨fun e => (nomatch e), fun _ e => (nomatch e)⟩
    | fault => exact absurd hs h.no_fault
    | ok s1 =>
      exact exec_inv r (h.step hs fun e => hp (t, ch) List.mem_cons_self e) fun p hm => hp p (List.mem_cons_of_mem _ hm)

theorem Inv.files {c : Cfg} {s : St} (h : Inv c s) : ∃ k ≤ c.frames, files s = frames c k ∧ ∀ f, s.loc 0 = .finish f → k = c.frames := by
  have hs := h.stage
  unfold Stage at hs
  unfold Mandel.files
  cases hl : s.loc 0 <;> rw [hl] at hs <;> dsimp only at hs ⊢
  case setup | acquire => exact ⟨0, Nat.zero_le _, rfl, fun _ e => (nomatch e)⟩
  case begin => exact ⟨_, Nat.le_of_lt hs.2.1, hs.2.2, fun _ e => (nomatch e)⟩
  case tell => exact ⟨_, Nat.le_of_lt hs.2.1, hs.2.2, fun _ e => (nomatch e)⟩
  case sleep => exact ⟨_, Nat.le_of_lt hs.2.1, hs.2.2.1, fun _ e => (nomatch e)⟩
  case write => exact ⟨_, Nat.le_of_lt hs.2.1, hs.2.2.1, fun _ e => (nomatch e)⟩
  case finish => exact ⟨_, Nat.le_refl _, hs.2, fun _ _ => rfl⟩
  case quit | relock | tellQuit | unlockQuit | join | exit =>
    obtain ⟨k, h1, h2⟩ := hs
    exact ⟨k, h1, h2, fun _ e => (nomatch e)⟩
  all_goals exact hs.elim

theorem Inv.no_race {c : Cfg} {s : St} (h : Inv c s) {x : Field} (hx : x ≠ .quiesce) : ¬ Race c s x := by
  rintro ⟨t, u, ht, hu, hne, hmt, hmu, a, b, ha, hb, hab⟩
  have hex : holds (s.loc t) = true → holds (s.loc u) = true → False := fun h1 h2 => by
    have e1 := (h.own t).2 ⟨ht, hmt, h1⟩
    have e2 := (h.own u).2 ⟨hu, hmu, h2⟩
    rw [e1] at e2
    exact hne (Option.some.inj e2)
  have key : ∀ v w, s.loc v = .setup ∨ (∃ i f, s.loc v = .write i f) → (∃ j ps, s.loc w = .draw j ps) → False := by
    intro v w hv ⟨j, ps, hw⟩
    have h0 : v = 0 := (h.role v).1 (by rcases hv with e | ⟨i, f, e⟩ <;> rw [e] <;> rfl)
    subst h0
    have hs := h.stage
    unfold Stage at hs
    rcases hv with e | ⟨i, f, e⟩ <;> rw [e] at hs <;> dsimp only at hs
    · have := hs.1.calm w; rw [hw] at this; cases this
    · have := hs.1.no_line hs.2.2.2.1 w; rw [hw] at this; cases this
  have key2 : ∀ v w, s.loc v = .setup → calm (s.loc w) = false → False := by
    intro v w hv hw
    have h0 : v = 0 := (h.role v).1 (by rw [hv]; rfl)
    subst h0
    have hs := h.stage
    unfold Stage at hs
    rw [hv] at hs
    dsimp only at hs
    rw [hs.1.calm w] at hw; cases hw
  have hmain : isMain (s.loc t) = true → isMain (s.loc u) = true → False := fun e1 e2 =>
    hne (((h.role t).1 e1).trans ((h.role u).1 e2).symm)
  cases h1 : s.loc t <;> rw [h1] at ha <;> cases x <;> simp only [uses, reduceCtorEq, Option.some.injEq] at ha <;>
    first
    | exact absurd rfl hx
    | (cases h2 : s.loc u <;> rw [h2] at hb <;> simp only [uses, reduceCtorEq, Option.some.injEq] at hb <;>
        first
        | exact hex (by rw [h1]; rfl) (by rw [h2]; rfl)
        | exact hmain (by rw [h1]; rfl) (by rw [h2]; rfl)
        | exact key t u (.inl h1) ⟨_, _, h2⟩
        | exact key u t (.inl h2) ⟨_, _, h1⟩
        | exact key t u (.inr ⟨_, _, h1⟩) ⟨_, _, h2⟩
        | exact key u t (.inr ⟨_, _, h2⟩) ⟨_, _, h1⟩
        | exact key2 t u h1 (by rw [h2]; rfl)
        | exact key2 u t h2 (by rw [h1]; rfl)
        | (subst ha hb; cases hab)
        | skip)

end Rcpr.Mandel
