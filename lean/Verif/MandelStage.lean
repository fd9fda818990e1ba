import Verif.MandelInv

/-! The frame that is drawn. -/
namespace Rcpr.Mandel

open Rcpr Rcpr.Monitor

def isLine : Slot → Bool
  | .line _ => true
  | _ => false

/-- the pixels the thread has drawn so far -/
def pixOk (c : Cfg) (i : Nat) : At → Prop
  | .draw j ps => ps.length ≤ c.cols ∧ ps = (List.range ps.length).map fun k => ⟨some i, j, k⟩
  | .lock j ps => ps = row c i j
  | .save j ps => ps = row c i j
  | _ => True

def count (c : Cfg) (a : Nat → Slot) : Nat := (List.range c.lines).countP fun j => isLine (a j)

theorem countP_save {a : Nat → Slot} {j : Nat} {ps : List Pix} (hj : isLine (a j) = false) : ∀ n,
    (List.range n).countP (fun k => isLine (if k = j then .line ps else a k)) =
      (List.range n).countP (fun k => isLine (a k)) + if j < n then 1 else 0
  | 0 => rfl
  | n + 1 => by
    rw [List.range_succ, List.countP_append, List.countP_append, countP_save hj n]
    by_cases h : n = j
    · subst h; simp [hj, show isLine (.line ps) = true from rfl]
    · have h1 : (j < n + 1) = (j < n) := by simp only [eq_iff_iff]; omega
      simp [h, h1]; omega

theorem count_all {c : Cfg} {a : Nat → Slot} (h : count c a = c.lines) : ∀ j < c.lines, isLine (a j) = true := by
  intro j hj
  have : (List.range c.lines).countP (fun j => isLine (a j)) = (List.range c.lines).length := by
    rw [List.length_range]; exact h
  exact List.countP_eq_length.1 this j (List.mem_range.2 hj)

theorem count_le {c : Cfg} {a : Nat → Slot} : count c a ≤ c.lines := by
  have := List.countP_le_length (p := fun j => isLine (a j)) (l := List.range c.lines)
  rwa [List.length_range] at this

theorem count_zero {c : Cfg} {a : Nat → Slot} (h : ∀ j, isLine (a j) = false) : count c a = 0 := by
  unfold count
  rw [List.countP_eq_zero]
  intro j _
  rw [h j]; decide

structure Quiet (loc : Nat → At) (d : Info) : Prop where
  done : d.done = true
  calm : ∀ t, calm (loc t) = true

structure Fresh (i : Nat) (loc : Nat → At) (d : Info) : Prop extends Quiet loc d where
  zoom : d.zoom = some i
  none : ∀ j, isLine (d.array j) = false

/-- all the lines are written -/
def Complete (c : Cfg) (d : Info) : Prop := d.written = c.lines ∧ d.done = true

structure Busy (c : Cfg) (i : Nat) (loc : Nat → At) (d : Info) : Prop where
  zoom : d.zoom = some i
  curr : d.curr ≤ c.lines
  arr : ∀ j ps, d.array j = .line ps → j < d.curr ∧ ps = row c i j
  cnt : d.written = count c d.array
  lines : ∀ t j, lineOf (loc t) = some j → j < d.curr ∧ isLine (d.array j) = false
  pix : ∀ t, pixOk c i (loc t)
  dist : ∀ t u j, lineOf (loc t) = some j → lineOf (loc u) = some j → t = u
  rep : ∀ t, loc t = .report → Complete c d

theorem calm_ok {l : At} (h : calm l = true) : lineOf l = none ∧ (∀ c i, pixOk c i l) ∧ l ≠ .report ∧ l ≠ .take := by
  cases l <;> simp_all [calm, lineOf, pixOk]

theorem Quiet.work {c : Cfg} {loc : Nat → At} {d d' : Info} {ch : Choice} {t : Nat} {l' : At} (h : Quiet loc d)
    (hw : Work c d ch (loc t) l' d') : Quiet (upd loc t l') d' ∧ d'.zoom = d.zoom ∧ d'.array = d.array ∧ d'.curr = d.curr ∧
      d'.written = d.written := by
  have hc := h.calm t
  have key : ∀ l, Mandel.calm l = true → ∀ u, Mandel.calm (upd loc t l u) = true := fun l hl u => by
    by_cases hu : u = t
    · subst hu; rw [upd_self]; exact hl
    · rw [upd_ne _ _ hu]; exact h.calm u
  have hd := h.done
  generalize hl : loc t = l at hw hc
  cases hw with
  | same => exact ⟨⟨h.done, key _ hc⟩, rfl, rfl, rfl, rfl⟩
  | drop _ _ hc' => exact ⟨⟨h.done, key _ hc'⟩, rfl, rfl, rfl, rfl⟩
  | lose _ hc' => exact ⟨⟨h.done, key _ hc'⟩, rfl, rfl, rfl, rfl⟩
  | go h' => rw [hd] at h'; cases h'
  | _ => cases hc

theorem Fresh.work {c : Cfg} {i : Nat} {loc : Nat → At} {d d' : Info} {ch : Choice} {t : Nat} {l' : At} (h : Fresh i loc d)
    (hw : Work c d ch (loc t) l' d') : Fresh i (upd loc t l') d' := by
  obtain ⟨h1, h2, h3, _⟩ := h.toQuiet.work hw
  exact ⟨h1, h2 ▸ h.zoom, h3 ▸ h.none⟩

theorem Busy.full {c : Cfg} {i : Nat} {loc : Nat → At} {d : Info} (h : Busy c i loc d) (hw : d.written = c.lines) :
    ∀ j < c.lines, isLine (d.array j) = true := count_all (h.cnt ▸ hw)

theorem Busy.no_line {c : Cfg} {i : Nat} {loc : Nat → At} {d : Info} (h : Busy c i loc d) (hw : d.written = c.lines) (t : Nat) :
    lineOf (loc t) = none := by
  cases hl : lineOf (loc t) with
  | none => rfl
  | some j =>
    obtain ⟨h1, h2⟩ := h.lines t j hl
    rw [h.full hw j (Nat.lt_of_lt_of_le h1 h.curr)] at h2
    cases h2

theorem Busy.all_taken {c : Cfg} {i : Nat} {loc : Nat → At} {d : Info} (h : Busy c i loc d) (hw : d.written = c.lines) :
    d.curr = c.lines := by
  apply Classical.byContradiction
  intro hc
  have hlt : d.curr < c.lines := Nat.lt_of_le_of_ne h.curr hc
  have := h.full hw _ hlt
  cases ha : d.array d.curr with
  | line ps => exact absurd (h.arr _ _ ha).1 (Nat.lt_irrefl _)
  | _ => rw [ha] at this; cases this

/-- a thread moves on without the data -/
theorem Busy.upd {c : Cfg} {i : Nat} {loc : Nat → At} {d : Info} (h : Busy c i loc d) {t : Nat} {l : At}
    (hl : ∀ j, lineOf l = some j → lineOf (loc t) = some j) (hp : pixOk c i l) (hr : l = .report → Complete c d) :
    Busy c i (upd loc t l) d where
  zoom := h.zoom
  curr := h.curr
  arr := h.arr
  cnt := h.cnt
  lines u j hu := by
    by_cases he : u = t
    · subst he; rw [upd_self] at hu; exact h.lines u j (hl j hu)
    · rw [upd_ne _ _ he] at hu; exact h.lines u j hu
  pix u := by
    by_cases he : u = t
    · subst he; rw [upd_self]; exact hp
    · rw [upd_ne _ _ he]; exact h.pix u
  dist u v j hu hv := by
    have key : ∀ u, lineOf (Monitor.upd loc t l u) = some j → lineOf (loc u) = some j := fun u hu => by
      by_cases he : u = t
      · subst he; rw [upd_self] at hu; exact hl j hu
      · rw [upd_ne _ _ he] at hu; exact hu
    exact h.dist u v j (key u hu) (key v hv)
  rep u hu := by
    by_cases he : u = t
    · subst he; rw [upd_self] at hu; exact hr hu
    · rw [upd_ne _ _ he] at hu; exact h.rep u hu

theorem Busy.congr {c : Cfg} {i : Nat} {loc : Nat → At} {d : Info} (h : Busy c i loc d) {b b' : Bool} (hb : d.done = true → b' = true) :
    Busy c i loc { d with quiesce := b, done := b' } :=
  ⟨h.zoom, h.curr, h.arr, h.cnt, h.lines, h.pix, h.dist, fun t ht => ⟨(h.rep t ht).1, hb (h.rep t ht).2⟩⟩

theorem pix_step {c : Cfg} {i j : Nat} {ps : List Pix} (h : pixOk c i (.draw j ps)) (hl : ps.length < c.cols) :
    pixOk c i (.draw j (ps ++ [⟨some i, j, ps.length⟩])) := by
  obtain ⟨_, h2⟩ := h
  refine ⟨by simp; omega, ?_⟩
  rw [List.length_append, List.length_singleton, List.range_succ, List.map_append, ← h2]
  rfl

theorem Busy.work {c : Cfg} {i : Nat} {loc : Nat → At} {d d' : Info} {ch : Choice} {t : Nat} {l' : At} (h : Busy c i loc d)
    (hw : Work c d ch (loc t) l' d') : Busy c i (Monitor.upd loc t l') d' ∧ (Complete c d → Complete c d') := by
  have hpix := h.pix t
  have hrep := h.rep t
  have hline := h.lines t
  generalize hl : loc t = l at hw hpix hrep hline
  cases hw with
  | same => exact ⟨h.upd (fun j hj => by rw [hl]; exact hj) hpix hrep, id⟩
  | drop _ _ hc =>
    obtain ⟨k1, k2, k3, _⟩ := calm_ok hc
    exact ⟨(h.upd (fun j hj => by rw [k1] at hj; cases hj) (k2 _ _) (fun e => absurd e k3)).congr (b' := d.done) id, id⟩
  | lose _ hc =>
    obtain ⟨k1, k2, k3, _⟩ := calm_ok hc
    exact ⟨h.upd (fun j hj => by rw [k1] at hj; cases hj) (k2 _ _) (fun e => absurd e k3), id⟩
  | go _ => exact ⟨h.upd (fun j hj => by cases hj) trivial (fun e => by cases e), id⟩
  | none _ => exact ⟨(h.upd (l := .test) (fun j hj => by cases hj) trivial (fun e => by cases e)).congr (b := d.quiesce) fun _ => rfl, fun h => ⟨h.1, rfl⟩⟩
  | unlock j => exact ⟨h.upd (fun k hk => by rw [hl]; exact hk) ⟨Nat.zero_le _, rfl⟩ (fun e => by cases e), id⟩
  | draw hc =>
    refine ⟨h.upd (fun k hk => by rw [hl]; exact hk) ?_ (fun e => by cases e), id⟩
    rw [h.zoom]
    exact pix_step hpix hc
  | drawn hc =>
    refine ⟨h.upd (fun k hk => by rw [hl]; exact hk) ?_ (fun e => by cases e), id⟩
    obtain ⟨h1, h2⟩ := hpix
    show _ = row c i _
    rw [h2, row, Nat.le_antisymm h1 (Nat.le_of_not_lt hc)]
  | lock j ps => exact ⟨h.upd (fun k hk => by rw [hl]; exact hk) hpix (fun e => by cases e), id⟩
  | take hc =>
    refine ⟨⟨h.zoom, hc, fun j ps hj => ?_, h.cnt, fun u j hu => ?_, fun u => ?_, fun u v j hu hv => ?_, fun u hu => ?_⟩, id⟩
    · obtain ⟨k1, k2⟩ := h.arr j ps hj
      exact ⟨Nat.lt_succ_of_lt k1, k2⟩
    · by_cases he : u = t
      · subst he
        rw [upd_self] at hu
        cases hu
        refine ⟨Nat.lt_succ_self _, ?_⟩
        cases ha : d.array d.curr with
        | line ps => exact absurd (h.arr _ _ ha).1 (Nat.lt_irrefl _)
        | _ => rfl
      · rw [upd_ne _ _ he] at hu
        obtain ⟨k1, k2⟩ := h.lines u j hu
        exact ⟨Nat.lt_succ_of_lt k1, k2⟩
    · by_cases he : u = t
      · subst he; rw [upd_self]; trivial
      · rw [upd_ne _ _ he]; exact h.pix u
    · have key : ∀ u, lineOf (Monitor.upd loc t (.unlock d.curr) u) = some j → u = t ∧ j = d.curr ∨ u ≠ t ∧ lineOf (loc u) = some j :=
        fun u hu => by
          by_cases he : u = t
          · subst he; rw [upd_self] at hu; cases hu; exact .inl ⟨rfl, rfl⟩
          · rw [upd_ne _ _ he] at hu; exact .inr ⟨he, hu⟩
      rcases key u hu with ⟨h1, h2⟩ | ⟨h1, h2⟩ <;> rcases key v hv with ⟨h3, h4⟩ | ⟨h3, h4⟩
      · rw [h1, h3]
      · exact absurd (h.lines v j h4).1 (by rw [h2]; exact Nat.lt_irrefl _)
      · exact absurd (h.lines u j h2).1 (by rw [h4]; exact Nat.lt_irrefl _)
      · exact h.dist u v j h2 h4
    · by_cases he : u = t
      · subst he; rw [upd_self] at hu; cases hu
      · rw [upd_ne _ _ he] at hu; exact h.rep u hu
  | @save _ j ps =>
    obtain ⟨hj, hn⟩ := hline j rfl
    have hnw : d.written ≠ c.lines := fun hw => by
      have := h.no_line hw t
      rw [hl] at this
      cases this
    have hl' : lineOf (if d.written + 1 = c.lines then .report else .test) = none := by split <;> rfl
    refine ⟨⟨h.zoom, h.curr, fun k qs hk => ?_, ?_, fun u k hu => ?_, fun u => ?_, fun u v k hu hv => ?_, fun u hu => ?_⟩,
      fun hw => absurd hw.1 hnw⟩
    · dsimp only at hk
      split at hk
      next e => cases hk; subst e; exact ⟨hj, hpix⟩
      next e => exact h.arr k qs hk
    · show d.written + 1 = _
      unfold count
      rw [countP_save hn, h.cnt, if_pos (Nat.lt_of_lt_of_le hj h.curr)]
      rfl
    · by_cases he : u = t
      · subst he; rw [upd_self, hl'] at hu; cases hu
      · rw [upd_ne _ _ he] at hu
        obtain ⟨k1, k2⟩ := h.lines u k hu
        refine ⟨k1, ?_⟩
        dsimp only
        rw [if_neg]
        · exact k2
        · intro e
          subst e
          exact he (h.dist u t k hu (by rw [hl]; rfl))
    · by_cases he : u = t
      · subst he; rw [upd_self]; split <;> trivial
      · rw [upd_ne _ _ he]; exact h.pix u
    · have key : ∀ u, lineOf (Monitor.upd loc t (if d.written + 1 = c.lines then .report else .test) u) = some k →
          lineOf (loc u) = some k := fun u hu => by
        by_cases he : u = t
        · subst he; rw [upd_self, hl'] at hu; cases hu
        · rw [upd_ne _ _ he] at hu; exact hu
      exact h.dist u v k (key u hu) (key v hv)
    · by_cases he : u = t
      · subst he
        rw [upd_self] at hu
        split at hu
        next e => exact ⟨e, if_pos e⟩
        · cases hu
      · rw [upd_ne _ _ he] at hu; exact absurd (h.rep u hu).1 hnw

def frames (c : Cfg) (k : Nat) : List (List Slot) := (List.range k).map (frame c)

def Stage (c : Cfg) (s : St) : Prop :=
  match s.loc 0 with
  | .setup => Quiet s.loc (s.data 0) ∧ ∀ j, isLine ((s.data 0).array j) = false
  | .acquire => Fresh 0 s.loc (s.data 0)
  | .begin i f => Fresh i s.loc (s.data 0) ∧ i < c.frames ∧ f = frames c i
  | .tell i f => Busy c i s.loc (s.data 0) ∧ i < c.frames ∧ f = frames c i
  | .sleep i f => Busy c i s.loc (s.data 0) ∧ i < c.frames ∧ f = frames c i ∧
      (s.mode 0 = .woken mainCond 0 → Complete c (s.data 0))
  | .write i f => Busy c i s.loc (s.data 0) ∧ i < c.frames ∧ f = frames c i ∧ Complete c (s.data 0)
  | .finish f => Quiet s.loc (s.data 0) ∧ f = frames c c.frames
  | .quit _ f | .relock _ f | .tellQuit f | .unlockQuit f | .join _ f | .exit _ f => ∃ k ≤ c.frames, f = frames c k
  | _ => False

theorem Shape.mode0 {c : Cfg} {s s' : St} {t : Nat} {ch : Choice} (h : Shape c s) (ht : t ≠ 0) (hm : Move c s t ch s') :
    s'.mode 0 = s.mode 0 ∨ s.loc t = .report := by
  cases hm with
  | one _ hl _ => exact .inr hl
  | all _ hl => exact absurd ((h.role t).1 (allNext_ok hl).2.2.2) ht
  | spur _ => exact .inl (upd_ne _ _ (Ne.symm ht))
  | wait _ _ _ => exact .inl (upd_ne _ _ (Ne.symm ht))
  | resume _ _ => exact .inl (upd_ne _ _ (Ne.symm ht))
  | _ => exact .inl rfl

theorem Stage.worker {c : Cfg} {s s' : St} {t : Nat} {ch : Choice} (h : Shape c s) (hs : Stage c s) (ht : t ≠ 0)
    (hm : Move c s t ch s') : Stage c s' := by
  obtain ⟨l', d', hw, h1, h2⟩ := h.worker ht hm
  have h0 : s'.loc 0 = s.loc 0 := by rw [h1, upd_ne _ _ (Ne.symm ht)]
  have hmd := h.mode0 ht hm
  unfold Stage at hs ⊢
  rw [h0, h1, h2]
  cases hl : s.loc 0 <;> rw [hl] at hs <;> dsimp only at hs ⊢ <;> try exact hs
  case setup =>
    obtain ⟨k1, k2, k3, _⟩ := hs.1.work hw
    exact ⟨k1, k3 ▸ hs.2⟩
  case acquire => exact hs.work hw
  case begin => exact ⟨hs.1.work hw, hs.2⟩
  case tell => exact ⟨(hs.1.work hw).1, hs.2⟩
  case sleep =>
    obtain ⟨k1, k2⟩ := hs.1.work hw
    refine ⟨k1, hs.2.1, hs.2.2.1, fun hk => ?_⟩
    rcases hmd with hmd | hmd
    · exact k2 (hs.2.2.2 (hmd ▸ hk))
    · exact k2 (hs.1.rep t hmd)
  case write =>
    obtain ⟨k1, k2⟩ := hs.1.work hw
    exact ⟨k1, hs.2.1, hs.2.2.1, k2 hs.2.2.2⟩
  case finish => exact ⟨(hs.1.work hw).1, hs.2⟩

theorem Quiet.upd {loc : Nat → At} {d : Info} (h : Quiet loc d) {t : Nat} {l : At} (hl : Mandel.calm l = true) :
    Quiet (upd loc t l) d := ⟨h.done, fun u => by
  by_cases hu : u = t
  · subst hu; rw [upd_self]; exact hl
  · rw [upd_ne _ _ hu]; exact h.calm u⟩

theorem Busy.upd0 {c : Cfg} {i : Nat} {loc : Nat → At} {d : Info} (h : Busy c i loc d) {t : Nat} {l : At} (hl : calm l = true) :
    Busy c i (Monitor.upd loc t l) d := by
  obtain ⟨k1, k2, k3, _⟩ := calm_ok hl
  exact h.upd (fun j hj => by rw [k1] at hj; cases hj) (k2 _ _) (fun e => absurd e k3)

/-- a frame begins -/
theorem Fresh.busy {c : Cfg} {i : Nat} {loc : Nat → At} {d : Info} (h : Fresh i loc d) :
    Busy c i loc { d with done := false, curr := 0, written := 0 } where
  zoom := h.zoom
  curr := Nat.zero_le _
  arr j ps hj := by have := h.none j; rw [hj] at this; cases this
  cnt := (count_zero h.none).symm
  lines t j hj := by rw [(calm_ok (h.calm t)).1] at hj; cases hj
  pix t := (calm_ok (h.calm t)).2.1 c i
  dist t u j hj := by rw [(calm_ok (h.calm t)).1] at hj; cases hj
  rep t ht := absurd ht (calm_ok (h.calm t)).2.2.1

/-- the file of a complete frame -/
theorem Busy.file {c : Cfg} {i : Nat} {loc : Nat → At} {d : Info} (h : Busy c i loc d) (hw : d.written = c.lines) :
    file c d = frame c i := by
  unfold Mandel.file frame
  apply List.map_congr_left
  intro j hj
  have := h.full hw j (List.mem_range.1 hj)
  cases ha : d.array j with
  | line ps => rw [(h.arr j ps ha).2]
  | _ => rw [ha] at this; cases this

theorem frames_succ (c : Cfg) (k : Nat) : frames c (k + 1) = frames c k ++ [frame c k] := by
  simp [frames, List.range_succ]

theorem Stage.main {c : Cfg} {s s' : St} {ch : Choice} (h : Shape c s) (hs : Stage c s)
    (hm : Move c s 0 ch s') (hc : ch ≠ .spurious) : Stage c s' := by
  unfold Stage at hs ⊢
  cases hm with
  | spur _ => exact absurd rfl hc
  | @resume cnd m hm hw =>
    have hcd : condOf (s.loc 0) = some cnd ∧ m = 0 := by
      rcases h.md 0 with h | ⟨k, h1, h2⟩
      · rw [hm] at h; cases h
      · rw [hm] at h2
        rcases h2 with h2 | h2 <;> cases h2
        exact ⟨h1, rfl⟩
    obtain ⟨hcd, rfl⟩ := hcd
    dsimp only
    rw [upd_self]
    cases hl : s.loc 0 <;> rw [hl] at hs hcd <;> simp only [condOf, reduceCtorEq, Option.some.injEq] at hcd <;> dsimp only at hs
    simp only [next, ne_eq, not_true, if_false]
    exact ⟨hs.1.upd0 rfl, hs.2.1, hs.2.2.1, hs.2.2.2 (hcd ▸ hm)⟩
  | fail hm he hl =>
    dsimp only
    rw [upd_self]
    cases hl0 : s.loc 0 <;> rw [hl0] at hs hl <;> simp only [failNext, reduceCtorEq, Option.some.injEq] at hl <;> subst hl <;>
      dsimp only at hs ⊢
    case acquire => exact ⟨0, Nat.zero_le _, rfl⟩
    case tell => exact ⟨_, Nat.le_of_lt hs.2.1, hs.2.2⟩
    case sleep => exact ⟨_, Nat.le_of_lt hs.2.1, hs.2.2.1⟩
    all_goals exact hs
  | acq hm hw hl =>
    dsimp only
    rw [upd_self]
    cases hl0 : s.loc 0 <;> rw [hl0] at hs hl <;> simp only [acqNext, reduceCtorEq, Option.some.injEq] at hl <;> subst hl <;>
      dsimp only at hs ⊢
    case acquire =>
      by_cases h0 : 0 < c.frames
      · rw [top, if_pos h0]
        exact ⟨⟨hs.toQuiet.upd rfl, hs.zoom, hs.none⟩, h0, rfl⟩
      · rw [top, if_neg h0]
        have : c.frames = 0 := by omega
        exact ⟨hs.toQuiet.upd rfl, by rw [this]; rfl⟩
    case relock => exact hs
  | rel hm hw hl =>
    dsimp only
    rw [upd_self]
    cases hl0 : s.loc 0 <;> rw [hl0] at hs hl <;> simp only [relNext, reduceCtorEq, Option.some.injEq] at hl <;> subst hl <;>
      dsimp only at hs ⊢
    exact hs
  | wait hm hw hl =>
    dsimp only
    cases hl0 : s.loc 0 <;> rw [hl0] at hs hl <;> simp only [condOf, reduceCtorEq, Option.some.injEq] at hl <;>
      dsimp only at hs ⊢
    case sleep => exact ⟨hs.1, hs.2.1, hs.2.2.1, fun hk => by rw [upd_self] at hk; cases hk⟩
  | one hm hl _ => rw [hl] at hs; exact hs.elim
  | all hm hl =>
    dsimp only
    rw [upd_self]
    cases hl0 : s.loc 0 <;> rw [hl0] at hs hl <;> simp only [allNext, reduceCtorEq, Option.some.injEq] at hl <;> subst hl <;>
      dsimp only at hs ⊢
    case tell =>
      refine ⟨hs.1.upd0 rfl, hs.2.1, hs.2.2, fun hk => ?_⟩
      have := wake_run (cnd := workerCond) (w := fun _ => true) |>.2 hm
      rw [this] at hk
      cases hk
    case tellQuit => exact hs
  | acc hm hw hl _ =>
    dsimp only
    rw [upd_self, upd_self]
    cases hl0 : s.loc 0 <;> rw [hl0] at hs hl <;> simp only [accNext, reduceCtorEq, Option.some.injEq] at hl <;> subst hl <;>
      dsimp only at hs ⊢
    case begin => exact ⟨hs.1.busy.upd0 rfl, hs.2⟩
    case write i f =>
      obtain ⟨hb, hi, rfl, hcm, hdn⟩ := hs
      have hcalm : ∀ t, calm (s.loc t) = true := fun t => by
        have k1 := hb.no_line hcm t
        apply Classical.byContradiction
        intro hnc
        have hlt : s.loc t = .report ∨ s.loc t = .take := by
          generalize s.loc t = l at *
          cases l <;> simp_all [calm, lineOf]
        have hh : holds (s.loc t) = true := by rcases hlt with e | e <;> rw [e] <;> rfl
        have hr : s.mode t = .run := by
          rcases h.md t with e | ⟨k, e, _⟩
          · exact e
          · rcases hlt with e' | e' <;> rw [e'] at e <;> cases e
        have hj : t ≤ c.jobs := by
          apply Classical.byContradiction
          intro hj
          have := h.out t (by omega)
          rcases hlt with e' | e' <;> rw [this] at e' <;> cases e'
        have := (h.own t).2 ⟨hj, hr, hh⟩
        rw [hw] at this
        have h0 : t = 0 := (Option.some.inj this).symm
        subst h0
        rcases hlt with e' | e' <;> rw [hl0] at e' <;> cases e'
      have hq : Quiet s.loc { s.data 0 with
          array := fun j => if j < c.lines then .null else (s.data 0).array j, zoom := some (i + 1) } := ⟨hdn, hcalm⟩
      rw [hb.file hcm, ← frames_succ]
      by_cases h0 : i + 1 < c.frames
      · rw [top, if_pos h0]
        refine ⟨⟨hq.upd rfl, rfl, fun j => ?_⟩, h0, rfl⟩
        dsimp only
        split
        · rfl
        next hj =>
          cases ha : (s.data 0).array j with
          | line ps => exact absurd (Nat.lt_of_lt_of_le (hb.arr j ps ha).1 hb.curr) hj
          | _ => rfl
      · rw [top, if_neg h0]
        have : i + 1 = c.frames := by omega
        exact ⟨hq.upd rfl, by rw [this]⟩
    all_goals exact hs.elim
  | put hm hl =>
    dsimp only [put]
    rw [upd_self, upd_self]
    cases hl0 : s.loc 0 <;> rw [hl0] at hs hl <;> simp only [putNext, reduceCtorEq, Option.some.injEq] at hl <;>
      dsimp only at hs ⊢
    case setup => subst hl; exact ⟨⟨hs.1.done, (hs.1.upd rfl).calm⟩, rfl, hs.2⟩
    case quit => subst hl; exact hs
    case join =>
      split at hl
      · cases hl; exact hs
      · split at hl <;> cases hl; exact hs
    all_goals exact hs.elim

end Rcpr.Mandel
