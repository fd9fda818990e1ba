import Verif.Bigint

/-! Property C42: big integers. -/
namespace Rcpr.Bigint

open Rcpr

/-! ### Specification: handles denote values -/

/-- a value: sign and words, least significant first -/
abbrev Value := Bool × List Word

/-- the integers alive, by handle -/
abbrev World := Addr → Option Value

def World.set (w : World) (p : Addr) (v : Option Value) : World := fun x => if x = p then v else w x

/-- least number of 64-bit words with room for `bits` bits -/
def IsWordCount (bits words : Nat) : Prop :=
  bits ≤ 64 * words ∧ ∀ w, bits ≤ 64 * w → words ≤ w

/-- What each call must do to the integers alive, and what it must return. -/
inductive Spec : World → Op → World → Status → Option Addr → Prop
  | zero {w a size tmp p rec junk n} (hn : IsWordCount size.toNat n) :
      Spec w (.createZero a size (.ok tmp) (.ok p) rec junk)
        (w.set tmp (some (false, List.replicate n 0))) SUCCESS (some tmp)
  | zeroFail1 {w a size st a2 rec junk} :
      Spec w (.createZero a size (.error st) a2 rec junk) w st none
  | zeroFail2 {w a size tmp st rec junk} :
      Spec w (.createZero a size (.ok tmp) (.error st) rec junk) w st none
  | clone {w a j tmp p rec junk v} (hv : w j = some v) :
      Spec w (.clone a j (.ok tmp) (.ok p) rec junk) (w.set tmp (some v)) SUCCESS (some tmp)
  | cloneFail1 {w a j st a2 rec junk} : Spec w (.clone a j (.error st) a2 rec junk) w st none
  | cloneFail2 {w a j tmp st rec junk} : Spec w (.clone a j (.ok tmp) (.error st) rec junk) w st none
  | release {w i rec1 rec2} (hi : (w i).isSome) :
      Spec w (.release i rec1 rec2) (w.set i none) (if rec2 = SUCCESS then rec1 else rec2) none

inductive SpecRun : World → List Op → World → List (Status × Option Addr) → Prop
  | nil {w} : SpecRun w [] w []
  | cons {w op w' st r ops w'' rs} : Spec w op w' st r → SpecRun w' ops w'' rs →
      SpecRun w (op :: ops) w'' ((st, r) :: rs)

/-- a failing allocator says so, and a succeeding one gives memory that is not in use -/
def Ans.Legal (m : Heap) : Ans → Prop
  | .error st => st ≠ SUCCESS
  | .ok p => p ≠ 0 ∧ m p = none

/-- the two answers do not give the same memory twice -/
def Distinct : Ans → Ans → Prop
  | .ok p, .ok q => p ≠ q
  | _, _ => True

/-- the client passes live handles and the allocator behaves -/
def Legal (m : Heap) (w : World) : Op → Prop
  | .createZero _ _ a1 a2 _ _ => Ans.Legal m a1 ∧ Ans.Legal m a2 ∧ Distinct a1 a2
  | .clone _ j a1 a2 _ _ => (w j).isSome ∧ Ans.Legal m a1 ∧ Ans.Legal m a2 ∧ Distinct a1 a2
  | .release i _ _ => (w i).isSome

/-- every call of the history is legal in the state it meets -/
def LegalRun (m : Heap) (w : World) : List Op → Prop
  | [] => True
  | op :: ops => Legal m w op ∧
      ∀ m' st r w', step m op = some (m', st, r) → Spec w op w' st r → LegalRun m' w' ops

/-! ### Representation -/

/-- The heap holds exactly the integers of the world: `owner` tells which handle an array belongs
to; no block is unaccounted for. -/
structure Rep (m : Heap) (w : World) : Prop where
  live : ∀ i s ws, w i = some (s, ws) → ∃ a p, m i = some (.big ⟨a, s, BitVec.ofNat 64 ws.length, p⟩) ∧
    m p = some (.arr ws) ∧ ws.length < 2 ^ 60
  big : ∀ i b, m i = some (.big b) → (w i).isSome
  arr : ∀ p ws, m p = some (.arr ws) → ∃ i b, m i = some (.big b) ∧ b.array = p
  inj : ∀ i j b c, m i = some (.big b) → m j = some (.big c) → b.array = c.array → i = j
  nonnull : m 0 = none

theorem intSize_toNat (size : Word) : (intSize size).toNat = (size.toNat + 63) / 64 := by
  have hs := size.isLt
  have e8 : (8 : Word).toNat = 8 := rfl
  have e1 : (1 : Word).toNat = 1 := rfl
  have e0 : (0 : Word).toNat = 0 := rfl
  have d : (size / 8).toNat = size.toNat / 8 := by rw [BitVec.toNat_udiv, e8]
  have r : (size % 8).toNat = size.toNat % 8 := by rw [BitVec.toNat_umod, e8]
  have key : ∀ b : Word, b.toNat = (size.toNat + 7) / 8 →
      (if b % 8 > 0 then b / 8 + 1 else b / 8).toNat = (size.toNat + 63) / 64 := by
    intro b hb
    have d' : (b / 8).toNat = b.toNat / 8 := by rw [BitVec.toNat_udiv, e8]
    have r' : (b % 8).toNat = b.toNat % 8 := by rw [BitVec.toNat_umod, e8]
    split
    · rename_i h
      rw [gt_iff_lt, BitVec.lt_def, r', e0] at h
      rw [BitVec.toNat_add, d', e1, Nat.mod_eq_of_lt (by omega)]; omega
    · rename_i h
      rw [gt_iff_lt, BitVec.lt_def, r', e0] at h
      rw [d']; omega
  unfold intSize
  dsimp only
  apply key
  split
  · rename_i h
    rw [gt_iff_lt, BitVec.lt_def, r, e0] at h
    rw [BitVec.toNat_add, d, e1, Nat.mod_eq_of_lt (by omega)]; omega
  · rename_i h
    rw [gt_iff_lt, BitVec.lt_def, r, e0] at h
    rw [d]; omega

theorem mul8 {n : Nat} {x : Word} (h : n < 2 ^ 60) (hx : x.toNat = n) :
    (x * 8).toNat / 8 = n ∧ (8 * x).toNat / 8 = n := by
  have e8 : (8 : Word).toNat = 8 := rfl
  constructor
  · rw [BitVec.toNat_mul, hx, e8, Nat.mod_eq_of_lt (by omega)]; omega
  · rw [BitVec.toNat_mul, hx, e8, Nat.mod_eq_of_lt (by omega)]; omega

/-- adding an integer in two unused blocks -/
theorem Rep.add {m : Heap} {w : World} (h : Rep m w) {tmp p a : Addr} {s : Bool} {ws : List Word}
    (ht : m tmp = none) (hp : m p = none) (ht0 : tmp ≠ 0) (hp0 : p ≠ 0) (hne : tmp ≠ p)
    (hl : ws.length < 2 ^ 60) :
    Rep (upd (upd m p (some (.arr ws))) tmp (some (.big ⟨a, s, BitVec.ofNat 64 ws.length, p⟩)))
      (w.set tmp (some (s, ws))) := by
  have nb : ∀ i b, m i = some (.big b) → b.array ≠ p ∧ b.array ≠ tmp := by
    intro i b hb
    obtain ⟨⟨s', ws'⟩, hw⟩ := Option.isSome_iff_exists.1 (h.big i b hb)
    obtain ⟨a', p', h1, h2, _⟩ := h.live i s' ws' hw
    rw [hb] at h1; simp only [Option.some.injEq, Block.big.injEq] at h1
    subst h1
    exact ⟨by rintro rfl; rw [hp] at h2; simp at h2, by rintro rfl; rw [ht] at h2; simp at h2⟩
  constructor
  · intro i s' ws' hw
    simp only [World.set] at hw
    by_cases hi : i = tmp
    · simp only [hi, if_true, Option.some.injEq, Prod.mk.injEq] at hw
      obtain ⟨rfl, rfl⟩ := hw
      exact ⟨a, p, by simp [upd, hi], by simp [upd, hne.symm], hl⟩
    · simp only [hi, if_false] at hw
      obtain ⟨a', p', h1, h2, h3⟩ := h.live i s' ws' hw
      have e1 : i ≠ p := by rintro rfl; rw [hp] at h1; simp at h1
      have e2 := nb i _ h1
      exact ⟨a', p', by simp [upd, hi, e1, h1], by simp [upd, e2.1, e2.2, h2], h3⟩
  · intro i b hb
    simp only [World.set]
    by_cases hi : i = tmp
    · simp [hi]
    · simp only [hi, if_false]
      by_cases hip : i = p
      · simp [upd, hi, hip, hne.symm] at hb
      · exact h.big i b (by simpa [upd, hi, hip] using hb)
  · intro q vs hq
    by_cases hi : q = tmp
    · simp [upd, hi] at hq
    · by_cases hqp : q = p
      · exact ⟨tmp, ⟨a, s, BitVec.ofNat 64 ws.length, p⟩, by simp [upd], hqp.symm⟩
      · obtain ⟨i, b, h1, h2⟩ := h.arr q vs (by simpa [upd, hi, hqp] using hq)
        have e1 : i ≠ p := by rintro rfl; rw [hp] at h1; simp at h1
        have e2 : i ≠ tmp := by rintro rfl; rw [ht] at h1; simp at h1
        exact ⟨i, b, by simp [upd, e1, e2, h1], h2⟩
  · intro i j b c hb hc hbc
    by_cases hi : i = tmp <;> by_cases hj : j = tmp
    · rw [hi, hj]
    · simp only [upd, hi, if_true, Option.some.injEq, Block.big.injEq] at hb
      by_cases hjp : j = p
      · simp [upd, hjp, hne.symm] at hc
      · have := nb j c (by simpa [upd, hj, hjp] using hc)
        subst hb; exact absurd hbc.symm this.1
    · simp only [upd, hj, if_true, Option.some.injEq, Block.big.injEq] at hc
      by_cases hip : i = p
      · simp [upd, hip, hne.symm] at hb
      · have := nb i b (by simpa [upd, hi, hip] using hb)
        subst hc; exact absurd hbc this.1
    · by_cases hip : i = p
      · simp [upd, hip, hne.symm] at hb
      · by_cases hjp : j = p
        · simp [upd, hjp, hne.symm] at hc
        · exact h.inj i j b c (by simpa [upd, hi, hip] using hb) (by simpa [upd, hj, hjp] using hc) hbc
  · simp [upd, ht0.symm, hp0.symm, h.nonnull]

theorem upd_upd (m : Heap) (p : Addr) (u v : Option Block) : upd (upd m p u) p v = upd m p v := by
  funext x; simp only [upd]; split <;> rfl

theorem upd_comm (m : Heap) {p q : Addr} (u v : Option Block) (h : p ≠ q) :
    upd (upd m p u) q v = upd (upd m q v) p u := by
  funext x; simp only [upd]
  by_cases h1 : x = q
  · have : ¬ q = p := fun e => h e.symm
    simp [h1, this]
  · simp [h1]

theorem upd_none (m : Heap) {p : Addr} (u : Option Block) (h : m p = none) :
    upd (upd m p u) p none = m := by
  rw [upd_upd]; funext x; simp only [upd]
  by_cases h1 : x = p
  · simp [h1, h]
  · simp [h1]

theorem Rep.remove {m : Heap} {w : World} (h : Rep m w) {i : Addr} {b : Big}
    (hb : m i = some (.big b)) (v : Option Block) :
    Rep (upd (upd (upd m b.array v) b.array none) i none) (w.set i none) := by
  rw [upd_upd]
  have hi0 : i ≠ 0 := by rintro rfl; rw [h.nonnull] at hb; simp at hb
  have other : ∀ j c, m j = some (.big c) → j ≠ i → c.array ≠ b.array ∧ c.array ≠ i ∧ j ≠ b.array := by
    intro j c hc hj
    obtain ⟨⟨s', ws'⟩, hw⟩ := Option.isSome_iff_exists.1 (h.big j c hc)
    obtain ⟨a', p', h1, h2, _⟩ := h.live j s' ws' hw
    obtain ⟨⟨s2, ws2⟩, hw2⟩ := Option.isSome_iff_exists.1 (h.big i b hb)
    obtain ⟨a2, p2, h3, h4, _⟩ := h.live i s2 ws2 hw2
    rw [hc] at h1; simp only [Option.some.injEq, Block.big.injEq] at h1
    rw [hb] at h3; simp only [Option.some.injEq, Block.big.injEq] at h3
    refine ⟨fun e => hj (h.inj j i c b hc hb e), ?_, ?_⟩
    · subst h1; rintro rfl; rw [hb] at h2; simp at h2
    · subst h3; rintro rfl; rw [hc] at h4; simp at h4
  constructor
  · intro j s ws hw
    simp only [World.set] at hw
    by_cases hj : j = i
    · simp [hj] at hw
    · simp only [hj, if_false] at hw
      obtain ⟨a', p', h1, h2, h3⟩ := h.live j s ws hw
      obtain ⟨e1, e2, e3⟩ := other j _ h1 hj
      exact ⟨a', p', by simp [upd, hj, e3, h1], by simp only [upd]; simp_all, h3⟩
  · intro j c hc
    simp only [upd] at hc
    split at hc
    · simp at hc
    · split at hc
      · simp at hc
      · rename_i e1 e2; simp only [World.set, e1, if_false]; exact h.big j c hc
  · intro q vs hq
    simp only [upd] at hq
    split at hq
    · simp at hq
    · split at hq
      · simp at hq
      · rename_i e1 e2
        obtain ⟨j, c, h1, h2⟩ := h.arr q vs hq
        have hj : j ≠ i := by
          rintro rfl; rw [hb] at h1; simp only [Option.some.injEq, Block.big.injEq] at h1
          subst h1; exact e2 h2.symm
        obtain ⟨_, _, e3⟩ := other j c h1 hj
        exact ⟨j, c, by simp [upd, hj, e3, h1], h2⟩
  · intro j k c d hc hd hcd
    simp only [upd] at hc hd
    split at hc
    · simp at hc
    · split at hc
      · simp at hc
      · split at hd
        · simp at hd
        · split at hd
          · simp at hd
          · exact h.inj j k c d hc hd hcd
  · simp only [upd]
    split
    · rfl
    · split
      · rfl
      · exact h.nonnull

theorem wordCount (size : Word) : IsWordCount size.toNat (intSize size).toNat := by
  rw [intSize_toNat]; constructor
  · omega
  · intro w hw; omega

/-- One legal call does what the specification says and keeps the representation. -/
theorem step_refines {m : Heap} {w : World} (h : Rep m w) {op : Op} (hl : Legal m w op) :
    ∃ m' st r w', step m op = some (m', st, r) ∧ Spec w op w' st r ∧ Rep m' w' := by
  cases op with
  | createZero a size a1 a2 rec junk =>
    obtain ⟨l1, l2, l3⟩ := hl
    cases a1 with
    | error st => exact ⟨m, st, none, w, rfl, .zeroFail1, h⟩
    | ok tmp =>
      cases a2 with
      | error st =>
        refine ⟨m, st, none, w, ?_, .zeroFail2, h⟩
        have : st ≠ SUCCESS := l2
        simp [step, createZero, this, upd_none _ _ l1.2]
      | ok p =>
        have hsz : (intSize size).toNat < 2 ^ 60 := by rw [intSize_toNat]; have := size.isLt; omega
        have hadd := h.add (tmp := tmp) (p := p) (a := a) (s := false)
          (ws := List.replicate (intSize size).toNat 0) l1.2 l2.2 l1.1 l2.1 l3 (by simpa using hsz)
        refine ⟨_, SUCCESS, some tmp, _, ?_, .zero (wordCount size), hadd⟩
        · have e : (intSize size * 8).toNat / 8 = (intSize size).toNat := (mul8 hsz rfl).1
          simp only [step, createZero, newArr, e, zeroArr, upd_upd]
          rw [show upd (upd m tmp (some (Block.big ⟨0, false, 0, 0⟩))) p
            (some (Block.arr (List.map junk (List.range (intSize size).toNat)))) p =
              some (Block.arr (List.map junk (List.range (intSize size).toNat))) by simp [upd]]
          simp only [List.length_map, List.length_range, Nat.le_refl, if_true]
          simp only [Option.some.injEq, Prod.mk.injEq, and_true]
          rw [List.drop_eq_nil_of_le (by simp), List.append_nil, upd_comm _ _ _ l3, upd_upd]
          simp
  | clone a j a1 a2 rec junk =>
    obtain ⟨l0, l1, l2, l3⟩ := hl
    obtain ⟨⟨s, ws⟩, hv⟩ := Option.isSome_iff_exists.1 l0
    obtain ⟨a', q, h1, h2, h3⟩ := h.live j s ws hv
    cases a1 with
    | error st => exact ⟨m, st, none, w, rfl, .cloneFail1, h⟩
    | ok tmp =>
      cases a2 with
      | error st =>
        refine ⟨m, st, none, w, ?_, .cloneFail2, h⟩
        have : st ≠ SUCCESS := l2
        simp [step, clone, h1, this, upd_none _ _ l1.2]
      | ok p =>
        have hadd := h.add (tmp := tmp) (p := p) (a := a) (s := s) (ws := ws) l1.2 l2.2 l1.1 l2.1 l3 h3
        refine ⟨_, SUCCESS, some tmp, _, ?_, .clone hv, hadd⟩
        · have e : (8 * BitVec.ofNat 64 ws.length).toNat / 8 = ws.length :=
            (mul8 h3 (by rw [BitVec.toNat_ofNat, Nat.mod_eq_of_lt (by omega)])).2
          have e1 : q ≠ p := by rintro rfl; rw [l2.2] at h2; simp at h2
          have e2 : q ≠ tmp := by rintro rfl; rw [l1.2] at h2; simp at h2
          simp only [step, clone, h1, newArr, e, copyArr]
          rw [show ∀ v u, upd (upd m tmp v) p (some u) p = some u by intros; simp [upd]]
          rw [show ∀ v u, upd (upd m tmp v) p u q = m q by intros; simp [upd, e1, e2]]
          simp only [h2, List.length_map, List.length_range, Nat.le_refl, and_self, if_true]
          simp only [Option.some.injEq, Prod.mk.injEq, and_true]
          rw [List.drop_eq_nil_of_le (by simp), List.append_nil, List.take_of_length_le (Nat.le_refl _)]
          rw [upd_upd, upd_comm _ _ _ l3, upd_upd]
  | release i rec1 rec2 =>
    have l0 : (w i).isSome := hl
    obtain ⟨⟨s, ws⟩, hv⟩ := Option.isSome_iff_exists.1 l0
    obtain ⟨a', q, h1, h2, h3⟩ := h.live i s ws hv
    have e : (BitVec.ofNat 64 ws.length * 8).toNat / 8 = ws.length :=
      (mul8 h3 (by rw [BitVec.toNat_ofNat, Nat.mod_eq_of_lt (by omega)])).1
    refine ⟨_, _, none, _, ?_, .release l0,
      h.remove h1 (some (.arr (List.replicate ws.length 0 ++ ws.drop ws.length)))⟩
    simp only [step, release, h1, zeroArr, h2, e, Nat.le_refl, if_true, Option.map_some]

/-! ### Properties -/

/-- C42: every history of create, clone and release calls (with any allocation failures) behaves
exactly like the value-level specification: a created integer has the least number of words and all
are zero, a clone has the value of its original, and creating, cloning or releasing one integer
never changes another one. No call reads or writes out of bounds. -/
theorem bigint_refines_values (ops : List Op) (hl : LegalRun (fun _ => none) (fun _ => none) ops) :
    ∃ m' rs w', run (fun _ => none) ops = some (m', rs) ∧ SpecRun (fun _ => none) ops w' rs ∧
      Rep m' w' := by
  have key : ∀ (ops : List Op) (m : Heap) (w : World), Rep m w → LegalRun m w ops →
      ∃ m' rs w', run m ops = some (m', rs) ∧ SpecRun w ops w' rs ∧ Rep m' w' := by
    intro ops
    induction ops with
    | nil => intro m w h _; exact ⟨m, [], w, rfl, .nil, h⟩
    | cons op ops ih =>
      intro m w h hl
      obtain ⟨m', st, r, w', h1, h2, h3⟩ := step_refines h hl.1
      obtain ⟨m'', rs, w'', h4, h5, h6⟩ := ih m' w' h3 (hl.2 m' st r w' h1 h2)
      exact ⟨m'', (st, r) :: rs, w'', by simp [run, h1, h4], .cons h2 h5, h6⟩
  exact key ops _ _ ⟨by simp, by simp, by simp, by simp, rfl⟩ hl

/-- C42: the value an integer has in memory is the one the specification gives it, and nothing is
left on the heap once every integer has been released. -/
theorem bigint_memory_meaning {m : Heap} {w : World} (h : Rep m w) :
    (∀ i s ws, w i = some (s, ws) →
      ∃ b, m i = some (.big b) ∧ b.sign = s ∧ b.length.toNat = ws.length ∧
        m b.array = some (.arr ws)) ∧
    ((∀ i, w i = none) → ∀ p, m p = none) := by
  constructor
  · intro i s ws hw
    obtain ⟨a, p, h1, h2, h3⟩ := h.live i s ws hw
    exact ⟨_, h1, rfl, by rw [BitVec.toNat_ofNat, Nat.mod_eq_of_lt (by omega)], h2⟩
  · intro hw p
    rcases hm : m p with _ | ⟨b⟩ | ⟨ws⟩
    · rfl
    · have := h.big p b hm; simp [hw] at this
    · obtain ⟨i, b, h1, _⟩ := h.arr p ws hm
      have := h.big i b h1; simp [hw] at this

-- 65 bits need two words; a clone survives the release of its original
example : (run (fun _ => none)
      [.createZero 9 65 (.ok 16) (.ok 32) SUCCESS (fun _ => 7),
       .clone 9 16 (.ok 48) (.ok 64) SUCCESS (fun _ => 8),
       .release 16 SUCCESS SUCCESS]).map (fun (m, rs) => (m 48, m 64, m 16, m 32, rs)) =
    some (some (.big ⟨9, false, 2, 64⟩), some (.arr [0, 0]), none, none,
      [(SUCCESS, some 16), (SUCCESS, some 48), (SUCCESS, none)]) := by rfl

-- the histories of the theorem: legality of a creation, a clone whose second allocation fails
example : LegalRun (fun _ => none) (fun _ => none)
    [.createZero 9 65 (.ok 16) (.ok 32) SUCCESS (fun _ => 7),
     .clone 9 16 (.ok 48) (.error ERROR_GENERAL_OUT_OF_MEMORY) SUCCESS (fun _ => 8)] := by
  refine ⟨⟨⟨by decide, rfl⟩, ⟨by decide, rfl⟩, by show (16 : Nat) ≠ 32; decide⟩, ?_⟩
  intro m' st r w' h1 h2
  cases h2 with
  | zero hn =>
    refine ⟨⟨by simp [World.set], ⟨by decide, ?_⟩, by show ERROR_GENERAL_OUT_OF_MEMORY ≠ SUCCESS; decide, trivial⟩,
      fun _ _ _ _ _ _ => trivial⟩
    have : some (m', SUCCESS, some 16) = step (fun _ => none)
      (.createZero 9 65 (.ok 16) (.ok 32) SUCCESS (fun _ => 7)) := h1.symm
    have h3 := congrArg (fun o => o.map fun (m, _, _) => m 48) this
    simp only [Option.map_some] at h3
    have h4 : (step (fun _ => none) (.createZero 9 65 (.ok 16) (.ok 32) SUCCESS (fun _ => 7))).map
      (fun (m, _, _) => m 48) = some none := by decide
    rw [h4] at h3; simpa using h3

end Rcpr.Bigint
