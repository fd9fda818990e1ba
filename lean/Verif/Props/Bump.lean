import Verif.Bump

/-! Property C12: the bump allocator. -/
namespace Rcpr.Bump

open Rcpr

/-! ### Specification -/

/-- two byte ranges, given by first address and size, have no byte in common -/
def Disjoint (a b : Word × Word) : Prop :=
  ∀ x : Nat, ¬ ((a.1.toNat ≤ x ∧ x < a.1.toNat + a.2.toNat) ∧
    (b.1.toNat ≤ x ∧ x < b.1.toNat + b.2.toNat))

/-- the block lies in the pool `[region, region + size)` after the first `hdr` bytes, at a multiple
of 16 -/
def Placed (hdr region size : Word) (a : Word × Word) : Prop :=
  region.toNat + hdr.toNat ≤ a.1.toNat ∧
  a.1.toNat + a.2.toNat ≤ region.toNat + size.toNat ∧ a.1.toNat % 16 = 0

/-- what C12 asks of the blocks handed out since creation or the last reset -/
def Good (hdr region size : Word) (l : Blocks) : Prop :=
  (∀ a ∈ l, Placed hdr region size a) ∧ l.Pairwise Disjoint

/-- the requests whose size does not make `offset + size` wrap around -/
def Fits (size : Word) : Op → Prop
  | .allocate n => n.toNat + size.toNat + 16 ≤ 2 ^ 64
  | _ => True

/-! ### Proofs -/

/-- Invariant of the allocator and of the blocks it has handed out. -/
structure Inv (hdr region size : Word) (x : St × Blocks) : Prop where
  hhdr : x.1.hdr = hdr
  hreg : x.1.region = region
  hmax : x.1.max = size
  lo : hdr.toNat ≤ x.1.offset.toNat
  hi : x.1.offset.toNat ≤ size.toNat
  good : Good hdr region size x.2
  below : ∀ a ∈ x.2, a.1.toNat + a.2.toNat ≤ region.toNat + x.1.offset.toNat

/-- the allocator works with the first 16-byte aligned address from the current offset on -/
theorem allocate_eq (b : St) (n : Word) (hob : b.region.toNat + b.max.toNat < 2 ^ 64)
    (hi : b.offset.toNat ≤ b.max.toNat) :
    ∃ mem : Word,
      (b.max.toNat + 16 ≤ 2 ^ 64 →
        b.region.toNat + mem.toNat = (b.region.toNat + b.offset.toNat + 15) / 16 * 16) ∧
      allocate b n = if mem + n ≥ b.max then (b, ERROR_GENERAL_OUT_OF_MEMORY, none)
        else ({ b with offset := mem + n }, SUCCESS, some (b.region + mem)) := by
  have hraw : (b.region + b.offset).toNat = b.region.toNat + b.offset.toNat := by
    rw [BitVec.toNat_add, Nat.mod_eq_of_lt (by omega)]
  have hm : ((b.region + b.offset) % 16).toNat = (b.region.toNat + b.offset.toNat) % 16 := by
    rw [BitVec.toNat_umod, hraw]; rfl
  have h16 : (16 : Word).toNat = 16 := rfl
  have hsub : (16 - (b.region + b.offset) % 16).toNat =
      16 - (b.region.toNat + b.offset.toNat) % 16 := by
    rw [BitVec.toNat_sub_of_le (by rw [BitVec.le_def, hm, h16]; omega), hm, h16]
  refine ⟨_, ?_, rfl⟩
  intro hmax
  split
  · rename_i hne
    have hne' : (b.region.toNat + b.offset.toNat) % 16 ≠ 0 := by
      intro h0; apply hne; apply BitVec.eq_of_toNat_eq; rw [hm, h0]; rfl
    rw [BitVec.toNat_add, hsub, Nat.mod_eq_of_lt (by omega)]
    omega
  · rename_i heq
    have heq' : (b.region.toNat + b.offset.toNat) % 16 = 0 := by
      rw [← hm]; simp only [ne_eq, Decidable.not_not] at heq; rw [heq]; rfl
    omega

theorem allocate_ok {b b' : St} {st : Status} {n p : Word} (h : allocate b n = (b', st, some p))
    (hob : b.region.toNat + b.max.toNat < 2 ^ 64) (hi : b.offset.toNat ≤ b.max.toNat)
    (hn : n.toNat + b.max.toNat + 16 ≤ 2 ^ 64) :
    b.region.toNat + b.offset.toNat ≤ p.toNat ∧ p.toNat % 16 = 0 ∧
    b.region.toNat + b'.offset.toNat = p.toNat + n.toNat ∧ b'.offset.toNat < b.max.toNat ∧
    b'.hdr = b.hdr ∧ b'.region = b.region ∧ b'.max = b.max ∧ st = SUCCESS := by
  obtain ⟨mem, h1, h2⟩ := allocate_eq b n hob hi
  replace h1 := h1 (by omega)
  rw [h2] at h
  have hs : (mem + n).toNat = mem.toNat + n.toNat := by
    rw [BitVec.toNat_add, Nat.mod_eq_of_lt (by omega)]
  split at h
  · simp at h
  · rename_i hlt
    rw [ge_iff_le, BitVec.le_def, hs] at hlt
    simp only [Prod.mk.injEq, Option.some.injEq] at h
    obtain ⟨rfl, rfl, rfl⟩ := h
    have hp : (b.region + mem).toNat = b.region.toNat + mem.toNat := by
      rw [BitVec.toNat_add, Nat.mod_eq_of_lt (by omega)]
    refine ⟨by omega, by omega, ?_, ?_, rfl, rfl, rfl, rfl⟩
    · show b.region.toNat + (mem + n).toNat = _; omega
    · show (mem + n).toNat < _; omega

theorem allocate_fail {b b' : St} {st : Status} {n : Word} (h : allocate b n = (b', st, none)) :
    b' = b ∧ st = ERROR_GENERAL_OUT_OF_MEMORY := by
  unfold allocate at h
  dsimp only at h
  generalize (if (b.region + b.offset) % 16 ≠ 0 then _ else _ : Word) = mem at h
  split at h
  · simp only [Prod.mk.injEq] at h; exact ⟨h.1.symm, h.2.1.symm⟩
  · simp at h

theorem inv_step {hdr region size : Word} (hob : region.toNat + size.toNat < 2 ^ 64)
    {x : St × Blocks} (hx : Inv hdr region size x) {op : Op} (hop : Fits size op)
    (hh : hdr.toNat ≤ size.toNat) : Inv hdr region size (step x op) := by
  obtain ⟨b, l⟩ := x
  obtain ⟨h1, h2, h3, h4, h5, ⟨h6, h7⟩, h8⟩ := hx
  simp only at h1 h2 h3 h4 h5 h6 h7 h8
  cases op with
  | allocate n =>
    simp only [step]
    rcases he : allocate b n with ⟨b', st, _ | p⟩
    · obtain ⟨rfl, _⟩ := allocate_fail he
      exact ⟨h1, h2, h3, h4, h5, ⟨h6, h7⟩, h8⟩
    · simp only [Fits] at hop
      have := allocate_ok he (by rw [h2, h3]; exact hob) (by rw [h3]; exact h5) (by rw [h3]; exact hop)
      rw [h1, h2, h3] at this
      obtain ⟨a1, a2, a3, a4, a5, a6, a7, _⟩ := this
      refine ⟨a5, a6, a7, ?_, ?_, ⟨?_, ?_⟩, ?_⟩
      · show hdr.toNat ≤ b'.offset.toNat; omega
      · show b'.offset.toNat ≤ _; omega
      · intro a ha
        rcases List.mem_cons.1 ha with rfl | ha
        · exact ⟨by show _ ≤ p.toNat; omega, by show p.toNat + n.toNat ≤ _; omega, a2⟩
        · exact h6 a ha
      · refine List.Pairwise.cons ?_ h7
        intro a ha y ⟨hy1, hy2⟩
        have := h8 a ha
        simp only at hy1
        omega
      · intro a ha
        show _ ≤ region.toNat + b'.offset.toNat
        rcases List.mem_cons.1 ha with rfl | ha
        · show p.toNat + n.toNat ≤ _; omega
        · have := h8 a ha; omega
  | reclaim p => exact ⟨h1, h2, h3, h4, h5, ⟨h6, h7⟩, h8⟩
  | reallocate p n => exact ⟨h1, h2, h3, h4, h5, ⟨h6, h7⟩, h8⟩
  | control key =>
    by_cases hk : key = resetKey
    · subst hk
      simp only [step, control, if_true]
      exact ⟨h1, h2, h3, by show _ ≤ b.hdr.toNat; rw [h1]; exact Nat.le_refl _,
        by show b.hdr.toNat ≤ _; rw [h1]; exact hh, ⟨by simp, by simp⟩, by simp⟩
    · have hne : ERROR_GENERAL_CONTROL_KEY_INVALID ≠ SUCCESS := by decide
      simp only [step, control, hk, if_false, hne]
      exact ⟨h1, h2, h3, h4, h5, ⟨h6, h7⟩, h8⟩

/-! ### Properties -/

/-- C12 (part): as long as no request is so large that the offset computation wraps around, all
blocks handed out since creation or the last reset lie in the pool after the header, are 16-byte
aligned and pairwise disjoint, for every pool and every history of calls. Missing: requests of
nearly 2^64 bytes, for which the claim is false (`bump_blocks_violated`). -/
theorem bump_blocks_partial (hdr region size : Word) (b : St)
    (hc : create hdr region size = (SUCCESS, some b))
    (hob : region.toNat + size.toNat < 2 ^ 64) (ops : List Op) (hops : ∀ op ∈ ops, Fits size op) :
    Good hdr region size (run (b, []) ops).2 := by
  have hle : ¬ size < hdr := by
    intro h; simp [create, h] at hc
  have hh : hdr.toNat ≤ size.toNat := by rw [BitVec.lt_def] at hle; omega
  have hb : b = ⟨hdr, region, hdr, size⟩ := by
    simp [create, hle] at hc; exact hc.symm
  have h0 : Inv hdr region size (b, []) := by
    subst hb; exact ⟨rfl, rfl, rfl, Nat.le_refl _, hh, ⟨by simp, by simp⟩, by simp⟩
  have : ∀ (ops : List Op) (x : St × Blocks), (∀ op ∈ ops, Fits size op) → Inv hdr region size x →
      Inv hdr region size (run x ops) := by
    intro ops
    induction ops with
    | nil => intro x _ hx; exact hx
    | cons op ops ih =>
      intro x ho hx
      exact ih _ (fun o h => ho o (List.mem_cons_of_mem _ h))
        (inv_step hob hx (ho op List.mem_cons_self) hh)
  exact (this ops _ hops h0).good

/-- C12 fails for requests near 2^64: on a pool of 4096 bytes at address 65536 a request of
2^64 − 32 bytes succeeds, and the next request gets the allocator's own header. -/
theorem bump_blocks_violated :
    ∃ b, create 32 65536 4096 = (SUCCESS, some b) ∧
      (run (b, []) [.allocate (-32), .allocate 16]).2 = [(65536, 16), (65568, -32)] ∧
      ¬ Good 32 65536 4096 (run (b, []) [.allocate (-32), .allocate 16]).2 := by
  refine ⟨⟨32, 65536, 32, 4096⟩, by decide, by decide, ?_⟩
  rintro ⟨h, _⟩
  have := (h (65536, 16) (by decide)).1
  revert this; decide

/-- C12: a request is refused, with out-of-memory and no change, exactly when the aligned block
would not leave at least one byte of the pool free; otherwise it succeeds. -/
theorem bump_refuses_iff (b : St) (n : Word) (hob : b.region.toNat + b.max.toNat < 2 ^ 64)
    (hi : b.offset.toNat ≤ b.max.toNat) (hn : n.toNat + b.max.toNat + 16 ≤ 2 ^ 64) :
    let start := (b.region.toNat + b.offset.toNat + 15) / 16 * 16
    (start + n.toNat ≥ b.region.toNat + b.max.toNat →
      allocate b n = (b, ERROR_GENERAL_OUT_OF_MEMORY, none)) ∧
    (start + n.toNat < b.region.toNat + b.max.toNat →
      ∃ b' p, allocate b n = (b', SUCCESS, some p) ∧ p.toNat = start) := by
  intro start
  obtain ⟨mem, h1, h2⟩ := allocate_eq b n hob hi
  replace h1 : b.region.toNat + mem.toNat = start := h1 (by omega)
  have hst : start ≤ b.region.toNat + b.offset.toNat + 15 := by
    show (b.region.toNat + b.offset.toNat + 15) / 16 * 16 ≤ _; omega
  have hs : (mem + n).toNat = mem.toNat + n.toNat := by
    rw [BitVec.toNat_add, Nat.mod_eq_of_lt (by omega)]
  refine ⟨fun h => ?_, fun h => ?_⟩
  · rw [h2, if_pos (by rw [ge_iff_le, BitVec.le_def, hs]; omega)]
  · rw [h2, if_neg (by rw [ge_iff_le, BitVec.le_def, hs]; omega)]
    exact ⟨_, _, rfl, by rw [BitVec.toNat_add, Nat.mod_eq_of_lt (by omega)]; exact h1⟩

/-- Whatever has been allocated: the control key 0x0020 (include/rcpr/allocator.h:44) succeeds and puts the
allocator back into the state it was created in, so that the whole pool can be handed out again; every other
key is refused and changes nothing. -/
theorem bump_reset (hdr region size : Word) (b : St) (hc : create hdr region size = (SUCCESS, some b))
    (ops : List Op) (key : Int) :
    (key = 0x0020 → control (run (b, []) ops).1 key = (b, SUCCESS)) ∧
    (key ≠ 0x0020 → control (run (b, []) ops).1 key = ((run (b, []) ops).1, ERROR_GENERAL_CONTROL_KEY_INVALID)) := by
  have hle : ¬ size < hdr := by
    intro h; simp [create, h] at hc
  have hb : b = ⟨hdr, region, hdr, size⟩ := by
    simp [create, hle] at hc; exact hc.symm
  have same : ∀ (ops : List Op) (x : St × Blocks), (run x ops).1.hdr = x.1.hdr ∧
      (run x ops).1.region = x.1.region ∧ (run x ops).1.max = x.1.max := by
    intro ops
    induction ops with
    | nil => intro x; exact ⟨rfl, rfl, rfl⟩
    | cons op ops ih =>
      intro x
      have h1 : (step x op).1.hdr = x.1.hdr ∧ (step x op).1.region = x.1.region ∧ (step x op).1.max = x.1.max := by
        obtain ⟨c, l⟩ := x
        cases op <;> simp only [step, allocate, reclaim, reallocate, control]
        all_goals (repeat' split) <;> (try simp_all) <;> grind
      have := ih (step x op)
      rw [show run x (op :: ops) = run (step x op) ops from rfl]
      exact ⟨this.1.trans h1.1, this.2.1.trans h1.2.1, this.2.2.trans h1.2.2⟩
  obtain ⟨h1, h2, h3⟩ := same ops (b, [])
  refine ⟨?_, ?_⟩
  · rintro rfl
    simp only [control]
    subst hb
    rw [if_pos (by decide)]
    generalize (run _ ops).1 = c at h1 h2 h3 ⊢
    cases c
    simp_all
  · intro hk
    have hk : key ≠ resetKey := hk
    simp only [control]
    rw [if_neg hk]

-- a pool of 256 bytes at an unaligned address: two blocks, a reset, a block
example : ∀ op ∈ [Op.allocate 10, .allocate 20, .control resetKey, .allocate 5], Fits 256 op := by
  intro op h
  simp only [List.mem_cons, List.not_mem_nil, or_false] at h
  rcases h with rfl | rfl | rfl | rfl <;> simp [Fits]
example : (run (⟨32, 1001, 32, 256⟩, []) [Op.allocate 10, .allocate 20]).2 =
    [(1056, 20), (1040, 10)] := by decide

end Rcpr.Bump
