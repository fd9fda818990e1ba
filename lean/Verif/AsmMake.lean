import Verif.AsmSwitch

/-! What `fiber_make` and the trampoline do. -/
namespace Rcpr.Asm

/-- The next lower multiple of 16 (the `andq $-16` of fiber_make.s:48-89). -/
def align (x : Word) : Word := x &&& BitVec.ofInt 64 (-16)

theorem align_toNat (x : Word) : (align x).toNat = 16 * (x.toNat / 16) := by
  have h : align x = (x >>> 4) <<< 4 := by
    unfold align
    apply BitVec.eq_of_getLsbD_eq
    intro i hi
    rw [BitVec.getLsbD_and, BitVec.getLsbD_shiftLeft, BitVec.getLsbD_ushiftRight]
    have h2 : ∀ i, i < 64 → (BitVec.ofInt 64 (-16)).getLsbD i = decide (¬ i < 4) := by decide
    rw [h2 i hi]
    by_cases h4 : i < 4
    · simp [h4]
    · simp [h4, hi, show 4 + (i - 4) = i by omega]
  rw [h, BitVec.toNat_shiftLeft, BitVec.toNat_ushiftRight, Nat.shiftRight_eq_div_pow, Nat.shiftLeft_eq]
  have := x.isLt
  rw [Nat.mod_eq_of_lt (by omega)]
  omega

/-- Where `fiber_make` puts the frame: below the stack pointer that it finds in the fiber (fiber_make.s:48-89). -/
def makeFrame (s : Cpu) : Word :=
  (word s.mem (s.reg .rdi + BitVec.ofInt 64 8) &&& BitVec.ofInt 64 (-16)) + BitVec.ofInt 64 (-0x40)

theorem makeFrame_eq (s : Cpu) : makeFrame s = align (word s.mem (s.reg .rdi + 8)) - 0x40 := by
  rw [makeFrame, ← align, show BitVec.ofInt 64 (-0x40) = -0x40#64 by decide]
  rw [show BitVec.ofInt 64 8 = 8#64 by decide]
  bv_omega

/-- Memory after `fiber_make` (fiber_make.s:48-89). -/
def makeMem (e : Env) (s : Cpu) : Mem :=
  let p := makeFrame s
  st (st (st (st (st (st (st (st s.mem
    (p + BitVec.ofInt 64 0x28) 8 (s.reg .rdx).toNat)
    (p + BitVec.ofInt 64 0x20) 8 (s.reg .rdi).toNat)
    (p + BitVec.ofInt 64 0x18) 8 (s.reg .rsi).toNat)
    (p + BitVec.ofInt 64 0) 4 s.mxcsr.toNat)
    (p + BitVec.ofInt 64 4) 2 s.fcw.toNat)
    (p + BitVec.ofInt 64 0x38) 8 (e.addr .trampoline).toNat)
    (p + BitVec.ofInt 64 0x30) 8 (e.addr .finish).toNat)
    (s.reg .rdi + BitVec.ofInt 64 8) 8 p.toNat

theorem makeMem_eq (e : Env) (s : Cpu) : makeMem e s =
  st (st (st (st (st (st (st (st s.mem
    (makeFrame s + 0x28) 8 (s.reg .rdx).toNat)
    (makeFrame s + 0x20) 8 (s.reg .rdi).toNat)
    (makeFrame s + 0x18) 8 (s.reg .rsi).toNat)
    (makeFrame s + 0) 4 s.mxcsr.toNat)
    (makeFrame s + 4) 2 s.fcw.toNat)
    (makeFrame s + 0x38) 8 (e.addr .trampoline).toNat)
    (makeFrame s + 0x30) 8 (e.addr .finish).toNat)
    (s.reg .rdi + 8) 8 (makeFrame s).toNat := rfl

theorem run_make (e : Env) (s : Cpu) :
    run e fiberMake s =
      { rip := word (makeMem e s) (s.reg .rsp)
        reg := fun
          | .rsp => s.reg .rsp + 8
          | .rax => makeFrame s
          | .rcx => e.addr .finish
          | r => s.reg r
        mxcsr := s.mxcsr
        fcw := s.fcw
        mem := makeMem e s } := by
  have hreg : (run e fiberMake s).reg = fun
          | .rsp => s.reg .rsp + 8
          | .rax => makeFrame s
          | .rcx => e.addr .finish
          | r => s.reg r := by
    funext r
    cases r <;> rfl
  have hmem : (run e fiberMake s).mem = makeMem e s := rfl
  have hrip : (run e fiberMake s).rip = word (makeMem e s) (s.reg .rsp) := rfl
  have : ∀ c : Cpu, c = ⟨c.rip, c.reg, c.mxcsr, c.fcw, c.mem⟩ := fun _ => rfl
  have hm : (run e fiberMake s).mxcsr = s.mxcsr := by simp only [run, fiberMake, run1, Cpu.set]
  have hf : (run e fiberMake s).fcw = s.fcw := by simp only [run, fiberMake, run1, Cpu.set]
  rw [this (run e fiberMake s), hreg, hmem, hrip, hm, hf]

theorem makeMem_other {e : Env} {s : Cpu} {x : Word} (h1 : ¬ In x (makeFrame s) 0x40)
    (h2 : ¬ In x (s.reg .rdi + 8) 8) : makeMem e s x = s.mem x := by
  have l : ∀ (d : Word) (n : Nat), d.toNat + n ≤ 0x40 → ¬ In x (makeFrame s + d) n :=
    fun d n hd hx => h1 (hx.within hd (by decide))
  rw [makeMem_eq]
  rw [st_other h2, st_other (l _ _ (by decide)), st_other (l _ _ (by decide)), st_other (l _ _ (by decide)),
    st_other (l _ _ (by decide)), st_other (l _ _ (by decide)), st_other (l _ _ (by decide)),
    st_other (l _ _ (by decide))]

/-- The context in which a new fiber starts: in the trampoline (fiber_make.s:91-101). -/
def entryCtx (e : Env) (s : Cpu) : Ctx where
  rip := e.addr .trampoline
  frame := makeFrame s
  rbx := s.reg .rdx
  rbp := e.addr .finish
  r12 := word s.mem (makeFrame s + 0x8)
  r13 := word s.mem (makeFrame s + 0x10)
  r14 := s.reg .rsi
  r15 := s.reg .rdi
  mxcsr := s.mxcsr
  fcw := s.fcw

theorem make_saved (e : Env) {s : Cpu} (h : ∀ x, In x (makeFrame s) 0x40 → ¬ In x (s.reg .rdi + 8) 8) :
    Saved (makeMem e s) (s.reg .rdi) (entryCtx e s) := by
  have a : ∀ (k : Nat) (d : Word) (m : Mem) (v : Nat), d.toNat + k ≤ 0x40 →
      ld (st m (s.reg .rdi + 8) 8 v) (makeFrame s + d) k = ld m (makeFrame s + d) k := fun k d m v hk =>
    ld_st_ne (by omega) fun x hx => h x (hx.within hk (by decide))
  have q : ∀ (k n : Nat) (d d' : Word) (m : Mem) (v : Nat), d.toNat + k ≤ 0x40 → d'.toNat + n ≤ 0x40 →
      (d.toNat + k ≤ d'.toNat ∨ d'.toNat + n ≤ d.toNat) →
      ld (st m (makeFrame s + d') n v) (makeFrame s + d) k = ld m (makeFrame s + d) k :=
    fun k n d d' m v h1 h2 h3 => ld_st_ne (by omega) fun x hx hx' => hx.apart hx' (by omega) (by omega) h3
  have r8 : ∀ (m : Mem) (a v : Word), BitVec.ofNat 64 (ld (st m a 8 v.toNat) a 8) = v := word_st_same
  have r4 : ∀ (m : Mem) (a : Word) (v : BitVec 32), BitVec.ofNat 32 (ld (st m a 4 v.toNat) a 4) = v := by
    intro m a v
    have := v.isLt
    rw [ld_st_same _ _ _ (by omega), Nat.mod_eq_of_lt (by omega)]
    simp
  have r2 : ∀ (m : Mem) (a : Word) (v : BitVec 16), BitVec.ofNat 16 (ld (st m a 2 v.toNat) a 2) = v := by
    intro m a v
    have := v.isLt
    rw [ld_st_same _ _ _ (by omega), Nat.mod_eq_of_lt (by omega)]
    simp
  constructor <;> simp only [word, makeMem_eq, entryCtx]
  · exact word_st_same _ _ _
  · rw [a _ _ _ _ (by decide), q _ _ _ _ _ _ (by decide) (by decide) (by decide),
      q _ _ _ _ _ _ (by decide) (by decide) (by decide), q _ _ _ _ _ _ (by decide) (by decide) (by decide), r4]
  · rw [a _ _ _ _ (by decide), q _ _ _ _ _ _ (by decide) (by decide) (by decide),
      q _ _ _ _ _ _ (by decide) (by decide) (by decide), r2]
  · rw [a _ _ _ _ (by decide), q _ _ _ _ _ _ (by decide) (by decide) (by decide),
      q _ _ _ _ _ _ (by decide) (by decide) (by decide), q _ _ _ _ _ _ (by decide) (by decide) (by decide),
      q _ _ _ _ _ _ (by decide) (by decide) (by decide), q _ _ _ _ _ _ (by decide) (by decide) (by decide),
      q _ _ _ _ _ _ (by decide) (by decide) (by decide), q _ _ _ _ _ _ (by decide) (by decide) (by decide)]
  · rw [a _ _ _ _ (by decide), q _ _ _ _ _ _ (by decide) (by decide) (by decide),
      q _ _ _ _ _ _ (by decide) (by decide) (by decide), q _ _ _ _ _ _ (by decide) (by decide) (by decide),
      q _ _ _ _ _ _ (by decide) (by decide) (by decide), q _ _ _ _ _ _ (by decide) (by decide) (by decide),
      q _ _ _ _ _ _ (by decide) (by decide) (by decide), q _ _ _ _ _ _ (by decide) (by decide) (by decide)]
  · rw [a _ _ _ _ (by decide), q _ _ _ _ _ _ (by decide) (by decide) (by decide),
      q _ _ _ _ _ _ (by decide) (by decide) (by decide), q _ _ _ _ _ _ (by decide) (by decide) (by decide),
      q _ _ _ _ _ _ (by decide) (by decide) (by decide), r8]
  · rw [a _ _ _ _ (by decide), q _ _ _ _ _ _ (by decide) (by decide) (by decide),
      q _ _ _ _ _ _ (by decide) (by decide) (by decide), q _ _ _ _ _ _ (by decide) (by decide) (by decide),
      q _ _ _ _ _ _ (by decide) (by decide) (by decide), q _ _ _ _ _ _ (by decide) (by decide) (by decide), r8]
  · rw [a _ _ _ _ (by decide), q _ _ _ _ _ _ (by decide) (by decide) (by decide),
      q _ _ _ _ _ _ (by decide) (by decide) (by decide), q _ _ _ _ _ _ (by decide) (by decide) (by decide),
      q _ _ _ _ _ _ (by decide) (by decide) (by decide), q _ _ _ _ _ _ (by decide) (by decide) (by decide),
      q _ _ _ _ _ _ (by decide) (by decide) (by decide), r8]
  · rw [a _ _ _ _ (by decide), r8]
  · rw [a _ _ _ _ (by decide), q _ _ _ _ _ _ (by decide) (by decide) (by decide), r8]

end Rcpr.Asm
