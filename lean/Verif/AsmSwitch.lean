import Verif.AsmProof

/-! What `fiber_switch` and `fiber_make` leave in memory and in the registers. -/
namespace Rcpr.Asm

/-- A suspended context: where control continues and with which registers. The stack pointer is then
`frame + 0x40`. What fiber_switch.s:48-107 saves and loads. -/
structure Ctx where
  rip : Word
  frame : Word
  rbx : Word
  rbp : Word
  r12 : Word
  r13 : Word
  r14 : Word
  r15 : Word
  mxcsr : BitVec 32
  fcw : BitVec 16

/-- The fiber at `f` is suspended with the context `c`. The places are those of fiber_switch.s:48-107. -/
structure Saved (m : Mem) (f : Word) (c : Ctx) : Prop where
  sp : word m (f + 8) = c.frame
  mxcsr : BitVec.ofNat 32 (ld m (c.frame + 0) 4) = c.mxcsr
  fcw : BitVec.ofNat 16 (ld m (c.frame + 4) 2) = c.fcw
  r12 : word m (c.frame + 0x8) = c.r12
  r13 : word m (c.frame + 0x10) = c.r13
  r14 : word m (c.frame + 0x18) = c.r14
  r15 : word m (c.frame + 0x20) = c.r15
  rbx : word m (c.frame + 0x28) = c.rbx
  rbp : word m (c.frame + 0x30) = c.rbp
  rip : word m (c.frame + 0x38) = c.rip

theorem Saved.congr {m m' : Mem} {f : Word} {c : Ctx} (h : Saved m f c)
    (h1 : ∀ x, In x (f + 8) 8 → m' x = m x) (h2 : ∀ x, In x c.frame 0x40 → m' x = m x) :
    Saved m' f c := by
  have l : ∀ (d : Word) (n : Nat), d.toNat + n ≤ 0x40 →
      ld m' (c.frame + d) n = ld m (c.frame + d) n := fun d n hd =>
    ld_congr (by omega) fun x hx => h2 x (by simp only [In] at *; bv_omega)
  exact {
    sp := by rw [word_congr h1, h.sp]
    mxcsr := by rw [l 0 4 (by decide), h.mxcsr]
    fcw := by rw [l 4 2 (by decide), h.fcw]
    r12 := by rw [word, l _ 8 (by decide), ← h.r12, word]
    r13 := by rw [word, l _ 8 (by decide), ← h.r13, word]
    r14 := by rw [word, l _ 8 (by decide), ← h.r14, word]
    r15 := by rw [word, l _ 8 (by decide), ← h.r15, word]
    rbx := by rw [word, l _ 8 (by decide), ← h.rbx, word]
    rbp := by rw [word, l _ 8 (by decide), ← h.rbp, word]
    rip := by rw [word, l _ 8 (by decide), ← h.rip, word] }

/-- The context in which a call returns (of fiber_switch.s:48-107). -/
def callCtx (s : Cpu) : Ctx where
  rip := word s.mem (s.reg .rsp)
  frame := s.reg .rsp - 0x38
  rbx := s.reg .rbx
  rbp := s.reg .rbp
  r12 := s.reg .r12
  r13 := s.reg .r13
  r14 := s.reg .r14
  r15 := s.reg .r15
  mxcsr := s.mxcsr
  fcw := s.fcw

/-- Memory after `fiber_switch` has saved the context (fiber_switch.s:48-107). -/
def saveMem (s : Cpu) : Mem :=
  let sp := s.reg .rsp + BitVec.ofInt 64 (-0x38)
  st (st (st (st (st (st (st (st (st s.mem
    (sp + BitVec.ofInt 64 0) 4 s.mxcsr.toNat)
    (sp + BitVec.ofInt 64 4) 2 s.fcw.toNat)
    (sp + BitVec.ofInt 64 0x8) 8 (s.reg .r12).toNat)
    (sp + BitVec.ofInt 64 0x10) 8 (s.reg .r13).toNat)
    (sp + BitVec.ofInt 64 0x18) 8 (s.reg .r14).toNat)
    (sp + BitVec.ofInt 64 0x20) 8 (s.reg .r15).toNat)
    (sp + BitVec.ofInt 64 0x28) 8 (s.reg .rbx).toNat)
    (sp + BitVec.ofInt 64 0x30) 8 (s.reg .rbp).toNat)
    (s.reg .rdi + BitVec.ofInt 64 8) 8 sp.toNat

/-- Memory after `fiber_switch` (fiber_switch.s:48-107). -/
def switchMem (s : Cpu) : Mem :=
  st (st (st (saveMem s)
    (s.reg .rsi + BitVec.ofInt 64 64) 8 (s.reg .rdx).toNat)
    (s.reg .rsi + BitVec.ofInt 64 72) 8 (s.reg .rcx).toNat)
    (s.reg .rsi + BitVec.ofInt 64 80) 8 (s.reg .r8).toNat

/-- The stack pointer that `fiber_switch` loads (fiber_switch.s:48-107). -/
def nextSp (s : Cpu) : Word := word (saveMem s) (s.reg .rsi + BitVec.ofInt 64 8)

theorem run_switch (e : Env) (s : Cpu) :
    run e fiberSwitch s =
      { rip := word (saveMem s) (nextSp s + BitVec.ofInt 64 0x38)
        reg := fun
          | .rsp => nextSp s + BitVec.ofInt 64 0x40
          | .r9 => word (saveMem s) (nextSp s + BitVec.ofInt 64 0x38)
          | .r12 => word (saveMem s) (nextSp s + BitVec.ofInt 64 0x8)
          | .r13 => word (saveMem s) (nextSp s + BitVec.ofInt 64 0x10)
          | .r14 => word (saveMem s) (nextSp s + BitVec.ofInt 64 0x18)
          | .r15 => word (saveMem s) (nextSp s + BitVec.ofInt 64 0x20)
          | .rbx => word (saveMem s) (nextSp s + BitVec.ofInt 64 0x28)
          | .rbp => word (saveMem s) (nextSp s + BitVec.ofInt 64 0x30)
          | r => s.reg r
        mxcsr := BitVec.ofNat 32 (ld (saveMem s) (nextSp s + BitVec.ofInt 64 0) 4)
        fcw := BitVec.ofNat 16 (ld (saveMem s) (nextSp s + BitVec.ofInt 64 4) 2)
        mem := switchMem s } := by
  have hreg : (run e fiberSwitch s).reg = fun
          | .rsp => nextSp s + BitVec.ofInt 64 0x40
          | .r9 => word (saveMem s) (nextSp s + BitVec.ofInt 64 0x38)
          | .r12 => word (saveMem s) (nextSp s + BitVec.ofInt 64 0x8)
          | .r13 => word (saveMem s) (nextSp s + BitVec.ofInt 64 0x10)
          | .r14 => word (saveMem s) (nextSp s + BitVec.ofInt 64 0x18)
          | .r15 => word (saveMem s) (nextSp s + BitVec.ofInt 64 0x20)
          | .rbx => word (saveMem s) (nextSp s + BitVec.ofInt 64 0x28)
          | .rbp => word (saveMem s) (nextSp s + BitVec.ofInt 64 0x30)
          | r => s.reg r := by
    funext r
    cases r <;> rfl
  have : ∀ c : Cpu, c = ⟨c.rip, c.reg, c.mxcsr, c.fcw, c.mem⟩ := fun _ => rfl
  rw [this (run e fiberSwitch s), hreg]
  rfl

/-- Where the context was saved nothing else is written. -/
theorem saveMem_other {s : Cpu} {x : Word} (h1 : ¬ In x (s.reg .rsp - 0x38) 0x38)
    (h2 : ¬ In x (s.reg .rdi + 8) 8) : saveMem s x = s.mem x := by
  have e : BitVec.ofInt 64 (-0x38) = -0x38 := by decide
  have l : ∀ (d : Int) (n : Nat), 0 ≤ d → d.toNat + n ≤ 0x38 →
      ¬ In x (s.reg .rsp + BitVec.ofInt 64 (-0x38) + BitVec.ofInt 64 d) n := by
    intro d n h0 hd hx
    apply h1
    have : BitVec.ofInt 64 d = BitVec.ofNat 64 d.toNat := by
      conv => lhs; rw [← Int.toNat_of_nonneg h0]
      exact BitVec.ofInt_natCast ..
    rw [this, e] at hx
    simp only [In] at *
    have : (BitVec.ofNat 64 d.toNat).toNat = d.toNat := by simp only [BitVec.toNat_ofNat]; omega
    bv_omega
  have h3 : ¬ In x (s.reg .rdi + BitVec.ofInt 64 8) 8 := h2
  unfold saveMem
  rw [st_other h3, st_other (l _ _ (by decide) (by decide)), st_other (l _ _ (by decide) (by decide)),
    st_other (l _ _ (by decide) (by decide)), st_other (l _ _ (by decide) (by decide)),
    st_other (l _ _ (by decide) (by decide)), st_other (l _ _ (by decide) (by decide)),
    st_other (l _ _ (by decide) (by decide)), st_other (l _ _ (by decide) (by decide))]

theorem switchMem_other {s : Cpu} {x : Word} (h1 : ¬ In x (s.reg .rsp - 0x38) 0x38)
    (h2 : ¬ In x (s.reg .rdi + 8) 8) (h3 : ¬ In x (s.reg .rsi + 64) 24) : switchMem s x = s.mem x := by
  unfold switchMem
  rw [st_other, st_other, st_other, saveMem_other h1 h2]
  all_goals
    intro hx
    apply h3
    simp only [In] at *
    simp only [show BitVec.ofInt 64 64 = 64#64 from by decide, show BitVec.ofInt 64 72 = 72#64 from by decide,
      show BitVec.ofInt 64 80 = 80#64 from by decide] at hx
    bv_omega

/-- A frame written at `p` and a stack pointer written at `f` -/
theorem frame_saved (mem : Mem) (p f : Word) (mxcsr : BitVec 32) (fcw : BitVec 16)
    (r12 r13 r14 r15 rbx rbp : Word) (h : ∀ x, In x p 0x40 → ¬ In x (f + 8) 8) :
    Saved (st (st (st (st (st (st (st (st (st mem (p + 0) 4 mxcsr.toNat) (p + 4) 2 fcw.toNat)
        (p + 0x8) 8 r12.toNat) (p + 0x10) 8 r13.toNat)
        (p + 0x18) 8 r14.toNat) (p + 0x20) 8 r15.toNat)
        (p + 0x28) 8 rbx.toNat) (p + 0x30) 8 rbp.toNat)
        (f + 8) 8 p.toNat) f
      ⟨word mem (p + 0x38), p, rbx, rbp, r12, r13, r14, r15, mxcsr, fcw⟩ := by
  have a : ∀ (k : Nat) (d : Word) (m : Mem) (v : Nat), d.toNat + k ≤ 0x40 →
      ld (st m (f + 8) 8 v) (p + d) k = ld m (p + d) k := fun k d m v hk =>
    ld_st_ne (by omega) fun x hx => h x (hx.within hk (by decide))
  have q : ∀ (k n : Nat) (d d' : Word) (m : Mem) (v : Nat), d.toNat + k ≤ 0x40 → d'.toNat + n ≤ 0x40 →
      (d.toNat + k ≤ d'.toNat ∨ d'.toNat + n ≤ d.toNat) →
      ld (st m (p + d') n v) (p + d) k = ld m (p + d) k := fun k n d d' m v h1 h2 h3 =>
    ld_st_ne (by omega) fun x hx hx' => hx.apart hx' (by omega) (by omega) h3
  have r8 : ∀ (m : Mem) (a v : Word), BitVec.ofNat 64 (ld (st m a 8 v.toNat) a 8) = v := word_st_same
  have r4 : ∀ (m : Mem) (a : Word) (v : BitVec 32), BitVec.ofNat 32 (ld (st m a 4 v.toNat) a 4) = v := by
    intro m a v
    have := v.isLt
    rw [ld_st_same _ _ _ (by omega), Nat.mod_eq_of_lt (by omega)]
    simp
  have r2 : ∀ (m : Mem) (a : Word) (v : BitVec 16), BitVec.ofNat 16 (ld (st m a 2 v.toNat) a 2) = v := by
    intro m a v
    have := v.isLt
    rw [ld_st_same _ _ _ (by omega), Nat.mod_eq_of_lt (by omega)]
    simp
  constructor <;> simp only [word]
  · exact word_st_same _ _ _
  · rw [a _ _ _ _ (by decide), q _ _ _ _ _ _ (by decide) (by decide) (by decide),
      q _ _ _ _ _ _ (by decide) (by decide) (by decide), q _ _ _ _ _ _ (by decide) (by decide) (by decide),
      q _ _ _ _ _ _ (by decide) (by decide) (by decide), q _ _ _ _ _ _ (by decide) (by decide) (by decide),
      q _ _ _ _ _ _ (by decide) (by decide) (by decide), q _ _ _ _ _ _ (by decide) (by decide) (by decide), r4]
  · rw [a _ _ _ _ (by decide), q _ _ _ _ _ _ (by decide) (by decide) (by decide),
      q _ _ _ _ _ _ (by decide) (by decide) (by decide), q _ _ _ _ _ _ (by decide) (by decide) (by decide),
      q _ _ _ _ _ _ (by decide) (by decide) (by decide), q _ _ _ _ _ _ (by decide) (by decide) (by decide),
      q _ _ _ _ _ _ (by decide) (by decide) (by decide), r2]
  · rw [a _ _ _ _ (by decide), q _ _ _ _ _ _ (by decide) (by decide) (by decide),
      q _ _ _ _ _ _ (by decide) (by decide) (by decide), q _ _ _ _ _ _ (by decide) (by decide) (by decide),
      q _ _ _ _ _ _ (by decide) (by decide) (by decide), q _ _ _ _ _ _ (by decide) (by decide) (by decide), r8]
  · rw [a _ _ _ _ (by decide), q _ _ _ _ _ _ (by decide) (by decide) (by decide),
      q _ _ _ _ _ _ (by decide) (by decide) (by decide), q _ _ _ _ _ _ (by decide) (by decide) (by decide),
      q _ _ _ _ _ _ (by decide) (by decide) (by decide), r8]
  · rw [a _ _ _ _ (by decide), q _ _ _ _ _ _ (by decide) (by decide) (by decide),
      q _ _ _ _ _ _ (by decide) (by decide) (by decide), q _ _ _ _ _ _ (by decide) (by decide) (by decide), r8]
  · rw [a _ _ _ _ (by decide), q _ _ _ _ _ _ (by decide) (by decide) (by decide),
      q _ _ _ _ _ _ (by decide) (by decide) (by decide), r8]
  · rw [a _ _ _ _ (by decide), q _ _ _ _ _ _ (by decide) (by decide) (by decide), r8]
  · rw [a _ _ _ _ (by decide), r8]
  · rw [a _ _ _ _ (by decide), q _ _ _ _ _ _ (by decide) (by decide) (by decide),
      q _ _ _ _ _ _ (by decide) (by decide) (by decide), q _ _ _ _ _ _ (by decide) (by decide) (by decide),
      q _ _ _ _ _ _ (by decide) (by decide) (by decide), q _ _ _ _ _ _ (by decide) (by decide) (by decide),
      q _ _ _ _ _ _ (by decide) (by decide) (by decide), q _ _ _ _ _ _ (by decide) (by decide) (by decide),
      q _ _ _ _ _ _ (by decide) (by decide) (by decide)]

/-- The context just saved is the one in which the call returns. -/
theorem save_saved {s : Cpu} (h : ∀ x, In x (s.reg .rsp - 0x38) 0x40 → ¬ In x (s.reg .rdi + 8) 8) :
    Saved (saveMem s) (s.reg .rdi) (callCtx s) := by
  have := frame_saved s.mem (s.reg .rsp - 0x38) (s.reg .rdi) s.mxcsr s.fcw (s.reg .r12) (s.reg .r13)
    (s.reg .r14) (s.reg .r15) (s.reg .rbx) (s.reg .rbp) h
  have e : s.reg .rsp - 0x38 + 0x38 = s.reg .rsp := by bv_omega
  rw [e] at this
  have e2 : s.reg .rsp + BitVec.ofInt 64 (-0x38) = s.reg .rsp - 0x38 := by
    rw [show BitVec.ofInt 64 (-0x38) = -0x38#64 by decide]
    bv_omega
  have hm : saveMem s =
      st (st (st (st (st (st (st (st (st s.mem (s.reg .rsp - 0x38 + 0) 4 s.mxcsr.toNat)
        (s.reg .rsp - 0x38 + 4) 2 s.fcw.toNat)
        (s.reg .rsp - 0x38 + 0x8) 8 (s.reg .r12).toNat) (s.reg .rsp - 0x38 + 0x10) 8 (s.reg .r13).toNat)
        (s.reg .rsp - 0x38 + 0x18) 8 (s.reg .r14).toNat) (s.reg .rsp - 0x38 + 0x20) 8 (s.reg .r15).toNat)
        (s.reg .rsp - 0x38 + 0x28) 8 (s.reg .rbx).toNat) (s.reg .rsp - 0x38 + 0x30) 8 (s.reg .rbp).toNat)
        (s.reg .rdi + 8) 8 (s.reg .rsp - 0x38).toNat := by
    rw [← e2]
    rfl
  rw [hm]
  exact this

/-- The registers and the place where the context `c` continues. After the jump at fiber_switch.s:107. -/
structure At (s : Cpu) (c : Ctx) : Prop where
  rip : s.rip = c.rip
  rsp : s.reg .rsp = c.frame + 0x40
  rbx : s.reg .rbx = c.rbx
  rbp : s.reg .rbp = c.rbp
  r12 : s.reg .r12 = c.r12
  r13 : s.reg .r13 = c.r13
  r14 : s.reg .r14 = c.r14
  r15 : s.reg .r15 = c.r15
  mxcsr : s.mxcsr = c.mxcsr
  fcw : s.fcw = c.fcw

/-- `fiber_switch` continues the context that is saved in the next fiber. -/
theorem switch_at (e : Env) {s : Cpu} {c : Ctx} (h : Saved (saveMem s) (s.reg .rsi) c) :
    At (run e fiberSwitch s) c := by
  have hn : nextSp s = c.frame := h.sp
  rw [run_switch, hn]
  exact ⟨h.rip, rfl, h.rbx, h.rbp, h.r12, h.r13, h.r14, h.r15, h.mxcsr, h.fcw⟩

/-- The three fields in which the next fiber finds why it was resumed -/
theorem switch_fields (s : Cpu) :
    word (switchMem s) (s.reg .rsi + 64) = s.reg .rdx ∧ word (switchMem s) (s.reg .rsi + 72) = s.reg .rcx ∧
      word (switchMem s) (s.reg .rsi + 80) = s.reg .r8 := by
  have e : switchMem s = st (st (st (saveMem s) (s.reg .rsi + 64) 8 (s.reg .rdx).toNat)
    (s.reg .rsi + 72) 8 (s.reg .rcx).toNat) (s.reg .rsi + 80) 8 (s.reg .r8).toNat := rfl
  rw [e]
  refine ⟨?_, ?_, word_st_same _ _ _⟩
  · rw [word_st_ne fun x hx hx' => hx.apart hx' (by decide) (by decide) (by decide),
      word_st_ne fun x hx hx' => hx.apart hx' (by decide) (by decide) (by decide), word_st_same]
  · rw [word_st_ne fun x hx hx' => hx.apart hx' (by decide) (by decide) (by decide), word_st_same]

/-- `fiber_switch` does not fault when the memory it uses is mapped. -/
theorem switch_safe {e : Env} {s : Cpu} (h1 : ∀ x, In x (s.reg .rsp - 0x38) 0x40 → e.ok x = true)
    (h2 : ∀ x, In x (s.reg .rdi + 8) 8 → e.ok x = true) (h3 : ∀ x, In x (s.reg .rsi + 8) 8 → e.ok x = true)
    (h4 : ∀ x, In x (s.reg .rsi + 64) 24 → e.ok x = true)
    (h5 : ∀ x, In x (nextSp s) 0x40 → e.ok x = true) : safe e fiberSwitch s := by
  have e2 : s.reg .rsp + BitVec.ofInt 64 (-0x38) = s.reg .rsp - 0x38 := by
    rw [show BitVec.ofInt 64 (-0x38) = -0x38#64 by decide]
    bv_omega
  have a : ∀ (d : Word) (n : Nat), d.toNat + n ≤ 0x40 →
      mapped e.ok (s.reg .rsp + BitVec.ofInt 64 (-0x38) + d) n = true := fun d n hd =>
    mapped_of (by omega) fun x hx => h1 x (by rw [e2] at hx; exact hx.within hd (by decide))
  have b : mapped e.ok (s.reg .rdi + BitVec.ofInt 64 8) 8 = true := mapped_of (by omega) h2
  have c : mapped e.ok (s.reg .rsi + BitVec.ofInt 64 8) 8 = true := mapped_of (by omega) h3
  have d : ∀ (d : Word) (n : Nat), d.toNat + n ≤ 0x40 → mapped e.ok (nextSp s + d) n = true := fun d n hd =>
    mapped_of (by omega) fun x hx => h5 x (hx.within hd (by decide))
  have f : ∀ (d : Word), 64 ≤ d.toNat → d.toNat + 8 ≤ 88 → mapped e.ok (s.reg .rsi + d) 8 = true :=
    fun d hd hd' => mapped_of (by omega) fun x hx => h4 x (by
      have := hx.off (by omega)
      simp only [In]
      bv_omega)
  exact ⟨rfl, a (BitVec.ofInt 64 0) 4 (by decide), a (BitVec.ofInt 64 4) 2 (by decide),
    a (BitVec.ofInt 64 8) 8 (by decide), a (BitVec.ofInt 64 16) 8 (by decide),
    a (BitVec.ofInt 64 24) 8 (by decide), a (BitVec.ofInt 64 32) 8 (by decide),
    a (BitVec.ofInt 64 40) 8 (by decide), a (BitVec.ofInt 64 48) 8 (by decide), b, c,
    d (BitVec.ofInt 64 56) 8 (by decide), d (BitVec.ofInt 64 0) 4 (by decide),
    d (BitVec.ofInt 64 4) 2 (by decide), d (BitVec.ofInt 64 8) 8 (by decide),
    d (BitVec.ofInt 64 16) 8 (by decide), d (BitVec.ofInt 64 24) 8 (by decide),
    d (BitVec.ofInt 64 32) 8 (by decide), d (BitVec.ofInt 64 40) 8 (by decide),
    d (BitVec.ofInt 64 48) 8 (by decide), f (BitVec.ofInt 64 64) (by decide) (by decide),
    f (BitVec.ofInt 64 72) (by decide) (by decide), f (BitVec.ofInt 64 80) (by decide) (by decide), rfl, rfl,
    trivial⟩

end Rcpr.Asm
