import Verif.AsmSys

/-!
Properties C56 to C58: the context switch.
-/
namespace Rcpr.Asm

/-- The assembler and the C compiler agree on where the fields of a fiber are. -/
theorem layout_agrees :
    fiber_stack_ptr = Field.offset .stack_ptr ∧
    fiber_restore_discipline_id = Field.offset .restore_discipline_id ∧
    fiber_restore_reason_code = Field.offset .restore_reason_code ∧
    fiber_restore_param = Field.offset .restore_param := by decide

/-- To the fiber that calls it, `fiber_switch` is an ordinary function: whatever the other fibers do in the
meantime, when a later switch comes back to it the call returns, at the right place, with the stack pointer
and all registers and control words that a function must preserve as they were. The fiber then finds in its
structure the three arguments of the switch that came back. -/
theorem switch_transparent {w : World} {e : Env} {f g : Nat} {s0 s1 s2 s3 : Sys} (ha : Apart w s0)
    (hf : s0.cur = f) (hg : g ≠ f) (h01 : Switch w e s0 g s1) (h12 : Later w e f s1 s2)
    (h23 : Switch w e s2 f s3) :
    Returned s0.cpu s3.cpu ∧
      word s3.cpu.mem (w.fib f + 64) = s2.cpu.reg .rdx ∧ word s3.cpu.mem (w.fib f + 72) = s2.cpu.reg .rcx ∧
      word s3.cpu.mem (w.fib f + 80) = s2.cpu.reg .r8 := by
  have hsav := h01.saved ha
  rw [hf] at hsav
  have hmf : s0.made f = true := hf ▸ ha.cur
  have hs1 := h01.rest_keeps ha hmf hsav.1 hsav.2
  have ha1 : Apart w s1 := Step.apart ha (.switch g s1 h01)
  have hc1 : s1.cur ≠ f := by rw [h01.now]; exact hg
  have hm1 : s1.made f = true := by rw [h01.same]; exact hmf
  obtain ⟨ha2, hc2, hm2, hs2⟩ := h12.keeps ha1 hc1 hm1 hs1 hsav.2
  have hs3 := h23.save_keeps ha2 hm2 hc2 hs2 hsav.2
  rw [← h23.next] at hs3
  have hat := switch_at e hs3
  rw [← h23.cpu] at hat
  have hm : s3.cpu.mem = switchMem s2.cpu := by rw [h23.cpu, run_switch]
  refine ⟨⟨hat.rip, ?_, ?_, hat.mxcsr, hat.fcw⟩, ?_⟩
  · rw [hat.rsp]
    simp only [callCtx]
    bv_omega
  · intro r hr
    simp only [List.mem_cons, List.not_mem_nil, or_false] at hr
    rcases hr with rfl | rfl | rfl | rfl | rfl | rfl
    · exact hat.rbx
    · exact hat.rbp
    · exact hat.r12
    · exact hat.r13
    · exact hat.r14
    · exact hat.r15
  · rw [hm, ← h23.next]
    exact switch_fields s2.cpu

/-- A switch of a fiber to itself returns at once. -/
theorem switch_self {w : World} {e : Env} {s s' : Sys} (ha : Apart w s) (h : Switch w e s s.cur s') :
    Returned s.cpu s'.cpu ∧
      word s'.cpu.mem (w.fib s.cur + 64) = s.cpu.reg .rdx ∧
      word s'.cpu.mem (w.fib s.cur + 72) = s.cpu.reg .rcx ∧
      word s'.cpu.mem (w.fib s.cur + 80) = s.cpu.reg .r8 := by
  have hs := (h.saved ha).1
  rw [← h.next] at hs
  have hat := switch_at e hs
  rw [← h.cpu] at hat
  have hm : s'.cpu.mem = switchMem s.cpu := by rw [h.cpu, run_switch]
  refine ⟨⟨hat.rip, ?_, ?_, hat.mxcsr, hat.fcw⟩, ?_⟩
  · rw [hat.rsp]
    simp only [callCtx]
    bv_omega
  · intro r hr
    simp only [List.mem_cons, List.not_mem_nil, or_false] at hr
    rcases hr with rfl | rfl | rfl | rfl | rfl | rfl
    · exact hat.rbx
    · exact hat.rbp
    · exact hat.r12
    · exact hat.r13
    · exact hat.r14
    · exact hat.r15
  · rw [hm, ← h.next]
    exact switch_fields s.cpu

/-- A switch writes nothing but the 56 bytes below the caller's stack pointer, the caller's saved stack
pointer and the three fields of the next fiber. -/
theorem switch_writes {w : World} {e : Env} {s s' : Sys} {g : Nat} (h : Switch w e s g s') {x : Word}
    (h1 : ¬ In x (s.cpu.reg .rsp - 0x38) 0x38) (h2 : ¬ In x (w.fib s.cur + 8) 8)
    (h3 : ¬ In x (w.fib g + 64) 24) : s'.cpu.mem x = s.cpu.mem x := by
  rw [h.cpu, run_switch]
  exact switchMem_other h1 (by rw [h.prev]; exact h2) (by rw [h.next]; exact h3)

/-- Coming back to a fiber never faults if the memory of the fibers is mapped. -/
theorem switch_no_fault {w : World} {e : Env} {f g : Nat} {s0 s1 s2 : Sys} (ha : Apart w s0)
    (hf : s0.cur = f) (hg : g ≠ f) (h01 : Switch w e s0 g s1) (h12 : Later w e f s1 s2)
    (hprev : s2.cpu.reg .rdi = w.fib s2.cur) (hnext : s2.cpu.reg .rsi = w.fib f)
    (hroom : ∀ x, In x (s2.cpu.reg .rsp - 0x38) 0x40 → In x (w.lo s2.cur) (w.size s2.cur))
    (hok : ∀ h x, s2.made h = true → w.Own h x → e.ok x = true) :
    ∃ c, exec e fiberSwitch s2.cpu = some c := by
  have hsav := h01.saved ha
  rw [hf] at hsav
  have hmf : s0.made f = true := hf ▸ ha.cur
  have hs1 := h01.rest_keeps ha hmf hsav.1 hsav.2
  have ha1 : Apart w s1 := Step.apart ha (.switch g s1 h01)
  have hc1 : s1.cur ≠ f := by rw [h01.now]; exact hg
  have hm1 : s1.made f = true := by rw [h01.same]; exact hmf
  obtain ⟨ha2, hc2, hm2, hs2⟩ := h12.keeps ha1 hc1 hm1 hs1 hsav.2
  refine ⟨_, exec_safe (switch_safe ?_ ?_ ?_ ?_ ?_)⟩
  · exact fun x hx => hok _ x ha2.cur (.inr (hroom x hx))
  · intro x hx
    rw [hprev] at hx
    exact hok _ x ha2.cur (.inl (Own.struct hx (by decide)))
  · intro x hx
    rw [hnext] at hx
    exact hok _ x hm2 (.inl (Own.struct hx (by decide)))
  · intro x hx
    rw [hnext] at hx
    exact hok _ x hm2 (.inl (Own.struct hx (by decide)))
  · intro x hx
    have hw : ∀ x, w.Own f x → saveMem s2.cpu x = s2.cpu.mem x := by
      intro x hx
      refine saveMem_other ?_ ?_
      · intro hy
        refine ha2.own _ _ ha2.cur hm2 hc2 x (.inr (hroom x ?_)) hx
        simp only [In] at hy ⊢
        omega
      · intro hy
        rw [hprev] at hy
        exact ha2.own _ _ ha2.cur hm2 hc2 x (.inl (Own.struct hy (by decide))) hx
    have hn : nextSp s2.cpu = (callCtx s0.cpu).frame := by
      rw [nextSp, hnext, ← hs2.sp]
      exact word_congr fun x hx => hw x (.inl (Own.struct hx (by decide)))
    rw [hn] at hx
    exact hok f x hm2 (.inr (hsav.2 x hx))

/-- An event code, which the scheduler handles as an `int`, is extended with its sign for the switch and cut
off again when the fiber reads it (fiber_scheduler_yield.c:86, 92): it arrives unchanged. -/
theorem resume_event_round_trip (v : BitVec 32) : (v.signExtend 64).truncate 32 = v := by
  apply BitVec.eq_of_getLsbD_eq
  intro i hi
  simp only [BitVec.truncate_eq_setWidth, BitVec.getLsbD_setWidth, BitVec.getLsbD_signExtend]
  simp [hi, show i < 64 by omega]

/-! ### New fibers -/

/-- `fiber_make` returns to its caller with the registers preserved, and writes only to the stack and the
structure of the new fiber. -/
theorem make_returns {w : World} {e : Env} {s s' : Sys} {g : Nat} (ha : Apart w s) (h : Make w e s g s') :
    Returned s.cpu s'.cpu ∧ ∀ x, ¬ w.Own g x → s'.cpu.mem x = s.cpu.mem x := by
  have ho : ∀ x, ¬ w.Own g x → makeMem e s.cpu x = s.cpu.mem x := by
    intro x hx
    refine makeMem_other (fun hy => hx (.inr (h.room x ?_))) fun hy => hx (.inl ?_)
    · rw [makeFrame_eq, h.arg] at hy
      exact hy
    · rw [h.arg] at hy
      exact Own.struct hy (by decide)
  rw [exec_run h.runs, run_make]
  refine ⟨⟨?_, rfl, ?_, rfl, rfl⟩, ho⟩
  · exact word_congr fun x hx => ho x fun hy => h.own _ ha.cur x hy (.inr (h.call x hx))
  · intro r hr
    simp only [List.mem_cons, List.not_mem_nil, or_false] at hr
    rcases hr with rfl | rfl | rfl | rfl | rfl | rfl <;> rfl

/-- The first switch to a new fiber, and the trampoline where it arrives, enter the entry function as if it
had been called: the first argument is the scheduler and the second the fiber, the stack is its own and
aligned as the ABI demands, and the return address is that of `finish`. The control words are those of the
fiber that created it. -/
theorem new_fiber_starts {w : World} {e : Env} {g : Nat} {s0 s1 s2 s3 : Sys} {c : Cpu} (ha : Apart w s0)
    (h01 : Make w e s0 g s1) (h12 : Later w e g s1 s2) (h23 : Switch w e s2 g s3)
    (ht : exec e trampolineCode s3.cpu = some c) :
    s3.cpu.rip = e.addr .trampoline ∧
      c.rip = s0.cpu.reg .rdx ∧ c.reg .rdi = s0.cpu.reg .rsi ∧ c.reg .rsi = w.fib g ∧
      word c.mem (c.reg .rsp) = e.addr .finish ∧
      ((c.reg .rsp).toNat + 8) % 16 = 0 ∧
      c.reg .rsp = align (word s0.cpu.mem (w.fib g + 8)) - 8 ∧
      (∀ x, In x (c.reg .rsp) 8 → In x (w.lo g) (w.size g)) ∧
      c.mxcsr = s0.cpu.mxcsr ∧ c.fcw = s0.cpu.fcw := by
  have hm0 : s1.cpu.mem = makeMem e s0.cpu := by rw [exec_run h01.runs, run_make]
  have hi : InStack w g (entryCtx e s0.cpu) := by
    intro x hx
    simp only [entryCtx] at hx
    rw [makeFrame_eq, h01.arg] at hx
    exact h01.room x hx
  have hs1 : Saved s1.cpu.mem (w.fib g) (entryCtx e s0.cpu) := by
    rw [hm0, ← h01.arg]
    refine make_saved e fun x hx hy => ?_
    rw [h01.arg] at hy
    exact h01.stk x (Own.struct hy (by decide)) (hi x hx)
  have ha1 : Apart w s1 := Step.apart ha (.make g s1 h01)
  have hcg : s0.cur ≠ g := by
    intro hc
    have h1 := ha.cur
    rw [hc, h01.new] at h1
    exact Bool.noConfusion h1
  have hc1 : s1.cur ≠ g := by rw [h01.now]; exact hcg
  have hm1 : s1.made g = true := by rw [h01.more]; simp
  obtain ⟨ha2, hc2, hm2, hs2⟩ := h12.keeps ha1 hc1 hm1 hs1 hi
  have hs3 := h23.save_keeps ha2 hm2 hc2 hs2 hi
  rw [← h23.next] at hs3
  have hat := switch_at e hs3
  rw [← h23.cpu] at hat
  have hc := exec_run ht
  have hrsp : s3.cpu.reg .rsp - 8 = align (word s0.cpu.mem (w.fib g + 8)) - 8 := by
    rw [hat.rsp]
    simp only [entryCtx]
    rw [makeFrame_eq, h01.arg]
    bv_omega
  have hcsp : c.reg .rsp = s3.cpu.reg .rsp - 8 := by rw [hc]; rfl
  refine ⟨hat.rip, ?_, ?_, ?_, ?_, ?_, ?_, ?_, ?_, ?_⟩
  · rw [hc]; exact hat.rbx
  · rw [hc]; exact hat.r14
  · rw [hc]
    exact hat.r15.trans h01.arg
  · have hmem : c.mem = st s3.cpu.mem (s3.cpu.reg .rsp - 8) 8 (s3.cpu.reg .rbp).toNat := by rw [hc]; rfl
    rw [hcsp, hmem, word_st_same]
    exact hat.rbp
  · rw [hcsp, hrsp]
    have := align_toNat (word s0.cpu.mem (w.fib g + 8))
    bv_omega
  · rw [hcsp, hrsp]
  · intro x hx
    apply hi
    rw [hcsp, hrsp] at hx
    simp only [entryCtx]
    rw [makeFrame_eq, h01.arg]
    simp only [In] at *
    bv_omega
  · rw [hc]; exact hat.mxcsr
  · rw [hc]; exact hat.fcw

/-- The room that `Make` asks for is there when the stack pointer is the end of a stack of at least 79
bytes. -/
theorem make_room (lo : Word) (size : Nat) (h : 79 ≤ size) (h2 : lo.toNat + size < 2 ^ 64) (x : Word)
    (hx : In x (align (lo + BitVec.ofNat 64 size) - 0x40) 0x40) : In x lo size := by
  have := align_toNat (lo + BitVec.ofNat 64 size)
  have e : (lo + BitVec.ofNat 64 size).toNat = lo.toNat + size := by
    rw [BitVec.toNat_add, BitVec.toNat_ofNat]
    omega
  simp only [In] at *
  bv_omega

/-- A size greater than zero is not enough, so this is one of the "platform rules" that the documentation
of `fiber_create` mentions: with a stack of 16 bytes `fiber_make` writes below the stack. -/
theorem make_room_needed : ∃ (lo : Word) (size : Nat), 0 < size ∧
    ∃ x, In x (align (lo + BitVec.ofNat 64 size) - 0x40) 0x40 ∧ ¬ In x lo size :=
  ⟨0x10000, 16, by decide, 0xffd0, by decide, by decide⟩

/-- If an entry function ever returns it does so to `finish`, which is to end the process with a non-zero
exit code. It never gets to call `_exit`: it faults on reading address 1, which no process has mapped. -/
theorem finish_violated (e : Env) (h : e.ok 1#64 = false) (s : Cpu) : exec e finishCode s = none := by
  simp [finishCode, exec, exec1, Cpu.read, mapped, h]

/-- Nor is the exit code the intended one where address 1 is mapped: it is whatever is found there. -/
theorem finish_exit_code (e : Env) (s s' : Cpu) (h : exec e finishCode s = some s') :
    s'.reg .rdi = word s.mem 1 := by
  rw [exec_run h]
  rfl

/-! ### A concrete run: fiber 0 makes fiber 1, switches to it, and is switched back to. -/
namespace Demo

def w : World where
  fib := fun g => if g = 0 then 0x1000 else 0x2000
  lo := fun g => if g = 0 then 0x10000 else 0x20000
  size := fun _ => 0x1000

def e : Env := ⟨fun _ => true, fun | .trampoline => 0x401000 | .finish => 0x401010⟩

/-- Set the registers that carry the arguments of a call, and the stack pointer. -/
def args (c : Cpu) (rdi rsi rdx rcx r8 rsp : Word) : Cpu :=
  { c with reg := fun
    | .rdi => rdi | .rsi => rsi | .rdx => rdx | .rcx => rcx | .r8 => r8 | .rsp => rsp | r => c.reg r }

/-- The structure of fiber 1 holds the end of its stack; `0x400123` is a return address. -/
def c0 : Cpu where
  rip := 0x401020
  reg := fun
    | .rdi => 0x2000 | .rsi => 0x3000 | .rdx => 0x402000 | .rsp => 0x10800 | .rbx => 11 | .r12 => 12
    | .r15 => 15 | _ => 0
  mxcsr := 0x1f80
  fcw := 0x37f
  mem := st (st (fun _ => 0) 0x2008 8 0x21000) 0x10800 8 0x400123

def s0 : Sys := ⟨c0, 0, fun g => g == 0⟩
def s1 : Sys := ⟨run e fiberMake c0, 0, fun g => if g = 1 then true else g == 0⟩
/-- Fiber 0 calls `fiber_switch(fiber 0, fiber 1, 7, 8, 9)`. -/
def s2 : Sys := ⟨args s1.cpu 0x1000 0x2000 7 8 9 0x10800, 0, s1.made⟩
def s3 : Sys := ⟨run e fiberSwitch s2.cpu, 1, s1.made⟩
/-- Fiber 1 changes all its registers and calls `fiber_switch(fiber 1, fiber 0, 70, 80, 90)`. -/
def s4 : Sys := ⟨{ args s3.cpu 0x2000 0x1000 70 80 90 0x20e00 with mxcsr := 0 }, 1, s1.made⟩
def s5 : Sys := ⟨run e fiberSwitch s4.cpu, 0, s1.made⟩

theorem own0 {x : Word} (h : w.Own 0 x) : x.toNat < 0x11000 ∧ (x.toNat < 0x2000 ∨ 0x10000 ≤ x.toNat) := by
  simp only [World.Own, w, In, fiberSize, fields, List.length, if_true] at h
  rcases h with h | h <;> bv_omega

theorem own1 {x : Word} (h : w.Own 1 x) : 0x2000 ≤ x.toNat ∧ (x.toNat < 0x3000 ∨ 0x20000 ≤ x.toNat) := by
  simp only [World.Own, w, In, fiberSize, fields, List.length, Nat.one_ne_zero, if_false] at h
  rcases h with h | h <;> bv_omega

theorem apart0 : Apart w s0 := by
  refine ⟨rfl, ?_, ?_⟩
  · intro g h hg hh hne
    simp only [s0, beq_iff_eq] at hg hh
    omega
  · intro g hg x h h'
    simp only [s0, beq_iff_eq] at hg
    subst hg
    simp only [w, In, fiberSize, fields, List.length, if_true] at h h'
    bv_omega

theorem make01 : Make w e s0 1 s1 := by
  refine ⟨rfl, rfl, ?_, ?_, ?_, ?_, safe_all (fun _ => rfl) _ _, rfl, rfl⟩
  · have : align (word s0.cpu.mem (w.fib 1 + 8)) = 0x21000 := by decide +kernel
    rw [this]
    intro x h
    simp only [w, In, Nat.one_ne_zero, if_false] at h ⊢
    bv_omega
  · intro x h h'
    simp only [w, In, fiberSize, fields, List.length, Nat.one_ne_zero, if_false] at h h'
    bv_omega
  · intro h hh x hx hy
    simp only [s0, beq_iff_eq] at hh
    subst hh
    have := own1 hx
    have := own0 hy
    omega
  · intro x h
    have : s0.cpu.reg .rsp = 0x10800 := rfl
    rw [this] at h
    simp only [w, s0, In, if_true] at h ⊢
    bv_omega

theorem switch23 : Switch w e s2 1 s3 := by
  refine ⟨rfl, rfl, rfl, ?_, safe_all (fun _ => rfl) _ _, rfl, rfl⟩
  intro x h
  have : s2.cpu.reg .rsp = 0x10800 := rfl
  rw [this] at h
  simp only [w, s2, In, if_true] at h ⊢
  bv_omega

theorem switch45 : Switch w e s4 0 s5 := by
  refine ⟨rfl, rfl, rfl, ?_, safe_all (fun _ => rfl) _ _, rfl, rfl⟩
  intro x h
  have : s4.cpu.reg .rsp = 0x20e00 := rfl
  rw [this] at h
  simp only [w, s4, In, Nat.one_ne_zero, if_false] at h ⊢
  bv_omega

theorem apart2 : Apart w s2 := by
  have h := Step.apart apart0 (.make 1 s1 make01)
  exact ⟨h.cur, h.own, h.stk⟩

theorem later34 : Later w e 0 s3 s4 :=
  .step .refl (.user s4.cpu fun _ _ _ _ _ => rfl) (by decide) rfl

example : Returned s2.cpu s5.cpu := (switch_transparent apart2 rfl (by decide) switch23 later34 switch45).1

/-- Fiber 0 is back behind its call with its registers, though fiber 1 changed them, and the arguments of
the second switch are in its structure. -/
example : s5.cpu.rip = 0x400123 ∧ s5.cpu.reg .rsp = 0x10808 ∧ s5.cpu.reg .r12 = 12 ∧ s5.cpu.mxcsr = 0x1f80 ∧
    word s5.cpu.mem (0x1000 + 64) = 70 ∧ s3.cpu.rip = 0x401000 := by decide +kernel

example : ∃ c, exec e fiberSwitch s4.cpu = some c :=
  switch_no_fault apart2 rfl (by decide) switch23 later34 rfl rfl switch45.room fun _ _ _ _ => rfl

/-- Fiber 1 starts in its entry function. -/
example : ∃ c, exec e trampolineCode s3.cpu = some c ∧ c.rip = 0x402000 ∧ c.reg .rdi = 0x3000 ∧
    c.reg .rsi = 0x2000 ∧ c.reg .rsp = 0x20ff8 ∧ word c.mem 0x20ff8 = 0x401010 := by
  have h := new_fiber_starts apart0 make01
    (.step .refl (.user s2.cpu fun _ _ _ _ _ => rfl) (by decide) rfl : Later w e 1 s1 s2) switch23
    (safe_all (fun _ => rfl) trampolineCode s3.cpu)
  refine ⟨_, safe_all (fun _ => rfl) _ _, h.2.1, h.2.2.1, h.2.2.2.1, ?_⟩
  decide +kernel

/-- A switch of fiber 0 to itself -/
example : ∃ s', Switch w e ⟨args c0 0x1000 0x1000 7 8 9 0x10800, 0, s0.made⟩ 0 s' := by
  refine ⟨⟨run e fiberSwitch (args c0 0x1000 0x1000 7 8 9 0x10800), 0, s0.made⟩, rfl, rfl, rfl, ?_,
    safe_all (fun _ => rfl) _ _, rfl, rfl⟩
  intro x h
  have : (args c0 0x1000 0x1000 7 8 9 0x10800).reg .rsp = 0x10800 := rfl
  rw [this] at h
  simp only [w, In, if_true] at h ⊢
  bv_omega

end Demo

end Rcpr.Asm
