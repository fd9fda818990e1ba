import Verif.AsmMake

/-!
Fibers sharing one thread, at the level of the machine: user code runs on the current fiber and now and then
calls `fiber_make` for a new fiber or `fiber_switch` to another one.
-/
namespace Rcpr.Asm

/-- Where the structure and the stack of each fiber are. As allocated by fiber_create.c and its stack by src/stack. -/
structure World where
  fib : Nat → Word
  lo : Nat → Word
  size : Nat → Nat

/-- The byte `x` belongs to the structure or the stack of fiber `g`.
The structure is `struct fiber` (fiber_internal.h:27-45). -/
def World.Own (w : World) (g : Nat) (x : Word) : Prop :=
  In x (w.fib g) fiberSize ∨ In x (w.lo g) (w.size g)

/-- `cur`: the fiber that is running; `made`: the fibers that exist.
`cur` is `sched->current_fiber` (fiber_internal.h:54). -/
structure Sys where
  cpu : Cpu
  cur : Nat
  made : Nat → Bool

/-- The memory of existing fibers does not overlap. Not in the code: different allocations do not overlap. -/
structure Apart (w : World) (s : Sys) : Prop where
  cur : s.made s.cur = true
  own : ∀ g h, s.made g = true → s.made h = true → g ≠ h → ∀ x, w.Own g x → ¬ w.Own h x
  stk : ∀ g, s.made g = true → ∀ x, In x (w.fib g) fiberSize → ¬ In x (w.lo g) (w.size g)

/-- Fiber code calls `fiber_switch` to go to fiber `g`, as `fiber_scheduler_yield` (fiber_scheduler_yield.c:
80-86) and `fiber_scheduler_add` (fiber_scheduler_add.c:72-78) do: with its own structure as the first and
that of `g` as the second argument. There is room for 64 bytes on its stack. -/
structure Switch (w : World) (e : Env) (s : Sys) (g : Nat) (s' : Sys) : Prop where
  prev : s.cpu.reg .rdi = w.fib s.cur
  next : s.cpu.reg .rsi = w.fib g
  made : s.made g = true
  room : ∀ x, In x (s.cpu.reg .rsp - 0x38) 0x40 → In x (w.lo s.cur) (w.size s.cur)
  runs : exec e fiberSwitch s.cpu = some s'.cpu
  now : s'.cur = g
  same : s'.made = s.made

/-- Fiber code calls `fiber_make` for fiber `g` (fiber_create.c:120-124). The stack pointer in the
structure is within the stack of `g`, with room for 64 bytes below it, and the memory of `g` is not that of
another fiber. -/
structure Make (w : World) (e : Env) (s : Sys) (g : Nat) (s' : Sys) : Prop where
  arg : s.cpu.reg .rdi = w.fib g
  new : s.made g = false
  room : ∀ x, In x (align (word s.cpu.mem (w.fib g + 8)) - 0x40) 0x40 → In x (w.lo g) (w.size g)
  stk : ∀ x, In x (w.fib g) fiberSize → ¬ In x (w.lo g) (w.size g)
  own : ∀ h, s.made h = true → ∀ x, w.Own g x → ¬ w.Own h x
  /-- the return address is on the stack of the running fiber -/
  call : ∀ x, In x (s.cpu.reg .rsp) 8 → In x (w.lo s.cur) (w.size s.cur)
  runs : exec e fiberMake s.cpu = some s'.cpu
  now : s'.cur = s.cur
  more : s'.made = fun h => if h = g then true else s.made h

/-- One step of the system.
The calls are those of fiber_scheduler_yield.c:80-86, fiber_scheduler_add.c:72-78 and fiber_create.c:120-124. -/
inductive Step (w : World) (e : Env) (s : Sys) : Sys → Prop
  /-- Any code that leaves the stack pointer and the 64 bytes it points to of each suspended fiber alone.
  Everything else in memory, and all registers, may change. -/
  | user (c : Cpu)
      (h : ∀ g, s.made g = true → g ≠ s.cur → ∀ x,
        In x (w.fib g + 8) 8 ∨ In x (word s.cpu.mem (w.fib g + 8)) 0x40 → c.mem x = s.cpu.mem x) :
      Step w e s ⟨c, s.cur, s.made⟩
  /-- A suspended fiber is given up; its memory may be used for something else from now on. -/
  | drop (g : Nat) (h : g ≠ s.cur) : Step w e s ⟨s.cpu, s.cur, fun x => if x = g then false else s.made x⟩
  | make (g : Nat) (s' : Sys) (h : Make w e s g s') : Step w e s s'
  | switch (g : Nat) (s' : Sys) (h : Switch w e s g s') : Step w e s s'

/-- Any number of steps in which fiber `f` neither runs nor is given up.
Not in the code: executions between two turns of a fiber. -/
inductive Later (w : World) (e : Env) (f : Nat) (s : Sys) : Sys → Prop
  | refl : Later w e f s s
  | step {s1 s2 : Sys} (h : Later w e f s s1) (h1 : Step w e s1 s2) (hc : s2.cur ≠ f)
      (hm : s2.made f = true) : Later w e f s s2

/-- A call made in state `s` has returned in state `s'`: control is at the return address, which has been
popped, and the registers that a called function must preserve are as before (System V ABI, 3.2.1).
Not in the code: the calling convention that fiber_switch.s:48-107 must keep. -/
structure Returned (s s' : Cpu) : Prop where
  rip : s'.rip = word s.mem (s.reg .rsp)
  rsp : s'.reg .rsp = s.reg .rsp + 8
  regs : ∀ r, r ∈ [Reg.rbx, .rbp, .r12, .r13, .r14, .r15] → s'.reg r = s.reg r
  mxcsr : s'.mxcsr = s.mxcsr
  fcw : s'.fcw = s.fcw

/-! ### Proofs -/

theorem Own.struct {w : World} {g : Nat} {x d : Word} {n : Nat} (h : In x (w.fib g + d) n)
    (hd : d.toNat + n ≤ fiberSize) : In x (w.fib g) fiberSize := h.within hd (by decide)

theorem Step.apart {w : World} {e : Env} {s s' : Sys} (ha : Apart w s) (h : Step w e s s') : Apart w s' := by
  cases h with
  | user c h => exact ⟨ha.cur, ha.own, ha.stk⟩
  | drop g h =>
    refine ⟨?_, ?_, ?_⟩
    · simp only [ha.cur]
      rw [if_neg (fun h' => h h'.symm)]
    · intro a b h1 h2
      simp only [Bool.if_false_left, Bool.and_eq_true] at h1 h2
      exact ha.own a b h1.2 h2.2
    · intro a h1
      simp only [Bool.if_false_left, Bool.and_eq_true] at h1
      exact ha.stk a h1.2
  | make g s' h =>
    have hm : ∀ a, s'.made a = true → a = g ∨ s.made a = true := by
      intro a h1
      rw [h.more] at h1
      by_cases hag : a = g
      · exact .inl hag
      · simp only [hag, if_false] at h1
        exact .inr h1
    refine ⟨?_, ?_, ?_⟩
    · rw [h.now, h.more]
      simp only [ha.cur, ite_self]
    · intro a b h1 h2 hab x hx hy
      rcases hm a h1 with h1 | h1
      · rcases hm b h2 with h2 | h2
        · exact hab (h1.trans h2.symm)
        · subst h1
          exact h.own b h2 x hx hy
      · rcases hm b h2 with h2 | h2
        · subst h2
          exact h.own a h1 x hy hx
        · exact ha.own a b h1 h2 hab x hx hy
    · intro a h1
      rcases hm a h1 with h1 | h1
      · subst h1
        exact h.stk
      · exact ha.stk a h1
  | switch g s' h =>
    refine ⟨?_, ?_, ?_⟩
    · rw [h.now, h.same]
      exact h.made
    · rw [h.same]
      exact ha.own
    · rw [h.same]
      exact ha.stk

/-- The 64 bytes at the saved stack pointer lie in the fiber's own stack.
The frame that fiber_switch.s:48-107 saves. -/
def InStack (w : World) (f : Nat) (c : Ctx) : Prop := ∀ x, In x c.frame 0x40 → In x (w.lo f) (w.size f)

/-- The current fiber's context is saved. -/
theorem Switch.saved {w : World} {e : Env} {s s' : Sys} {g : Nat} (ha : Apart w s) (h : Switch w e s g s') :
    Saved (saveMem s.cpu) (w.fib s.cur) (callCtx s.cpu) ∧ InStack w s.cur (callCtx s.cpu) := by
  have := save_saved (s := s.cpu) fun x hx hy => by
    rw [h.prev] at hy
    exact ha.stk _ ha.cur x (Own.struct hy (by decide)) (h.room x hx)
  rw [h.prev] at this
  exact ⟨this, fun x hx => h.room x hx⟩

theorem Switch.cpu {w : World} {e : Env} {s s' : Sys} {g : Nat} (h : Switch w e s g s') :
    s'.cpu = run e fiberSwitch s.cpu := exec_run h.runs

/-- A suspended fiber other than the one that calls keeps its context through the saving. -/
theorem Switch.save_keeps {w : World} {e : Env} {s s' : Sys} {f g : Nat} {c : Ctx} (ha : Apart w s)
    (h : Switch w e s g s') (hf : s.made f = true) (hc : s.cur ≠ f) (hs : Saved s.cpu.mem (w.fib f) c)
    (hi : InStack w f c) : Saved (saveMem s.cpu) (w.fib f) c := by
  have hx : ∀ x, w.Own f x → saveMem s.cpu x = s.cpu.mem x := by
    intro x hx
    refine saveMem_other ?_ ?_
    · intro hy
      refine ha.own _ _ ha.cur hf hc x (.inr (h.room x ?_)) hx
      simp only [In] at hy ⊢
      omega
    · intro hy
      rw [h.prev] at hy
      exact ha.own _ _ ha.cur hf hc x (.inl (Own.struct hy (by decide))) hx
  exact hs.congr (fun x h' => hx x (.inl (Own.struct h' (by decide)))) fun x h' => hx x (.inr (hi x h'))

/-- The three stores into the next fiber disturb no saved context. -/
theorem Switch.rest_keeps {w : World} {e : Env} {s s' : Sys} {f g : Nat} {c : Ctx} (ha : Apart w s)
    (h : Switch w e s g s') (hf : s.made f = true) (hs : Saved (saveMem s.cpu) (w.fib f) c)
    (hi : InStack w f c) : Saved s'.cpu.mem (w.fib f) c := by
  have hm : s'.cpu.mem = switchMem s.cpu := by rw [h.cpu, run_switch]
  have hx : ∀ x, (In x (w.fib f + 8) 8 ∨ In x c.frame 0x40) → switchMem s.cpu x = saveMem s.cpu x := by
    intro x hx
    have hn : ¬ In x (w.fib g + 64) 24 := by
      intro hy
      by_cases hfg : f = g
      · subst hfg
        rcases hx with hx | hx
        · exact hx.apart hy (by decide) (by decide) (by decide)
        · exact ha.stk f hf x (Own.struct hy (by decide)) (hi x hx)
      · refine ha.own f g hf h.made hfg x ?_ (.inl (Own.struct hy (by decide)))
        rcases hx with hx | hx
        · exact .inl (Own.struct hx (by decide))
        · exact .inr (hi x hx)
    unfold switchMem
    rw [h.next]
    rw [st_other, st_other, st_other]
    all_goals
      intro hy
      apply hn
      simp only [In] at *
      simp only [show BitVec.ofInt 64 64 = 64#64 from by decide,
        show BitVec.ofInt 64 72 = 72#64 from by decide, show BitVec.ofInt 64 80 = 80#64 from by decide] at hy
      bv_omega
  rw [hm]
  exact hs.congr (fun x h' => hx x (.inl h')) fun x h' => hx x (.inr h')

theorem Make.keeps {w : World} {e : Env} {s s' : Sys} {f g : Nat} {c : Ctx}
    (h : Make w e s g s') (hf : s.made f = true) (hs : Saved s.cpu.mem (w.fib f) c)
    (hi : InStack w f c) : Saved s'.cpu.mem (w.fib f) c := by
  have hm : s'.cpu.mem = makeMem e s.cpu := by rw [exec_run h.runs, run_make]
  have hx : ∀ x, w.Own f x → makeMem e s.cpu x = s.cpu.mem x := by
    intro x hx
    refine makeMem_other ?_ ?_
    · intro hy
      rw [makeFrame_eq, h.arg] at hy
      exact h.own f hf x (.inr (h.room x hy)) hx
    · intro hy
      rw [h.arg] at hy
      exact h.own f hf x (.inl (Own.struct hy (by decide))) hx
  rw [hm]
  exact hs.congr (fun x h' => hx x (.inl (Own.struct h' (by decide)))) fun x h' => hx x (.inr (hi x h'))

/-- A suspended fiber keeps its context. -/
theorem Later.keeps {w : World} {e : Env} {f : Nat} {s s' : Sys} {c : Ctx} (ha : Apart w s)
    (hc : s.cur ≠ f) (hm : s.made f = true) (hs : Saved s.cpu.mem (w.fib f) c) (hi : InStack w f c)
    (h : Later w e f s s') :
    Apart w s' ∧ s'.cur ≠ f ∧ s'.made f = true ∧ Saved s'.cpu.mem (w.fib f) c := by
  induction h with
  | refl => exact ⟨ha, hc, hm, hs⟩
  | step h1 hst hc2 hm2 ih =>
    obtain ⟨ha1, hc1, hm1, hs1⟩ := ih
    refine ⟨hst.apart ha1, hc2, hm2, ?_⟩
    cases hst with
    | user c' h =>
      refine hs1.congr (fun x hx => h f hm1 (fun h' => hc1 h'.symm) x (.inl hx)) fun x hx =>
        h f hm1 (fun h' => hc1 h'.symm) x (.inr ?_)
      rw [hs1.sp]
      exact hx
    | drop g h => exact hs1
    | make g s' h => exact h.keeps hm1 hs1 hi
    | switch g s' h => exact h.rest_keeps ha1 hm1 (h.save_keeps ha1 hm1 hc1 hs1 hi) hi

end Rcpr.Asm
