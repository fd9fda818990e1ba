import Verif.Asm

/-! Memory lemmas and the effect of the four pieces of code. -/
namespace Rcpr.Asm

/-- `x` is one of the `n` bytes at `a`. -/
def In (x a : Word) (n : Nat) : Prop := (x - a).toNat < n

instance (x a : Word) (n : Nat) : Decidable (In x a n) := inferInstanceAs (Decidable (_ < _))

theorem In.off {x a d : Word} {n : Nat} (h : In x (a + d) n) (hd : d.toNat + n ≤ 2 ^ 64) :
    d.toNat ≤ (x - a).toNat ∧ (x - a).toNat < d.toNat + n := by
  have e : x - a = (x - (a + d)) + d := by bv_omega
  simp only [In] at h
  rw [e, BitVec.toNat_add, Nat.mod_eq_of_lt (by omega)]
  omega

theorem In.apart {x a d d' : Word} {n n' : Nat} (h : In x (a + d) n) (h' : In x (a + d') n')
    (h1 : d.toNat + n ≤ 2 ^ 64) (h2 : d'.toNat + n' ≤ 2 ^ 64)
    (h3 : d.toNat + n ≤ d'.toNat ∨ d'.toNat + n' ≤ d.toNat) : False := by
  have := h.off h1
  have := h'.off h2
  omega

theorem In.within {x a d : Word} {n k : Nat} (h : In x (a + d) n) (hk : d.toNat + n ≤ k) (h' : k ≤ 2 ^ 64) :
    In x a k := by
  have := h.off (by omega)
  simp only [In]
  omega

theorem ld_congr {m m' : Mem} : ∀ {n : Nat} {a : Word}, n ≤ 2 ^ 64 → (∀ x, In x a n → m x = m' x) →
    ld m a n = ld m' a n
  | 0, _, _, _ => rfl
  | n + 1, a, hn, h => by
    have h0 : m a = m' a := h a (by simp [In])
    have h1 : ld m (a + 1) n = ld m' (a + 1) n := ld_congr (by omega) fun x hx => h x (by
      simp only [In] at hx ⊢
      bv_omega)
    rw [ld, ld, h0, h1]

theorem ld_bytes {m : Mem} {a : Word} {v : Nat} : ∀ {n k : Nat}, n + k ≤ 2 ^ 64 →
    (∀ x, k ≤ (x - a).toNat → (x - a).toNat < n + k → m x = BitVec.ofNat 8 (v / 256 ^ (x - a).toNat)) →
    ld m (a + BitVec.ofNat 64 k) n = v / 256 ^ k % 256 ^ n
  | 0, _, _, _ => by simp [ld, Nat.mod_one]
  | n + 1, k, hn, h => by
    have e : (a + BitVec.ofNat 64 k - a).toNat = k := by
      have : (BitVec.ofNat 64 k).toNat = k := by
        simp only [BitVec.toNat_ofNat]; omega
      bv_omega
    have h0 := h (a + BitVec.ofNat 64 k) (by omega) (by omega)
    rw [e] at h0
    have h1 := ld_bytes (m := m) (a := a) (v := v) (n := n) (k := k + 1) (by omega)
      fun x hx hy => h x (by omega) (by omega)
    have e2 : a + BitVec.ofNat 64 k + 1 = a + BitVec.ofNat 64 (k + 1) := by
      rw [show k + 1 = 1 + k from Nat.add_comm k 1, BitVec.ofNat_add, BitVec.add_assoc,
        BitVec.add_comm (BitVec.ofNat 64 k)]
      rfl
    rw [ld, e2, h1, h0]
    simp only [BitVec.toNat_ofNat]
    rw [Nat.pow_succ (n := 256) (m := k), ← Nat.div_div_eq_div_mul]
    generalize v / 256 ^ k = u
    rw [show 256 ^ (n + 1) = 256 * 256 ^ n by rw [Nat.pow_succ, Nat.mul_comm], Nat.mod_mul]

theorem ld_st_same (m : Mem) (a : Word) {n : Nat} (v : Nat) (hn : n ≤ 2 ^ 64) :
    ld (st m a n v) a n = v % 256 ^ n := by
  have := ld_bytes (m := st m a n v) (a := a) (v := v) (n := n) (k := 0) (by omega) fun x _ hx => by
    simp only [st]
    rw [if_pos (by omega)]
  simpa using this

theorem st_other {m : Mem} {a x : Word} {n v : Nat} (h : ¬ In x a n) : st m a n v x = m x := if_neg h

theorem ld_st_ne {m : Mem} {a b : Word} {n k v : Nat} (hk : k ≤ 2 ^ 64)
    (h : ∀ x, In x b k → ¬ In x a n) : ld (st m a n v) b k = ld m b k :=
  ld_congr hk fun x hx => st_other (h x hx)

theorem word_st_same (m : Mem) (a v : Word) : word (st m a 8 v.toNat) a = v := by
  rw [word, ld_st_same _ _ _ (by omega)]
  have := v.isLt
  rw [Nat.mod_eq_of_lt (by omega)]
  simp

theorem word_st_ne {m : Mem} {a b : Word} {n v : Nat} (h : ∀ x, In x b 8 → ¬ In x a n) :
    word (st m a n v) b = word m b := by rw [word, ld_st_ne (by omega) h, word]

theorem word_congr {m m' : Mem} {a : Word} (h : ∀ x, In x a 8 → m x = m' x) : word m a = word m' a := by
  rw [word, ld_congr (by omega) h, word]

/-! ### Code without the checks -/

/-- One instruction when all of memory is mapped -/
def run1 (e : Env) (i : Instr) (s : Cpu) : Cpu :=
  match i with
  | .lea d b r => s.set r (s.ea d b)
  | .leaLabel l r => s.set r (e.addr l)
  | .store r d b => { s with mem := st s.mem (s.ea d b) 8 (s.reg r).toNat }
  | .load d b r => s.set r (word s.mem (s.ea d b))
  | .mov a r => s.set r (s.reg a)
  | .loadAbs a r => s.set r (word s.mem (BitVec.ofInt 64 a))
  | .andImm i r => s.set r (s.reg r &&& BitVec.ofInt 64 i)
  | .stmxcsr d b => { s with mem := st s.mem (s.ea d b) 4 s.mxcsr.toNat }
  | .fnstcw d b => { s with mem := st s.mem (s.ea d b) 2 s.fcw.toNat }
  | .ldmxcsr d b => { s with mxcsr := BitVec.ofNat 32 (ld s.mem (s.ea d b) 4) }
  | .fldcw d b => { s with fcw := BitVec.ofNat 16 (ld s.mem (s.ea d b) 2) }
  | .push r => { s.set .rsp (s.reg .rsp - 8) with mem := st s.mem (s.reg .rsp - 8) 8 (s.reg r).toNat }
  | .jmp r => { s with rip := s.reg r }
  | .ret => { s.set .rsp (s.reg .rsp + 8) with rip := word s.mem (s.reg .rsp) }

def run (e : Env) : List Instr → Cpu → Cpu
  | [], s => s
  | i :: is, s => run e is (run1 e i s)

/-- The memory an instruction accesses -/
def access (i : Instr) (s : Cpu) : Word × Nat :=
  match i with
  | .store _ d b => (s.ea d b, 8)
  | .load d b _ => (s.ea d b, 8)
  | .loadAbs a _ => (BitVec.ofInt 64 a, 8)
  | .stmxcsr d b => (s.ea d b, 4)
  | .fnstcw d b => (s.ea d b, 2)
  | .ldmxcsr d b => (s.ea d b, 4)
  | .fldcw d b => (s.ea d b, 2)
  | .push _ => (s.reg .rsp - 8, 8)
  | .ret => (s.reg .rsp, 8)
  | _ => (0, 0)

theorem exec1_eq (e : Env) (i : Instr) (s : Cpu) :
    exec1 e i s = if mapped e.ok (access i s).1 (access i s).2 then some (run1 e i s) else none := by
  cases i <;> simp [exec1, run1, access, Cpu.read, Cpu.write, mapped, word] <;> split <;> simp_all [Cpu.set]

def safe (e : Env) : List Instr → Cpu → Prop
  | [], _ => True
  | i :: is, s => mapped e.ok (access i s).1 (access i s).2 ∧ safe e is (run1 e i s)

theorem exec_run {e : Env} : ∀ {is : List Instr} {s s' : Cpu}, exec e is s = some s' → s' = run e is s
  | [], s, s', h => by simpa [exec, run, eq_comm] using h
  | i :: is, s, s', h => by
    simp only [exec, exec1_eq] at h
    split at h
    · exact exec_run (is := is) h
    · simp at h

theorem exec_safe {e : Env} : ∀ {is : List Instr} {s : Cpu}, safe e is s → exec e is s = some (run e is s)
  | [], _, _ => rfl
  | i :: is, s, h => by
    simp only [exec, exec1_eq, h.1, if_true, Option.bind_some, run]
    exact exec_safe h.2

theorem mapped_of {ok : Word → Bool} : ∀ {n : Nat} {a : Word}, n ≤ 2 ^ 64 → (∀ x, In x a n → ok x = true) →
    mapped ok a n = true
  | 0, _, _, _ => rfl
  | n + 1, a, hn, h => by
    have h0 : ok a = true := h a (by simp [In])
    have h1 : mapped ok (a + 1) n = true := mapped_of (by omega) fun x hx => h x (by
      simp only [In] at hx ⊢
      bv_omega)
    rw [mapped, h0, h1]
    rfl

theorem safe_all {e : Env} (h : ∀ x, e.ok x = true) : ∀ (is : List Instr) (s : Cpu),
    exec e is s = some (run e is s) := by
  intro is s
  apply exec_safe
  induction is generalizing s with
  | nil => trivial
  | cons i is ih =>
    refine ⟨?_, ih _⟩
    suffices H : ∀ (n : Nat) (a : Word), mapped e.ok a n = true from H _ _
    intro n
    induction n with
    | zero => intro a; rfl
    | succ n ih => intro a; rw [mapped, h, ih]; rfl

end Rcpr.Asm
