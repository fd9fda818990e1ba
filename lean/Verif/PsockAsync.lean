import Verif.PsockBuf

/-!
Model of descriptor psocks and of the async wrapper: `psock_from_descriptor_read.c`,
`psock_from_descriptor_write.c`, `psock_wrap_async_read.c`, `psock_wrap_async_write.c` in `src/psock`.

Simplifications: the look-up of the wrapped socket's vtable succeeds; `psock_read_block` and
`psock_write_block` are a parameter `blk` that changes the state of the wrapped socket and answers a
status (what happens in the scheduler meanwhile is modelled in `Verif/Sched*.lean`). The loops may
run for ever, so they take fuel; running out of fuel is `none`, and theorems about results hold for
every amount of fuel.
-/
namespace Rcpr.Psock

open Rcpr

variable {σ : Type}

/-- what the kernel answers to successive `read` calls on a non-blocking descriptor: some bytes (no
bytes at end of file), `EAGAIN`, or another error. The call is in src/psock/psock_from_descriptor_read.c. -/
inductive REv where
  | chunk (d : List Byte)
  | again
  | err
deriving DecidableEq

/-- `psock_from_descriptor_read` (src/psock/psock_from_descriptor_read.c:32-68) on a descriptor whose
`read` calls are answered by the script; a chunk longer than asked for is delivered in pieces, and
after the end of the script the descriptor is at end of file. -/
def fdRead : Reader (List REv) := fun s n _ =>
  match s with
  | [] => some ([], SUCCESS, [])
  | .chunk d :: es =>
    if d.length ≤ n then some (es, SUCCESS, d) else some (.chunk (d.drop n) :: es, SUCCESS, d.take n)
  | .again :: es => some (es, ERROR_PSOCK_READ_WOULD_BLOCK, [])
  | .err :: es => some (es, ERROR_PSOCK_READ_GENERAL, [])

/-- answers to successive `write` calls: at most `k` bytes taken, `EAGAIN`, or another error.
The call is in src/psock/psock_from_descriptor_write.c. -/
inductive WEv where
  | take (k : Nat)
  | again
  | err
deriving DecidableEq

/-- `psock_from_descriptor_write` (src/psock/psock_from_descriptor_write.c:32-67); the second
component is what has been sent. After the script everything is taken. On failure `*size` is
unchanged. -/
def fdWrite : Writer (List WEv × List Byte) := fun s d =>
  match s with
  | ([], out) => some (([], out ++ d), SUCCESS, d.length)
  | (.take k :: es, out) =>
    if d.length ≤ k then some ((es, out ++ d), SUCCESS, d.length) else some ((es, out ++ d.take k), SUCCESS, k)
  | (.again :: es, out) => some ((es, out), ERROR_PSOCK_WRITE_WOULD_BLOCK, d.length)
  | (.err :: es, out) => some ((es, out), ERROR_PSOCK_WRITE_GENERAL, d.length)

/-- the loop of `psock_wrap_async_read` (src/psock/psock_wrap_async_read.c:70-115); `acc` are the
bytes stored so far, so `*size` is their number -/
def waLoop (rd : Reader σ) (blk : σ → Option (σ × Status)) (block : Bool) :
    Nat → σ → Nat → List Byte → Option (σ × Status × List Byte)
  | 0, _, _, _ => none
  | fuel + 1, s, n, acc =>
    if n = 0 then some (s, SUCCESS, acc)
    else
      match rd s n block with
      | none => none
      | some (s, st, d) =>
        if st = ERROR_PSOCK_READ_WOULD_BLOCK ∧ block = true then
          match blk s with
          | none => none
          | some (s, bst) => if bst ≠ SUCCESS then some (s, bst, acc) else waLoop rd blk block fuel s n acc
        else if st = ERROR_PSOCK_READ_WOULD_BLOCK ∧ block = false then
          if acc.length > 0 then some (s, SUCCESS, acc) else some (s, st, acc)
        else if st ≠ SUCCESS then some (s, st, acc)
        else if d.length = 0 then some (s, ERROR_PSOCK_READ_EOF, acc)
        else if d.length > n then none
        else waLoop rd blk block fuel s (n - d.length) (acc ++ d)

/-- `psock_wrap_async_read` (src/psock/psock_wrap_async_read.c:38-116) -/
def waRead (rd : Reader σ) (blk : σ → Option (σ × Status)) (fuel : Nat) : Reader σ :=
  fun s n block => waLoop rd blk block fuel s n []

/-- the loop of `psock_wrap_async_write` (src/psock/psock_wrap_async_write.c:70-105); `d` is what is
still to be sent, `size` is the value of `*size` -/
def waWLoop (wr : Writer σ) (blk : σ → Option (σ × Status)) (size : Nat) :
    Nat → σ → List Byte → Option (σ × Status × Nat)
  | 0, _, _ => none
  | fuel + 1, s, d =>
    if d.length = 0 then some (s, SUCCESS, size)
    else
      match wr s d with
      | none => none
      | some (s, st, n) =>
        if st = ERROR_PSOCK_WRITE_WOULD_BLOCK then
          match blk s with
          | none => none
          | some (s, bst) => if bst ≠ SUCCESS then some (s, bst, size) else waWLoop wr blk size fuel s d
        else if st ≠ SUCCESS then some (s, st, size - d.length)
        else if n = 0 then some (s, ERROR_PSOCK_WRITE_EOF, size)
        else if n > d.length then none
        else waWLoop wr blk size fuel s (d.drop n)

/-- `psock_wrap_async_write` (src/psock/psock_wrap_async_write.c:39-106) -/
def waWrite (wr : Writer σ) (blk : σ → Option (σ × Status)) (fuel : Nat) : Writer σ :=
  fun s d => waWLoop wr blk d.length fuel s d

/-! ### What is assumed of a wrapped socket -/

/-- a read that fails has taken nothing from the stream -/
def Lossless (rd : Reader σ) (Ok : σ → Prop) : Prop :=
  ∀ s n b s' st d, Ok s → rd s n b = some (s', st, d) → st ≠ SUCCESS → d = []

/-- a write that fails has sent nothing -/
def LosslessW (wr : Writer σ) (Ok : σ → Prop) (out : σ → List Byte) : Prop :=
  ∀ s d s' st n, Ok s → wr s d = some (s', st, n) → st ≠ SUCCESS → Ok s' ∧ out s' = out s

/-- waiting takes nothing from the stream -/
def WaitKeeps {τ : Type} (blk : σ → Option (σ × Status)) (Ok : σ → Prop) (rest : σ → τ) : Prop :=
  ∀ s s' st, Ok s → blk s = some (s', st) → Ok s' ∧ rest s' = rest s

/-- While bytes are still to come, a read yields some or asks to wait, waiting succeeds, and there
are at most `mu s` waits ahead. -/
def Schedule (rd : Reader σ) (blk : σ → Option (σ × Status)) (Ok : σ → Prop) (rest : σ → List Byte)
    (mu : σ → Nat) : Prop :=
  ∀ s n, Ok s → 0 < n → rest s ≠ [] →
    (∃ s' d, rd s n true = some (s', SUCCESS, d) ∧ d ≠ [] ∧ mu s' ≤ mu s) ∨
    (∃ s' s'', rd s n true = some (s', ERROR_PSOCK_READ_WOULD_BLOCK, []) ∧ blk s' = some (s'', SUCCESS) ∧
      mu s'' < mu s)

/-- A write takes some bytes or asks to wait, waiting succeeds, and there are at most `mu s` waits
ahead. -/
def ScheduleW (wr : Writer σ) (blk : σ → Option (σ × Status)) (Ok : σ → Prop) (mu : σ → Nat) : Prop :=
  ∀ s d, Ok s → d ≠ [] →
    (∃ s' n, wr s d = some (s', SUCCESS, n) ∧ 0 < n ∧ mu s' ≤ mu s) ∨
    (∃ s' s'' n, wr s d = some (s', ERROR_PSOCK_WRITE_WOULD_BLOCK, n) ∧ blk s' = some (s'', SUCCESS) ∧
      mu s'' < mu s)

/-! ### Reading -/

theorem waLoop_sound {rd : Reader σ} {blk : σ → Option (σ × Status)} {Ok : σ → Prop}
    {rest : σ → List Byte} (R : StreamReader rd Ok rest) (L : Lossless rd Ok) (B : WaitKeeps blk Ok rest)
    (block : Bool) : ∀ (fuel : Nat) (s : σ) (n : Nat) (acc : List Byte) (s' : σ) (st : Status) (d : List Byte),
      Ok s → waLoop rd blk block fuel s n acc = some (s', st, d) →
      ∃ e, d = acc ++ e ∧ e.length ≤ n ∧ rest s = e ++ rest s' ∧ Ok s' ∧
        (st = SUCCESS → block = true → e.length = n) := by
  have hw : ERROR_PSOCK_READ_WOULD_BLOCK ≠ SUCCESS := by decide
  have he : ERROR_PSOCK_READ_EOF ≠ SUCCESS := by decide
  intro fuel
  induction fuel with
  | zero => intro s n acc s' st d _ h; simp [waLoop] at h
  | succ fuel ih =>
    intro s n acc s' st d hs h
    unfold waLoop at h
    by_cases hn : n = 0
    · rw [if_pos hn] at h
      simp only [Option.some.injEq, Prod.mk.injEq] at h
      obtain ⟨rfl, rfl, rfl⟩ := h
      exact ⟨[], by simp, by simp, by simp, hs, fun _ _ => by simp [hn]⟩
    rw [if_neg hn] at h
    rcases h1 : rd s n block with _ | ⟨s1, st1, d1⟩
    · simp [h1] at h
    simp only [h1] at h
    obtain ⟨o1, o2, o3⟩ := R.step _ _ _ _ _ _ hs h1
    by_cases hwb : st1 = ERROR_PSOCK_READ_WOULD_BLOCK
    · subst hwb
      have hd := L _ _ _ _ _ _ hs h1 hw
      subst hd
      rw [List.nil_append] at o3
      cases block with
      | true =>
        rw [if_pos ⟨rfl, rfl⟩] at h
        rcases h2 : blk s1 with _ | ⟨s2, bst⟩
        · simp [h2] at h
        simp only [h2] at h
        obtain ⟨b1, b2⟩ := B _ _ _ o1 h2
        by_cases hb : bst = SUCCESS
        · rw [if_neg (by simp [hb])] at h
          obtain ⟨e, e1, e2, e3, e4, e5⟩ := ih _ _ _ _ _ _ b1 h
          exact ⟨e, e1, e2, by rw [o3, ← b2, e3], e4, e5⟩
        · rw [if_pos hb] at h
          simp only [Option.some.injEq, Prod.mk.injEq] at h
          obtain ⟨rfl, rfl, rfl⟩ := h
          exact ⟨[], by simp, by simp, by simp [o3, b2], b1, fun h => absurd h hb⟩
      | false =>
        rw [if_neg (by simp), if_pos ⟨rfl, rfl⟩] at h
        split at h
        · simp only [Option.some.injEq, Prod.mk.injEq] at h
          obtain ⟨rfl, rfl, rfl⟩ := h
          exact ⟨[], by simp, by simp, by simp [o3], o1, fun _ h => absurd h (by simp)⟩
        · simp only [Option.some.injEq, Prod.mk.injEq] at h
          obtain ⟨rfl, rfl, rfl⟩ := h
          exact ⟨[], by simp, by simp, by simp [o3], o1, fun _ h => absurd h (by simp)⟩
    · rw [if_neg (by simp [hwb]), if_neg (by simp [hwb])] at h
      by_cases hst : st1 = SUCCESS
      · rw [if_neg (by simp [hst])] at h
        by_cases hd0 : d1.length = 0
        · rw [if_pos hd0] at h
          simp only [Option.some.injEq, Prod.mk.injEq] at h
          obtain ⟨rfl, rfl, rfl⟩ := h
          have : d1 = [] := List.eq_nil_of_length_eq_zero hd0
          subst this
          exact ⟨[], by simp, by simp, o3, o1, fun h => absurd h he⟩
        · rw [if_neg hd0, if_neg (by omega)] at h
          obtain ⟨e, e1, e2, e3, e4, e5⟩ := ih _ _ _ _ _ _ o1 h
          refine ⟨d1 ++ e, by rw [e1, List.append_assoc], by rw [List.length_append]; omega,
            by rw [o3, e3, List.append_assoc], e4, fun a b => ?_⟩
          have := e5 a b
          rw [List.length_append]; omega
      · rw [if_pos hst] at h
        simp only [Option.some.injEq, Prod.mk.injEq] at h
        obtain ⟨rfl, rfl, rfl⟩ := h
        have hd := L _ _ _ _ _ _ hs h1 hst
        subst hd
        exact ⟨[], by simp, by simp, o3, o1, fun h => absurd h hst⟩

/-- more fuel does not change a result -/
theorem waLoop_mono (rd : Reader σ) (blk : σ → Option (σ × Status)) (block : Bool) :
    ∀ (fuel : Nat) (s : σ) (n : Nat) (acc : List Byte) (r : σ × Status × List Byte),
      waLoop rd blk block fuel s n acc = some r → ∀ more, waLoop rd blk block (fuel + more) s n acc = some r := by
  intro fuel
  induction fuel with
  | zero => intro s n acc r h; simp [waLoop] at h
  | succ fuel ih =>
    intro s n acc r h more
    rw [show fuel + 1 + more = (fuel + more) + 1 by omega]
    unfold waLoop at h ⊢
    by_cases hn : n = 0
    · rw [if_pos hn] at h ⊢; exact h
    rw [if_neg hn] at h ⊢
    rcases h1 : rd s n block with _ | ⟨s1, st1, d1⟩
    · simp [h1] at h
    simp only [h1] at h ⊢
    split
    · rename_i hc
      rw [if_pos hc] at h
      rcases h2 : blk s1 with _ | ⟨s2, bst⟩
      · simp [h2] at h
      simp only [h2] at h ⊢
      split
      · rename_i hb; rw [if_pos hb] at h; exact h
      · rename_i hb; rw [if_neg hb] at h; exact ih _ _ _ _ h more
    · rename_i hc
      rw [if_neg hc] at h
      split
      · rename_i hc; rw [if_pos hc] at h; exact h
      · rename_i hc; rw [if_neg hc] at h
        split
        · rename_i hc; rw [if_pos hc] at h; exact h
        · rename_i hc; rw [if_neg hc] at h
          split
          · rename_i hc; rw [if_pos hc] at h; exact h
          · rename_i hc; rw [if_neg hc] at h
            split
            · rename_i hc; rw [if_pos hc] at h; exact h
            · rename_i hc; rw [if_neg hc] at h
              exact ih _ _ _ _ h more

theorem waLoop_full {rd : Reader σ} {blk : σ → Option (σ × Status)} {Ok : σ → Prop}
    {rest : σ → List Byte} {mu : σ → Nat} (R : StreamReader rd Ok rest) (B : WaitKeeps blk Ok rest)
    (S : Schedule rd blk Ok rest mu) :
    ∀ (fuel : Nat) (s : σ) (n : Nat) (acc : List Byte), Ok s → n ≤ (rest s).length → n + mu s < fuel →
      ∃ s' d, waLoop rd blk true fuel s n acc = some (s', SUCCESS, d) := by
  intro fuel
  induction fuel with
  | zero => intro s n acc _ _ h; omega
  | succ fuel ih =>
    intro s n acc hs hn hf
    unfold waLoop
    by_cases hn0 : n = 0
    · exact ⟨s, acc, by simp [hn0]⟩
    rw [if_neg hn0]
    have hr : rest s ≠ [] := by intro h; rw [h] at hn; simp at hn; omega
    rcases S s n hs (by omega) hr with ⟨s1, d, h1, h2, h3⟩ | ⟨s1, s2, h1, h2, h3⟩
    · obtain ⟨o1, o2, o3⟩ := R.step _ _ _ _ _ _ hs h1
      have hl : 0 < d.length := List.length_pos_iff.2 h2
      simp only [h1]
      rw [if_neg (by rw [not_and]; intro h; exact absurd h (by decide)),
        if_neg (by rw [not_and]; intro h; exact absurd h (by decide)),
        if_neg (by simp), if_neg (by omega), if_neg (by omega)]
      refine ih s1 _ _ o1 ?_ ?_
      · rw [o3, List.length_append] at hn; omega
      · omega
    · obtain ⟨o1, o2, o3⟩ := R.step _ _ _ _ _ _ hs h1
      obtain ⟨b1, b2⟩ := B _ _ _ o1 h2
      simp only [h1]
      rw [if_pos ⟨trivial, trivial⟩]
      simp only [h2, ne_eq, not_true, if_false]
      refine ih s2 n acc b1 ?_ (by omega)
      rw [b2]; rw [List.nil_append] at o3; rw [← o3]; exact hn

/-! ### Writing -/

theorem waWLoop_sound {wr : Writer σ} {blk : σ → Option (σ × Status)} {Ok : σ → Prop}
    {out : σ → List Byte} (W : StreamWriter wr Ok out) (L : LosslessW wr Ok out)
    (B : WaitKeeps blk Ok out) (size : Nat) :
    ∀ (fuel : Nat) (s : σ) (d : List Byte) (s' : σ) (st : Status) (n : Nat),
      Ok s → waWLoop wr blk size fuel s d = some (s', st, n) →
      ∃ k, k ≤ d.length ∧ out s' = out s ++ d.take k ∧ Ok s' ∧ (st = SUCCESS → k = d.length ∧ n = size) ∧
        (n = size ∨ n = size - (d.length - k)) := by
  have hw : ERROR_PSOCK_WRITE_WOULD_BLOCK ≠ SUCCESS := by decide
  have he : ERROR_PSOCK_WRITE_EOF ≠ SUCCESS := by decide
  intro fuel
  induction fuel with
  | zero => intro s d s' st n _ h; simp [waWLoop] at h
  | succ fuel ih =>
    intro s d s' st n hs h
    unfold waWLoop at h
    by_cases hd0 : d.length = 0
    · rw [if_pos hd0] at h
      simp only [Option.some.injEq, Prod.mk.injEq] at h
      obtain ⟨rfl, rfl, rfl⟩ := h
      exact ⟨0, by omega, by simp, hs, fun _ => ⟨by omega, rfl⟩, Or.inl rfl⟩
    rw [if_neg hd0] at h
    rcases h1 : wr s d with _ | ⟨s1, st1, n1⟩
    · simp [h1] at h
    simp only [h1] at h
    by_cases hwb : st1 = ERROR_PSOCK_WRITE_WOULD_BLOCK
    · subst hwb
      obtain ⟨l1, l2⟩ := L _ _ _ _ _ hs h1 hw
      rw [if_pos rfl] at h
      rcases h2 : blk s1 with _ | ⟨s2, bst⟩
      · simp [h2] at h
      simp only [h2] at h
      obtain ⟨b1, b2⟩ := B _ _ _ l1 h2
      by_cases hb : bst = SUCCESS
      · rw [if_neg (by simp [hb])] at h
        obtain ⟨k, k1, k2, k3⟩ := ih _ _ _ _ _ b1 h
        exact ⟨k, k1, by rw [k2, b2, l2], k3⟩
      · rw [if_pos hb] at h
        simp only [Option.some.injEq, Prod.mk.injEq] at h
        obtain ⟨rfl, rfl, rfl⟩ := h
        exact ⟨0, by omega, by simp [b2, l2], b1, fun h => absurd h hb, Or.inl rfl⟩
    · rw [if_neg hwb] at h
      by_cases hst : st1 = SUCCESS
      · subst hst
        obtain ⟨o1, o2, o3⟩ := W.step _ _ _ _ hs h1
        rw [if_neg (by simp)] at h
        by_cases hn0 : n1 = 0
        · rw [if_pos hn0] at h
          simp only [Option.some.injEq, Prod.mk.injEq] at h
          obtain ⟨rfl, rfl, rfl⟩ := h
          subst hn0
          exact ⟨0, by omega, o3, o1, fun h => absurd h he, Or.inl rfl⟩
        · rw [if_neg hn0, if_neg (by omega)] at h
          obtain ⟨k, k1, k2, k3, k4, k5⟩ := ih _ _ _ _ _ o1 h
          rw [List.length_drop] at k1 k4 k5
          refine ⟨n1 + k, by omega, ?_, k3, fun h => ⟨by have := (k4 h).1; omega, (k4 h).2⟩, ?_⟩
          · rw [k2, o3, List.append_assoc, List.take_add]
          · rcases k5 with h | h
            · exact Or.inl h
            · right; rw [h]; omega
      · rw [if_pos hst] at h
        simp only [Option.some.injEq, Prod.mk.injEq] at h
        obtain ⟨rfl, rfl, rfl⟩ := h
        obtain ⟨l1, l2⟩ := L _ _ _ _ _ hs h1 hst
        exact ⟨0, by omega, by simp [l2], l1, fun h => absurd h hst, Or.inr rfl⟩

theorem waWLoop_full {wr : Writer σ} {blk : σ → Option (σ × Status)} {Ok : σ → Prop}
    {out : σ → List Byte} {mu : σ → Nat} (W : StreamWriter wr Ok out) (L : LosslessW wr Ok out)
    (B : WaitKeeps blk Ok out) (S : ScheduleW wr blk Ok mu) (size : Nat) :
    ∀ (fuel : Nat) (s : σ) (d : List Byte), Ok s → d.length + mu s < fuel →
      ∃ s', waWLoop wr blk size fuel s d = some (s', SUCCESS, size) := by
  intro fuel
  induction fuel with
  | zero => intro s d _ h; omega
  | succ fuel ih =>
    intro s d hs hf
    unfold waWLoop
    by_cases hd0 : d.length = 0
    · exact ⟨s, by simp [hd0]⟩
    rw [if_neg hd0]
    rcases S s d hs (by intro h; simp [h] at hd0) with ⟨s1, n, h1, h2, h3⟩ | ⟨s1, s2, n, h1, h2, h3⟩
    · obtain ⟨o1, o2, o3⟩ := W.step _ _ _ _ hs h1
      simp only [h1]
      rw [if_neg (by decide), if_neg (by simp), if_neg (by omega), if_neg (by omega)]
      exact ih s1 _ o1 (by rw [List.length_drop]; omega)
    · obtain ⟨l1, l2⟩ := L _ _ _ _ _ hs h1 (by decide)
      obtain ⟨b1, b2⟩ := B _ _ _ l1 h2
      simp only [h1]
      rw [if_pos trivial]
      simp only [h2, ne_eq, not_true, if_false]
      exact ih s2 d b1 (by omega)

/-! ### Scripted descriptors meet the assumptions -/

def fdRest : List REv → List Byte
  | [] => []
  | .chunk d :: es => d ++ fdRest es
  | _ :: es => fdRest es

/-- number of `EAGAIN` answers ahead -/
def fdWaits : List REv → Nat
  | [] => 0
  | .again :: es => fdWaits es + 1
  | _ :: es => fdWaits es

theorem fdRead_stream : StreamReader fdRead (fun _ => True) fdRest := by
  constructor
  · intro s n b _
    unfold fdRead
    split
    · rfl
    · split <;> rfl
    · rfl
    · rfl
  · intro s n b s' st d _ h
    unfold fdRead at h
    split at h
    · simp only [Option.some.injEq, Prod.mk.injEq] at h
      obtain ⟨rfl, rfl, rfl⟩ := h; simp [fdRest]
    · split at h
      · simp only [Option.some.injEq, Prod.mk.injEq] at h
        obtain ⟨rfl, rfl, rfl⟩ := h
        refine ⟨trivial, by assumption, rfl⟩
      · simp only [Option.some.injEq, Prod.mk.injEq] at h
        obtain ⟨rfl, rfl, rfl⟩ := h
        refine ⟨trivial, by rw [List.length_take]; omega, ?_⟩
        simp [fdRest, ← List.append_assoc]
    · simp only [Option.some.injEq, Prod.mk.injEq] at h
      obtain ⟨rfl, rfl, rfl⟩ := h; simp [fdRest]
    · simp only [Option.some.injEq, Prod.mk.injEq] at h
      obtain ⟨rfl, rfl, rfl⟩ := h; simp [fdRest]

theorem fdRead_lossless : Lossless fdRead (fun _ => True) := by
  intro s n b s' st d _ h hst
  unfold fdRead at h
  split at h
  · simp only [Option.some.injEq, Prod.mk.injEq] at h
    exact h.2.2.symm
  · split at h <;>
    · simp only [Option.some.injEq, Prod.mk.injEq] at h
      exact absurd h.2.1.symm hst
  · simp only [Option.some.injEq, Prod.mk.injEq] at h
    exact h.2.2.symm
  · simp only [Option.some.injEq, Prod.mk.injEq] at h
    exact h.2.2.symm

/-- no errors and no end of file in the middle -/
def Healthy (es : List REv) : Prop := ∀ e ∈ es, e ≠ .err ∧ e ≠ .chunk []

theorem fdRead_ok : StreamReader fdRead Healthy fdRest := by
  refine ⟨fun s n b _ => fdRead_stream.total s n b trivial, ?_⟩
  intro s n b s' st d hs h
  obtain ⟨_, h2, h3⟩ := fdRead_stream.step s n b s' st d trivial h
  refine ⟨?_, h2, h3⟩
  unfold fdRead at h
  split at h
  · simp only [Option.some.injEq, Prod.mk.injEq] at h
    rw [← h.1]; exact hs
  · split at h
    · simp only [Option.some.injEq, Prod.mk.injEq] at h
      rw [← h.1]; exact fun e he => hs e (List.mem_cons_of_mem _ he)
    · rename_i hl
      simp only [Option.some.injEq, Prod.mk.injEq] at h
      rw [← h.1]
      intro e he
      rcases List.mem_cons.1 he with rfl | he
      · refine ⟨by simp, ?_⟩
        intro h
        simp only [REv.chunk.injEq, List.drop_eq_nil_iff] at h
        omega
      · exact hs e (List.mem_cons_of_mem _ he)
  · simp only [Option.some.injEq, Prod.mk.injEq] at h
    rw [← h.1]; exact fun e he => hs e (List.mem_cons_of_mem _ he)
  · simp only [Option.some.injEq, Prod.mk.injEq] at h
    rw [← h.1]; exact fun e he => hs e (List.mem_cons_of_mem _ he)

/-- waiting for a scripted descriptor always succeeds -/
def fdWait {τ : Type} : τ → Option (τ × Status) := fun s => some (s, SUCCESS)

theorem fdWait_keeps {τ υ : Type} (Ok : τ → Prop) (rest : τ → υ) : WaitKeeps fdWait Ok rest := by
  intro s s' st hs h
  simp only [fdWait, Option.some.injEq, Prod.mk.injEq] at h
  rw [← h.1]; exact ⟨hs, rfl⟩

theorem fdRead_schedule : Schedule fdRead fdWait Healthy fdRest fdWaits := by
  intro s n hs hn hr
  cases s with
  | nil => exact absurd rfl hr
  | cons e es =>
    cases e with
    | chunk d =>
      left
      have hd : d ≠ [] := fun h => (hs _ List.mem_cons_self).2 (by rw [h])
      unfold fdRead
      simp only
      split
      · exact ⟨_, _, rfl, hd, Nat.le_refl _⟩
      · refine ⟨_, _, rfl, ?_, Nat.le_refl _⟩
        simp; exact ⟨by omega, hd⟩
    | again => exact Or.inr ⟨_, _, rfl, rfl, by simp [fdWaits]⟩
    | err => exact absurd rfl (hs _ List.mem_cons_self).1

def wWaits : List WEv → Nat
  | [] => 0
  | .again :: es => wWaits es + 1
  | _ :: es => wWaits es

theorem fdWrite_stream : StreamWriter fdWrite (fun _ => True) (·.2) := by
  constructor
  · intro s d _
    unfold fdWrite
    split
    · rfl
    · split <;> rfl
    · rfl
    · rfl
  · intro s d s' n _ h
    unfold fdWrite at h
    split at h
    · simp only [Option.some.injEq, Prod.mk.injEq] at h
      obtain ⟨rfl, _, rfl⟩ := h; simp
    · split at h
      · simp only [Option.some.injEq, Prod.mk.injEq] at h
        obtain ⟨rfl, _, rfl⟩ := h; simp
      · simp only [Option.some.injEq, Prod.mk.injEq] at h
        obtain ⟨rfl, _, rfl⟩ := h
        exact ⟨trivial, by omega, rfl⟩
    · simp only [Option.some.injEq, Prod.mk.injEq] at h
      exact absurd h.2.1 (by decide)
    · simp only [Option.some.injEq, Prod.mk.injEq] at h
      exact absurd h.2.1 (by decide)

theorem fdWrite_lossless : LosslessW fdWrite (fun _ => True) (·.2) := by
  intro s d s' st n _ h hst
  unfold fdWrite at h
  split at h
  · simp only [Option.some.injEq, Prod.mk.injEq] at h
    exact absurd h.2.1.symm hst
  · split at h <;>
    · simp only [Option.some.injEq, Prod.mk.injEq] at h
      exact absurd h.2.1.symm hst
  · simp only [Option.some.injEq, Prod.mk.injEq] at h
    obtain ⟨rfl, _⟩ := h; simp
  · simp only [Option.some.injEq, Prod.mk.injEq] at h
    obtain ⟨rfl, _⟩ := h; simp

/-- no errors and no refusals -/
def HealthyW (s : List WEv × List Byte) : Prop := ∀ e ∈ s.1, e ≠ .err ∧ e ≠ .take 0

theorem fdWrite_healthy {s s' : List WEv × List Byte} {d : List Byte} {st : Status} {n : Nat}
    (hs : HealthyW s) (h : fdWrite s d = some (s', st, n)) : HealthyW s' := by
  unfold fdWrite at h
  split at h
  · simp only [Option.some.injEq, Prod.mk.injEq] at h
    rw [← h.1]; intro e he; simp at he
  · split at h <;>
    · simp only [Option.some.injEq, Prod.mk.injEq] at h
      rw [← h.1]; exact fun e he => hs e (List.mem_cons_of_mem _ he)
  · simp only [Option.some.injEq, Prod.mk.injEq] at h
    rw [← h.1]; exact fun e he => hs e (List.mem_cons_of_mem _ he)
  · simp only [Option.some.injEq, Prod.mk.injEq] at h
    rw [← h.1]; exact fun e he => hs e (List.mem_cons_of_mem _ he)

theorem fdWrite_ok : StreamWriter fdWrite HealthyW (·.2) := by
  refine ⟨fun s d _ => fdWrite_stream.total s d trivial, ?_⟩
  intro s d s' n hs h
  obtain ⟨_, h2, h3⟩ := fdWrite_stream.step s d s' n trivial h
  exact ⟨fdWrite_healthy hs h, h2, h3⟩

theorem fdWrite_ok_lossless : LosslessW fdWrite HealthyW (·.2) := by
  intro s d s' st n hs h hst
  exact ⟨fdWrite_healthy hs h, (fdWrite_lossless s d s' st n trivial h hst).2⟩

theorem fdWrite_schedule : ScheduleW fdWrite fdWait HealthyW (fun s => wWaits s.1) := by
  intro s d hs hd
  have hl : 0 < d.length := List.length_pos_iff.2 hd
  obtain ⟨es, out⟩ := s
  cases es with
  | nil => exact Or.inl ⟨_, _, rfl, hl, Nat.le_refl _⟩
  | cons e es =>
    cases e with
    | take k =>
      left
      have hk : k ≠ 0 := fun h => (hs _ List.mem_cons_self).2 (by rw [h])
      unfold fdWrite
      simp only
      split
      · exact ⟨_, _, rfl, hl, Nat.le_refl _⟩
      · exact ⟨_, _, rfl, by omega, Nat.le_refl _⟩
    | again => exact Or.inr ⟨_, _, _, rfl, rfl, by simp [wWaits]⟩
    | err => exact absurd rfl (hs _ List.mem_cons_self).1

end Rcpr.Psock
