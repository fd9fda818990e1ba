import Verif.VtableSpec

/-!
C71: the run-time check of vtable pointers.
-/
namespace Rcpr.Vtable

open Rcpr

/-! ### Helpers -/

theorem sle_iff {a b : Word} (ha : a.toNat < 2 ^ 63) (hb : b.toNat < 2 ^ 63) :
    a.sle b = true ↔ a.toNat ≤ b.toNat := by
  rw [BitVec.sle_iff_toInt_le, BitVec.toInt_eq_toNat_cond, BitVec.toInt_eq_toNat_cond]
  simp only [if_pos (show 2 * a.toNat < 2 ^ 64 by omega), if_pos (show 2 * b.toNat < 2 ^ 64 by omega)]
  omega

/-- The signed comparison with a section in the lower half is the comparison of addresses. -/
theorem rangeValid_iff {c : Cfg} (he : c.enforce = true) (ho : c.start.toNat ≤ c.stop.toNat)
    (hu : c.stop.toNat < 2 ^ 63) (p : Word) :
    rangeValid c p = true ↔ c.start.toNat ≤ p.toNat ∧ p.toNat ≤ c.stop.toNat := by
  simp only [rangeValid, if_pos he, Bool.and_eq_true]
  by_cases hp : p.toNat < 2 ^ 63
  · rw [sle_iff (by omega) hp, sle_iff hp hu]
  · constructor
    · rintro ⟨h, -⟩
      rw [BitVec.sle_iff_toInt_le, BitVec.toInt_eq_toNat_cond, BitVec.toInt_eq_toNat_cond] at h
      rw [if_pos (by omega), if_neg (by omega)] at h
      have := p.isLt
      omega
    · omega

/-- What an entry point does once the pointer has passed. -/
def Entry.go (e : Entry) (m : Mem) (vt : Word) : Out :=
  load m (vt + BitVec.ofNat 64 (8 * e.slot)) fun f =>
    match e.undefined with
    | none => .call f
    | some st => if f = 0 then .ret st else .call f

theorem run_eq (e : Entry) (c : Cfg) (m : Mem) (r vt : Word) (h : m r = some vt) :
    e.run c m r = checked c vt (e.go m vt) := by
  cases e <;>
    simp [Entry.run, Entry.go, Entry.slot, Entry.undefined, resourceRelease, allocatorAllocate,
      allocatorReclaim, allocatorReallocate, allocatorControl, psockRead, psockWrite, psockAccept,
      psockSetsockopt, psockSendmsg, psockRecvmsg, resourceVtableRead, optional, load, h, ALLOCATE, RECLAIM,
      REALLOCATE, CONTROL, READ, WRITE, ACCEPT, SENDMSG, RECVMSG, SETSOCKOPT]

theorem slot_lt (e : Entry) : e.slot < 7 := by cases e <;> decide

theorem addr_eq {vt : Word} {n : Nat} : vt + BitVec.ofNat 64 n = BitVec.ofNat 64 (vt.toNat + n) := by
  apply BitVec.eq_of_toNat_eq
  simp [BitVec.toNat_add]

/-! ### Property C71 -/

/-- An object with a genuine table is never refused: in every build, the entry point calls the member of the
table that it names, or answers as documented if that member is NULL. -/
theorem genuine_calls {c : Cfg} {m : Mem} {ts : List Table} (L : Layout c m ts) {t : Table} (ht : t ∈ ts)
    (e : Entry) {r vt f : Word} (hr : m r = some vt) (hb : vt.toNat = t.base)
    (hf : t.methods[e.slot]? = some f) :
    (f ≠ 0 → e.run c m r = .call f) ∧
      (f = 0 → ∀ st, e.undefined = some st → e.run c m r = .ret st) ∧
      (e.undefined = none → e.run c m r = .call f) := by
  have hin := L.inside t ht
  have hv : rangeValid c vt = true := by
    cases he : c.enforce
    · simp [rangeValid, he]
    · rw [rangeValid_iff he L.order L.user]
      have : t.methods.length ≠ 0 := by simpa using hin.2.2
      omega
  have hs : m (vt + BitVec.ofNat 64 (8 * e.slot)) = some f := by
    rw [addr_eq, hb]
    exact L.stored t ht _ _ hf
  have hg : e.run c m r = e.go m vt := by
    rw [run_eq e c m r vt hr]
    simp [checked, hv]
  rw [hg]
  simp only [Entry.go, load, hs]
  refine ⟨?_, ?_, ?_⟩
  · intro h0
    cases e.undefined
    · rfl
    · exact if_neg h0
  · intro h0 st hst
    simp [hst, h0]
  · intro hn
    simp [hn]

/-- A pointer outside the section is refused, in every memory: nothing is read through it and nothing is
called. -/
theorem outside_refused {c : Cfg} (ha : c.armed) (ho : c.start.toNat ≤ c.stop.toNat)
    (hu : c.stop.toNat < 2 ^ 63) (e : Entry) {m : Mem} {r vt : Word} (hr : m r = some vt)
    (hout : vt.toNat < c.start.toNat ∨ c.stop.toNat < vt.toNat) :
    e.run c m r = c.refusal := by
  have hv : rangeValid c vt = false := by
    have := rangeValid_iff ha.1 ho hu vt
    cases h : rangeValid c vt
    · rfl
    · have := this.1 h
      omega
  rw [run_eq e c m r vt hr]
  simp only [checked, hv, Bool.not_false, if_true, checkError, Cfg.refusal]
  cases hc : c.checkAssert
  · simp
  · simp [ha.2 hc]

/-- On a refused allocation the caller's pointer has been set to NULL; otherwise it is left to the method. -/
theorem refused_allocation_is_null {c : Cfg} (ha : c.armed) (ho : c.start.toNat ≤ c.stop.toNat)
    (hu : c.stop.toNat < 2 ^ 63) {m : Mem} {a vt : Word} (hr : m a = some vt) :
    (vt.toNat < c.start.toNat ∨ c.stop.toNat < vt.toNat → (allocatorAllocate c m a).2 = some 0) ∧
      (c.start.toNat ≤ vt.toNat → vt.toNat ≤ c.stop.toNat → (allocatorAllocate c m a).2 = none) := by
  have h := rangeValid_iff ha.1 ho hu vt
  simp only [allocatorAllocate, hr]
  constructor
  · intro hout
    have : rangeValid c vt = false := by
      cases h' : rangeValid c vt
      · rfl
      · have := h.1 h'
        omega
    simp [this]
  · intro h1 h2
    simp [h.2 ⟨h1, h2⟩]

/-- The part of the promise that holds of every object: a call happens only if the pointer lies between the two
ends of the section, and goes to the word at the named distance from it. If that word is one of the section's
words, the callee is a method of some table of the section or NULL.
Missing: the pointer need not point to a table, nor the word lie in the section (see the four refutations
below). -/
theorem called_word_partial {c : Cfg} (ha : c.armed) {m : Mem} {ts : List Table} (L : Layout c m ts)
    (e : Entry) {r vt f : Word} (hr : m r = some vt) (hcall : e.run c m r = .call f) :
    c.start.toNat ≤ vt.toNat ∧ vt.toNat ≤ c.stop.toNat ∧
      m (BitVec.ofNat 64 (vt.toNat + 8 * e.slot)) = some f ∧
      (vt.toNat % 8 = 0 → vt.toNat + 8 * e.slot < c.stop.toNat → f = 0 ∨ ∃ t ∈ ts, f ∈ t.methods) := by
  have hin : c.start.toNat ≤ vt.toNat ∧ vt.toNat ≤ c.stop.toNat := by
    by_cases h : vt.toNat < c.start.toNat ∨ c.stop.toNat < vt.toNat
    · rw [outside_refused ha L.order L.user e hr h] at hcall
      unfold Cfg.refusal at hcall
      split at hcall <;> cases hcall
    · omega
  have hv := (rangeValid_iff ha.1 L.order L.user vt).2 hin
  rw [run_eq e c m r vt hr] at hcall
  simp only [checked, hv, Bool.not_true, Bool.false_eq_true, if_false, Entry.go, load] at hcall
  have hw : m (BitVec.ofNat 64 (vt.toNat + 8 * e.slot)) = some f := by
    rw [← addr_eq]
    split at hcall
    · cases hcall
    · rename_i w hw
      rw [hw]
      split at hcall
      · cases hcall
        rfl
      · split at hcall
        · cases hcall
        · cases hcall
          rfl
  refine ⟨hin.1, hin.2, hw, ?_⟩
  intro hal hlt
  rcases L.covers (vt.toNat + 8 * e.slot) (by omega) (by omega) hlt with ⟨t, ht, h1, h2⟩ | h0
  · right
    refine ⟨t, ht, ?_⟩
    have ha8 := L.aligned t ht
    obtain ⟨i, hi⟩ : ∃ i, vt.toNat + 8 * e.slot = t.base + 8 * i :=
      ⟨(vt.toNat + 8 * e.slot - t.base) / 8, by omega⟩
    have hlen : i < t.methods.length := by omega
    have hget : t.methods[i]? = some t.methods[i] := List.getElem?_eq_getElem hlen
    have := L.stored t ht i _ hget
    rw [← hi, hw] at this
    rw [Option.some.inj this]
    exact List.getElem_mem hlen
  · left
    rw [hw] at h0
    exact Option.some.inj h0

/-- When the check is an assertion (the default of the build, CMakeLists.txt:20) and assertions are compiled out
with NDEBUG, the check has no effect: every entry point does exactly what it does with enforcement off. -/
theorem assertion_without_effect (c : Cfg) (h1 : c.checkAssert = true) (h2 : c.ndebug = true) (e : Entry)
    (m : Mem) (r : Word) : e.run c m r = e.run { c with enforce := false } m r := by
  cases hr : m r with
  | none => cases e <;> simp [Entry.run, resourceRelease, allocatorAllocate, allocatorReclaim,
      allocatorReallocate, allocatorControl, psockRead, psockWrite, psockAccept, psockSetsockopt, psockSendmsg,
      psockRecvmsg, resourceVtableRead, load, hr]
  | some vt =>
    rw [run_eq e c m r vt hr, run_eq e _ m r vt hr]
    simp [checked, checkError, h1, h2, rangeValid]

/-! ### Refutations -/

/-- A section with one psock table and one resource table, at 4096. -/
def demo (en ca nd : Bool) : Cfg := ⟨en, ca, nd, 4096, 4096 + 72⟩

def demoTables : List Table := [⟨4096, [10, 11, 12, 13, 14, 15, 16, 17]⟩, ⟨4160, [20]⟩]

/-- Memory with that section, an object at 100 with this vtable pointer, and this word everywhere else. -/
def demoMem (vt evil : Word) : Mem := fun a =>
  if a = 100 then some vt
  else if 4096 ≤ a.toNat ∧ a.toNat < 4160 ∧ a.toNat % 8 = 0 then some (BitVec.ofNat 64 (10 + (a.toNat - 4096) / 8))
  else if a = 4160 then some 20
  else some evil

theorem demo_layout (en ca nd : Bool) (vt evil : Word) :
    Layout (demo en ca nd) (demoMem vt evil) demoTables where
  order := by show (4096 : Nat) ≤ 4168; decide
  user := by show (4168 : Nat) < 2 ^ 63; decide
  inside := by
    intro t ht
    simp only [demoTables, List.mem_cons, List.not_mem_nil, or_false] at ht
    show 4096 ≤ t.base ∧ t.base + 8 * t.methods.length ≤ 4168 ∧ _
    rcases ht with rfl | rfl <;> decide
  stored := by
    intro t ht i f hf
    simp only [demoTables, List.mem_cons, List.not_mem_nil, or_false] at ht
    rcases ht with rfl | rfl
    · have hi : i < 8 := by
        have := (List.getElem?_eq_some_iff.1 hf).1
        simpa using this
      rcases i with _ | _ | _ | _ | _ | _ | _ | _ | i <;> first | omega | (cases hf; simp [demoMem])
    · have hi : i < 1 := by
        have := (List.getElem?_eq_some_iff.1 hf).1
        simpa using this
      rcases i with _ | i
      · cases hf
        simp [demoMem]
      · omega
  covers := by
    intro a hal h1 h2
    replace h1 : 4096 ≤ a := h1
    replace h2 : a < 4168 := h2
    left
    by_cases h : a < 4160
    · exact ⟨_, List.mem_cons_self, h1, h⟩
    · exact ⟨_, List.mem_cons_of_mem _ List.mem_cons_self, by show 4160 ≤ a; omega, h2⟩
  aligned := by
    intro t ht
    simp only [demoTables, List.mem_cons, List.not_mem_nil, or_false] at ht
    rcases ht with rfl | rfl <;> rfl

/-- The upper comparison is `<=`: the address one past the section passes, and every entry point calls a word
that lies after the section, whatever it holds. -/
theorem one_past_end_violated (ca nd : Bool) (e : Entry) : ¬ Hardened (demo true ca nd) e := by
  intro H
  have hc : e.run (demo true ca nd) (demoMem 4168 666) 100 = .call 666 := by
    rw [run_eq e _ _ _ 4168 (by simp [demoMem])]
    cases e <;> cases ca <;> cases nd <;> decide +kernel
  obtain ⟨t, ht, hb, -⟩ := H (demoMem 4168 666) demoTables 100 4168 666 (demo_layout ..) (by simp [demoMem]) hc
  simp only [demoTables, List.mem_cons, List.not_mem_nil, or_false] at ht
  rcases ht with rfl | rfl <;> exact absurd hb (by decide)

/-- A pointer into the middle of a table passes: releasing the object calls the method for reading. -/
theorem interior_violated (ca nd : Bool) :
    ∃ m r vt, Layout (demo true ca nd) m demoTables ∧ m r = some vt ∧
      (demo true ca nd).start.toNat < vt.toNat ∧ vt.toNat + 8 < (demo true ca nd).stop.toNat ∧
      vt.toNat % 8 = 0 ∧ (∀ t ∈ demoTables, vt.toNat ≠ t.base) ∧
      Entry.release.run (demo true ca nd) m r = .call 11 :=
  ⟨demoMem 4104 666, 100, 4104, demo_layout .., by decide +kernel, by show 4096 < 4104; decide,
    by show 4112 < 4168; decide, rfl, by decide, by
      rw [run_eq _ _ _ _ 4104 (by simp [demoMem])]
      cases ca <;> cases nd <;> decide +kernel⟩

/-- A table of another kind passes: reading from an object whose pointer is that of the resource table calls a
word after the end of that table. -/
theorem other_kind_violated (ca nd : Bool) :
    ∃ m r vt, Layout (demo true ca nd) m demoTables ∧ m r = some vt ∧
      (∃ t ∈ demoTables, vt.toNat = t.base) ∧ Entry.read.run (demo true ca nd) m r = .call 666 :=
  ⟨demoMem 4160 666, 100, 4160, demo_layout .., by decide +kernel,
    ⟨_, List.mem_cons_of_mem _ List.mem_cons_self, rfl⟩, by
      rw [run_eq _ _ _ _ 4160 (by simp [demoMem])]
      cases ca <;> cases nd <;> decide +kernel⟩

/-- With the check an assertion and NDEBUG set, a pointer that has nothing to do with the section is called
through by every entry point. -/
theorem assertion_ndebug_violated (e : Entry) : ¬ Hardened (demo true true true) e := by
  intro H
  have hc : e.run (demo true true true) (demoMem 64 666) 100 = .call 666 := by
    rw [run_eq e _ _ _ 64 (by simp [demoMem])]
    cases e <;> decide +kernel
  obtain ⟨t, ht, hb, -⟩ := H (demoMem 64 666) demoTables 100 64 666 (demo_layout ..) (by simp [demoMem]) hc
  simp only [demoTables, List.mem_cons, List.not_mem_nil, or_false] at ht
  rcases ht with rfl | rfl <;> exact absurd hb (by decide)

theorem release_demo : userRelease 28 (demoMem 64 666) 72 = some (.call 666) := by decide +kernel

/-- The methods of a psock made from user methods call through the pointer kept in the heap object without any
check, in every build. -/
theorem user_table_violated (en ca nd : Bool) :
    ¬ UserHardened (demo en ca nd) userRead 1 ∧ ¬ UserHardened (demo en ca nd) userWrite 2 ∧
      ¬ UserHardened (demo en ca nd) userAccept 3 ∧ ¬ UserHardened (demo en ca nd) userSendmsg 4 ∧
      ¬ UserHardened (demo en ca nd) userRecvmsg 5 ∧
      ¬ UserHardened (demo en ca nd) (fun o m s => (userRelease o m s).getD (.ret SUCCESS)) 7 := by
  have key : ∀ run slot, run 28 (demoMem 64 666) 72 = Out.call 666 → ¬ UserHardened (demo en ca nd) run slot := by
    intro run slot hc H
    obtain ⟨t, ht, hb, -⟩ :=
      H 28 (demoMem 64 666) demoTables 72 64 666 (demo_layout ..) (by simp [demoMem]) hc
    simp only [demoTables, List.mem_cons, List.not_mem_nil, or_false] at ht
    rcases ht with rfl | rfl <;> exact absurd hb (by decide)
  refine ⟨key _ _ ?_, key _ _ ?_, key _ _ ?_, key _ _ ?_, key _ _ ?_, key _ _ (by rw [release_demo]; rfl)⟩ <;>
    decide +kernel

/-- What does hold of the second hop: if the pointer kept in the object is that of a genuine table, the method
called is that table's. -/
theorem user_genuine_partial {c : Cfg} {m : Mem} {ts : List Table} (L : Layout c m ts) {t : Table}
    (ht : t ∈ ts) {o s uvt : Word} (hu : m (s + o) = some uvt) (hb : uvt.toNat = t.base) {f : Word} (h0 : f ≠ 0) :
    (t.methods[1]? = some f → userRead o m s = .call f) ∧
      (t.methods[2]? = some f → userWrite o m s = .call f) ∧
      (t.methods[3]? = some f → userAccept o m s = .call f) ∧
      (t.methods[4]? = some f → userSendmsg o m s = .call f) ∧
      (t.methods[5]? = some f → userRecvmsg o m s = .call f) ∧
      (t.methods[7]? = some f → userRelease o m s = some (.call f)) := by
  have key : ∀ i, t.methods[i]? = some f → m (uvt + BitVec.ofNat 64 (8 * i)) = some f := by
    intro i hi
    rw [addr_eq, hb]
    exact L.stored t ht _ _ hi
  replace h0 : ¬ f = 0#64 := h0
  refine ⟨?_, ?_, ?_, ?_, ?_, ?_⟩ <;> intro h <;> have h := key _ h <;>
    simp only [Nat.reduceMul] at h <;>
    simp [userRead, userWrite, userAccept, userSendmsg, userRecvmsg, userRelease, optional, load, hu, h, h0,
      READ, WRITE, ACCEPT, SENDMSG, RECVMSG, RELEASE]

/-- A method that the user left out is not called: the three methods that may be missing answer with an error, and the release
goes on without the user's. -/
theorem user_missing {c : Cfg} {m : Mem} {ts : List Table} (L : Layout c m ts) {t : Table}
    (ht : t ∈ ts) {o s uvt : Word} (hu : m (s + o) = some uvt) (hb : uvt.toNat = t.base) :
    (t.methods[3]? = some 0 → userAccept o m s = .ret ERROR_PSOCK_METHOD_UNDEFINED) ∧
      (t.methods[4]? = some 0 → userSendmsg o m s = .ret ERROR_PSOCK_METHOD_UNDEFINED) ∧
      (t.methods[5]? = some 0 → userRecvmsg o m s = .ret ERROR_PSOCK_METHOD_UNDEFINED) ∧
      (t.methods[7]? = some 0 → userRelease o m s = none) := by
  have key : ∀ i, t.methods[i]? = some 0 → m (uvt + BitVec.ofNat 64 (8 * i)) = some 0 := by
    intro i hi
    rw [addr_eq, hb]
    exact L.stored t ht _ _ hi
  refine ⟨?_, ?_, ?_, ?_⟩ <;> intro h <;> have h := key _ h <;>
    simp only [Nat.reduceMul] at h <;>
    simp [userAccept, userSendmsg, userRecvmsg, userRelease, optional, load, hu, h, ACCEPT, SENDMSG, RECVMSG, RELEASE]

/-! ### Cases that meet the hypotheses -/

/-- A psock with its own table: reading calls 11, in the build that answers with a status. -/
example : Entry.read.run (demo true false false) (demoMem 4096 666) 100 = .call 11 :=
  (genuine_calls (demo_layout true false false 4096 666) List.mem_cons_self .read
    (vt := 4096) (by simp [demoMem]) rfl rfl).1 (by decide)

/-- An object whose pointer was overwritten with a heap address is refused. -/
example : Entry.allocate.run (demo true false false) (demoMem 64 666) 100 = .ret ERROR_GENERAL_BAD_VTABLE :=
  outside_refused ⟨rfl, by simp [demo]⟩ (by show (4096 : Nat) ≤ 4168; decide)
    (by show (4168 : Nat) < 2 ^ 63; decide) .allocate (vt := 64) (by simp [demoMem])
    (Or.inl (by show (64 : Nat) < 4096; decide))

example : (demo true true false).armed := ⟨rfl, fun _ => rfl⟩
example : ¬ (demo true true true).armed := fun h => by simpa [demo] using h.2 rfl

example : Entry.control.run (demo true false false) (demoMem 4096 666) 100 = .call 14 := by decide +kernel

end Rcpr.Vtable
