import Verif.Props.Life

/-!
Properties of whole histories of constructors and release methods: C63.
-/
namespace Rcpr.Life

open Rcpr

/-- A constructor that takes nothing over, with its release method. -/
structure Class where
  H : Type
  create : M (Status × Out H)
  release : H → M Status

/-- A call of a program: construct something, or release the n-th of the things it holds. -/
inductive Op
  | create (c : Class)
  | release (n : Nat)

/-- The state of things, and the release calls the program still owes. -/
structure World where
  st : St
  owed : List (M Status)

/-- One call. A program does not release what it does not hold. -/
def step (e : Env) (w : World) : Op → Option World
  | .create c =>
    match c.create e w.st with
    | none => none
    | some ((_, .set h), s) => some ⟨s, c.release h :: w.owed⟩
    | some (_, s) => some { w with st := s }
  | .release n =>
    match w.owed[n]? with
    | none => some w
    | some m =>
      match m e w.st with
      | none => none
      | some (_, s) => some ⟨s, w.owed.eraseIdx n⟩

def run (e : Env) : World → List Op → Option World
  | w, [] => some w
  | w, o :: os => (step e w o).bind fun w => run e w os

/-- Nothing has been acquired. -/
def start : World := ⟨⟨fun _ => none, 0, 0, 0⟩, []⟩

/-- The modelled constructors that take nothing over. -/
def classes : List Class :=
  [⟨_, threadCreate, threadRelease SUCCESS⟩, ⟨_, mutexCreate, mutexRelease⟩, ⟨_, condCreate, condRelease⟩,
   ⟨_, stackCreate, stackRelease⟩, ⟨_, fiberCreate, fiberRelease⟩, ⟨_, fiberCreateForThread, fiberRelease⟩,
   ⟨_, blockCreate, blockRelease⟩, ⟨_, treeCreate, blockRelease⟩, ⟨_, queueCreate, queueRelease⟩,
   ⟨_, bigintCreate, bigintRelease⟩, ⟨_, messageCreate none, messageRelease⟩, ⟨_, mailboxCreate, mailboxRelease⟩,
   ⟨_, barrierCreate, barrierRelease⟩, ⟨_, contextCreate, contextRelease⟩, ⟨_, discCreate, discRelease⟩,
   ⟨_, hostnameCreate, descRelease⟩, ⟨_, listenCreate, descRelease⟩, ⟨_, userCreate none, userRelease⟩,
   ⟨_, bufCreate true, bufRelease⟩, ⟨_, bufCreate false, bufRelease⟩, ⟨_, brCreate, brRelease⟩,
   ⟨_, epollCreate, epollRelease⟩, ⟨_, pollCreate, pollRelease⟩, ⟨_, ioDiscCreate, ioDiscRelease⟩]

/-- Every constructor in the history is one of the modelled ones. -/
def Known (os : List Op) : Prop := ∀ c, .create c ∈ os → c ∈ classes

/-- Every constructor in the history keeps its contract. -/
private def Lawful (os : List Op) : Prop := ∀ o ∈ os, ∀ c, o = .create c → Keeps c.create c.release

private theorem Known.lawful {os : List Op} (h : Known os) : Lawful os := by
  rintro o ho c rfl
  have h := h c ho
  simp only [classes, List.mem_cons, List.not_mem_nil, or_false] at h
  rcases h with rfl | rfl | rfl | rfl | rfl | rfl | rfl | rfl | rfl | rfl | rfl | rfl | rfl | rfl | rfl | rfl | rfl | rfl |
    rfl | rfl | rfl | rfl | rfl | rfl
  · exact thread_contract.keeps
  · exact mutex_contract.keeps
  · exact cond_contract.keeps
  · exact stack_contract.keeps
  · exact fiber_contract.keeps
  · exact fiber_for_thread_contract.keeps
  · exact block_contract.keeps
  · exact tree_contract.keeps
  · exact queue_contract.keeps
  · exact bigint_contract.keeps
  · exact empty_message_contract.keeps
  · exact mailbox_contract.keeps
  · exact barrier_contract.keeps
  · exact context_contract.keeps
  · exact discipline_contract.keeps
  · exact hostname_contract.keeps
  · exact listen_contract.keeps
  · exact empty_user_contract.keeps
  · exact input_buffer_contract.keeps
  · exact output_buffer_contract.keeps
  · exact br_contract_partial
  · exact epoll_contract.keeps
  · exact poll_contract.keeps
  · exact io_discipline_contract.keeps

/-- What is held is divided among the release calls that are owed. -/
private structure Inv (w : World) (own : List (Nat → Prop)) : Prop where
  ok : w.st.Ok
  len : own.length = w.owed.length
  rel : ∀ (n : Nat) m o, w.owed[n]? = some m → own[n]? = some o → Releases m o w.st
  held : ∀ (n : Nat) o i, own[n]? = some o → o i → w.st.live i ≠ none
  only : ∀ (n k : Nat) o o' i, own[n]? = some o → own[k]? = some o' → o i → o' i → n = k
  all : ∀ i, w.st.live i ≠ none → ∃ (n : Nat) (o : Nat → Prop), own[n]? = some o ∧ o i

private theorem Releases.of_agree {m : M Status} {o : Nat → Prop} {s s' : St} (h : Releases m o s)
    (ha : ∀ i, o i → s'.live i = s.live i) : Releases m o s' := by
  intro e t ok ht
  exact h e t ok fun i hi => (ht i hi).trans (ha i hi)

private theorem step_inv {e : Env} (g : e.Good) {w : World} {own : List (Nat → Prop)} (h : Inv w own) {o : Op}
    (hl : ∀ c, o = .create c → Keeps c.create c.release) :
    ∃ w' own', step e w o = some w' ∧ Inv w' own' := by
  cases o with
  | create c =>
    obtain ⟨st, out, s', hc, ok', hold, hfail, hset⟩ := hl c rfl e w.st h.ok
    by_cases hs : ∃ x, out = .set x
    · obtain ⟨x, rfl⟩ := hs
      refine ⟨⟨s', c.release x :: w.owed⟩, (fun i => w.st.next ≤ i ∧ s'.live i ≠ none) :: own, ?_, ?_⟩
      · simp [step, hc]
      · have old : ∀ i, w.st.live i ≠ none → s'.live i = w.st.live i := by
          intro i hi
          apply hold
          apply Decidable.byContradiction
          intro hlt
          exact hi (h.ok i (by omega))
        refine ⟨ok', ?_, ?_, ?_, ?_, ?_⟩
        · simp [h.len]
        · intro n m o hm ho
          cases n with
          | zero =>
            simp at hm ho
            subst hm ho
            have := hset x rfl
            simpa using this
          | succ n =>
            simp at hm ho
            exact (h.rel n m o hm ho).of_agree fun i hi => old i (h.held n o i ho hi)
        · intro n o i ho hi
          cases n with
          | zero => simp at ho; subst ho; exact hi.2
          | succ n =>
            simp at ho
            show s'.live i ≠ none
            rw [old i (h.held n o i ho hi)]
            exact h.held n o i ho hi
        · have cross : ∀ (n : Nat) o i, own[n]? = some o → o i → ¬ w.st.next ≤ i := by
            intro n o i ho hi hle
            exact h.held n o i ho hi (h.ok i hle)
          intro n k o o' i ho ho' hi hi'
          cases n with
          | zero =>
            cases k with
            | zero => rfl
            | succ k => simp at ho ho'; subst ho; exact absurd hi.1 (cross k o' i ho' hi')
          | succ n =>
            cases k with
            | zero => simp at ho ho'; subst ho'; exact absurd hi'.1 (cross n o i ho hi)
            | succ k => simp at ho ho'; rw [h.only n k o o' i ho ho' hi hi']
        · intro i hi
          by_cases hlt : i < w.st.next
          · rw [show s'.live i = w.st.live i from hold i hlt] at hi
            obtain ⟨n, o, ho, hoi⟩ := h.all i hi
            exact ⟨n + 1, o, by simpa using ho, hoi⟩
          · exact ⟨0, _, rfl, by omega, hi⟩
    · have hno : ∀ x, out ≠ .set x := fun x hx => hs ⟨x, hx⟩
      refine ⟨{ w with st := s' }, own, ?_, ?_⟩
      · cases out with
        | set x => exact absurd rfl (hno x)
        | untouched => simp [step, hc]
        | null => simp [step, hc]
      · have same := hfail hno g
        refine ⟨ok', h.len, ?_, ?_, h.only, ?_⟩
        · intro n m o hm ho
          exact (h.rel n m o hm ho).of_agree fun i _ => same i
        · intro n o i ho hi
          show s'.live i ≠ none
          rw [same i]; exact h.held n o i ho hi
        · intro i hi
          exact h.all i (by rw [← same i]; exact hi)
  | release n =>
    cases hm : w.owed[n]? with
    | none => exact ⟨w, own, by simp [step, hm], h⟩
    | some m =>
      have hn : n < w.owed.length := by
        apply Decidable.byContradiction
        intro hc
        rw [List.getElem?_eq_none (by omega)] at hm
        cases hm
      have ho : own[n]? = some (own[n]'(by have := h.len; omega)) := List.getElem?_eq_getElem (by have := h.len; omega)
      obtain ⟨st, t', hrun, okt, hother, hgood, hgone⟩ := h.rel n m _ hm ho e w.st h.ok fun _ _ => rfl
      have hgone := hgone (hgood g)
      refine ⟨⟨t', w.owed.eraseIdx n⟩, own.eraseIdx n, by simp [step, hm, hrun], ?_⟩
      -- entries after the erased one move down
      let up (k : Nat) : Nat := if k < n then k else k + 1
      have up_ne : ∀ k, up k ≠ n := by intro k; show (if k < n then k else k + 1) ≠ n; split <;> omega
      have up_inj : ∀ k l, up k = up l → k = l := by
        intro k l; show (if k < n then k else k + 1) = (if l < n then l else l + 1) → k = l
        split <;> split <;> omega
      have up_get : ∀ {α : Type} (l : List α) k, (l.eraseIdx n)[k]? = l[up k]? := by
        intro α l k
        rw [List.getElem?_eraseIdx]
        show _ = l[if k < n then k else k + 1]?
        split <;> rfl
      have keep : ∀ (k : Nat) o i, own[k]? = some o → k ≠ n → o i → t'.live i = w.st.live i := by
        intro k o i hko hkn hi
        apply hother
        intro hc
        exact hkn (h.only k n o _ i hko ho hi hc)
      refine ⟨?_, ?_, ?_, ?_, ?_, ?_⟩
      · exact okt
      · simp only [List.length_eraseIdx, h.len]
      · intro k m' o hm' hk
        rw [up_get] at hm' hk
        exact (h.rel _ m' o hm' hk).of_agree fun i hi => keep _ o i hk (up_ne k) hi
      · intro k o i hk hi
        rw [up_get] at hk
        show t'.live i ≠ none
        rw [keep _ o i hk (up_ne k) hi]
        exact h.held _ o i hk hi
      · intro k l o o' i hk hl' hi hi'
        rw [up_get] at hk hl'
        exact up_inj _ _ (h.only _ _ o o' i hk hl' hi hi')
      · intro i hi
        have hi : t'.live i ≠ none := hi
        have hnot : ¬ (own[n]'(by have := h.len; omega)) i := fun hc => hi (hgone i hc)
        rw [hother i hnot] at hi
        obtain ⟨k, o, hk, hoi⟩ := h.all i hi
        have hkn : k ≠ n := by
          intro hc; subst hc; rw [ho] at hk; cases hk; exact hnot hoi
        refine ⟨if k < n then k else k - 1, o, ?_, hoi⟩
        rw [up_get]
        show own[if (if k < n then k else k - 1) < n then (if k < n then k else k - 1) else (if k < n then k else k - 1) + 1]? = _
        have : (if (if k < n then k else k - 1) < n then (if k < n then k else k - 1) else (if k < n then k else k - 1) + 1) = k := by
          by_cases hlt : k < n
          · rw [if_pos hlt, if_pos hlt]
          · rw [if_neg hlt, if_neg (by omega)]; omega
        rw [this]; exact hk

private theorem run_inv {e : Env} (g : e.Good) {os : List Op} (hl : Lawful os) {w : World} {own : List (Nat → Prop)}
    (h : Inv w own) : ∃ w' own', run e w os = some w' ∧ Inv w' own' := by
  induction os generalizing w own with
  | nil => exact ⟨w, own, rfl, h⟩
  | cons o os ih =>
    obtain ⟨w', own', h1, h2⟩ := step_inv g h (o := o) fun c hc => hl o (by simp) c hc
    obtain ⟨w'', own'', h3, h4⟩ := ih (fun o ho c hc => hl o (by simp [ho]) c hc) h2
    exact ⟨w'', own'', by simp [run, h1, h3], h4⟩

private theorem start_inv : Inv start [] := by
  refine ⟨fun _ _ => rfl, rfl, ?_, ?_, ?_, ?_⟩ <;> simp [start]

/-- C63: no history of constructors and release methods, with failures anywhere in the constructors, gives
anything back twice or uses it afterwards, and when a program has released all it was given, nothing is left. -/
theorem history_balanced {e : Env} (g : e.Good) {os : List Op} (hl : Known os) :
    ∃ w, run e start os = some w ∧ (w.owed = [] → ∀ i, w.st.live i = none) ∧
      ∀ i, w.st.live i ≠ none → ∃ (n : Nat) (m : M Status) (s : St),
        w.owed[n]? = some m ∧ m e w.st = some (SUCCESS, s) ∧ s.live i = none := by
  obtain ⟨w, own, h1, h2⟩ := run_inv g hl.lawful start_inv
  refine ⟨w, h1, fun h i => ?_, fun i hi => ?_⟩
  rotate_left
  · obtain ⟨n, o, ho, hoi⟩ := h2.all i hi
    have hn : n < w.owed.length := by
      rw [← h2.len]
      apply Decidable.byContradiction
      intro hc
      rw [List.getElem?_eq_none (by omega)] at ho
      cases ho
    obtain ⟨st, t, hr, _, _, hg, hgone⟩ := h2.rel n _ o (List.getElem?_eq_getElem hn) ho e w.st h2.ok fun _ _ => rfl
    cases hg g
    exact ⟨n, _, t, List.getElem?_eq_getElem hn, hr, hgone rfl i hoi⟩
  apply Decidable.byContradiction
  intro hc
  obtain ⟨n, o, ho, _⟩ := h2.all i hc
  have := h2.len
  rw [h] at this
  cases own with
  | nil => simp at ho
  | cons => simp at this

/-- What can be seen of a world with few objects. -/
private def seen (w : Option World) : Option (Nat × List (Option Kind)) :=
  w.map fun w => (w.owed.length, (List.range 8).map w.st.live)

-- A barrier, a mutex whose initialisation fails, a mutex; then the barrier is released, then the mutex.
example : seen (run (failing 3 ERROR_GENERAL_OUT_OF_MEMORY) start
      [.create ⟨_, barrierCreate, barrierRelease⟩, .create ⟨_, mutexCreate, mutexRelease⟩,
       .create ⟨_, mutexCreate, mutexRelease⟩, .release 1])
    = some (1, [none, none, none, some .mem, some .pmutex, none, none, none]) ∧
    seen (run (failing 3 ERROR_GENERAL_OUT_OF_MEMORY) start
      [.create ⟨_, barrierCreate, barrierRelease⟩, .create ⟨_, mutexCreate, mutexRelease⟩,
       .create ⟨_, mutexCreate, mutexRelease⟩, .release 1, .release 0])
    = some (0, List.replicate 8 none) ∧
    Known [.create ⟨_, barrierCreate, barrierRelease⟩, .create ⟨_, mutexCreate, mutexRelease⟩] := by
  refine ⟨by decide, by decide, ?_⟩
  intro c hc
  simp only [List.mem_cons, List.not_mem_nil, or_false, Op.create.injEq] at hc
  rcases hc with rfl | rfl <;> simp [classes]

/-! ### The caller's variable -/

/-- The caller's variable was left alone. -/
def Out.isUntouched {H : Type} : Out H → Bool
  | .untouched => true
  | _ => false

/-- C62 (what holds): a constructor that fails does not leave its caller's variable pointing at something
that has been released. Missing: the variable is documented to be set to NULL, but it keeps what it held. -/
theorem failure_sets_nothing_partial {H : Type} {create : M (Status × Out H)} {release : H → M Status}
    {args : List (Nat × Kind)} (c : Contract create release args) {e : Env} {s s' : St} {st : Status} {o : Out H}
    (ok : s.Ok) (ha : ∀ a ∈ args, s.live a.1 = some a.2) (h : create e s = some ((st, o), s'))
    (hf : st ≠ SUCCESS) : ∀ x, o ≠ .set x := by
  obtain ⟨st, o, s', h1, _, h2, _⟩ := c e s ok ha
  rw [h1] at h
  cases h
  exact fun x hx => hf (h2.2 ⟨x, hx⟩)

/-- C62 (violated): whichever of these constructors is refused everything it asks for leaves the caller's variable
alone; all of them are documented to set it to NULL. -/
theorem null_on_failure_violated :
    ∀ c ∈ [(⟨_, threadCreate, threadRelease SUCCESS⟩ : Class), ⟨_, mutexCreate, mutexRelease⟩, ⟨_, condCreate, condRelease⟩,
        ⟨_, stackCreate, stackRelease⟩, ⟨_, fiberCreate, fiberRelease⟩, ⟨_, fiberCreateForThread, fiberRelease⟩,
        ⟨_, blockCreate, blockRelease⟩, ⟨_, treeCreate, blockRelease⟩, ⟨_, queueCreate, queueRelease⟩,
        ⟨_, bigintCreate, bigintRelease⟩, ⟨_, hostnameCreate, descRelease⟩, ⟨_, listenCreate, descRelease⟩,
        ⟨_, userCreate none, userRelease⟩, ⟨_, bufCreate true, bufRelease⟩, ⟨_, brCreate, brRelease⟩],
      ∃ st o s', c.create ⟨fun _ => ERROR_GENERAL_OUT_OF_MEMORY, fun _ => SUCCESS⟩ empty = some ((st, o), s') ∧ st ≠ SUCCESS ∧
        o.isUntouched = true := by
  intro c hc
  simp only [List.mem_cons, List.not_mem_nil, or_false] at hc
  rcases hc with rfl | rfl | rfl | rfl | rfl | rfl | rfl | rfl | rfl | rfl | rfl | rfl | rfl | rfl | rfl <;>
    exact ⟨_, _, _, rfl, by decide, rfl⟩

example : ∀ x, (.untouched : Out Fiber) ≠ .set x :=
  failure_sets_nothing_partial fiber_contract (s := empty) (e := failing 1 ERROR_GENERAL_OUT_OF_MEMORY)
    (st := ERROR_GENERAL_OUT_OF_MEMORY) (fun _ _ => rfl) (by simp) rfl (by decide)

end Rcpr.Life
