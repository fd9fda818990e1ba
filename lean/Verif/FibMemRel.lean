import Verif.ListMem
import Verif.FibMem

/-! What it means that the queues in memory hold the lists of `Verif.Fiber`, and what the queue operations do to that. -/
namespace Rcpr.FibMem

open Rcpr Fiber
open Rcpr.SList (Addr okEnv upd upd_same upd_ne Maps Unused)

/-- who owns a list: the run queue, a mailbox, a condition -/
inductive Own
  | run
  | box (a : Nat)
  | cond (h : Nat)
  deriving DecidableEq

def put {α : Type} (f : Own → α) (o : Own) (v : α) : Own → α := fun p => if p = o then v else f p

@[simp] theorem put_same {α : Type} (f : Own → α) (o : Own) (v : α) : put f o v o = v := if_pos rfl
theorem put_ne {α : Type} (f : Own → α) {o p : Own} (v : α) (h : p ≠ o) : put f o v p = f p := if_neg h

/-- Everything in `C` belongs to exactly one owner. -/
structure Placed {α : Type} (loc : Own → Option Addr) (C : Addr → Option α) : Prop where
  tot : ∀ o l, loc o = some l → C l ≠ none
  inj : ∀ o p l, loc o = some l → loc p = some l → o = p
  cover : ∀ l, C l ≠ none → ∃ o, loc o = some l

variable {α : Type} {loc qloc : Own → Option Addr} {C : Addr → Option α}

theorem Placed.set (h : Placed loc C) {o : Own} {l : Addr} (ho : loc o = some l) (v : α) :
    Placed loc (upd C l (some v)) ∧ ∀ p, (loc p).bind (upd C l (some v)) = put (fun p => (loc p).bind C) o (some v) p := by
  refine ⟨⟨fun p k hp => ?_, h.inj, fun k hk => ?_⟩, fun p => ?_⟩
  · by_cases hkl : k = l
    · rw [hkl, upd_same]; simp
    · rw [upd_ne _ _ hkl]; exact h.tot p k hp
  · by_cases hkl : k = l
    · exact ⟨o, hkl ▸ ho⟩
    · rw [upd_ne _ _ hkl] at hk; exact h.cover k hk
  · by_cases hpo : p = o
    · subst hpo; rw [put_same, ho]; exact upd_same _ _ _
    · rw [put_ne _ _ hpo]
      cases hp : loc p with
      | none => rfl
      | some k =>
        have : k ≠ l := fun hk => hpo (h.inj p o l (hk ▸ hp) ho)
        simp [upd_ne _ _ this]

theorem Placed.add (h : Placed loc C) {o : Own} {l : Addr} (ho : loc o = none) (hl : C l = none) (v : α) :
    Placed (put loc o (some l)) (upd C l (some v)) ∧
      ∀ p, (put loc o (some l) p).bind (upd C l (some v)) = put (fun p => (loc p).bind C) o (some v) p := by
  have hne : ∀ p k, loc p = some k → k ≠ l := fun p k hp hk => h.tot p k hp (hk ▸ hl)
  refine ⟨⟨fun p k hp => ?_, fun p r k hp hr => ?_, fun k hk => ?_⟩, fun p => ?_⟩
  · by_cases hkl : k = l
    · rw [hkl, upd_same]; simp
    · rw [upd_ne _ _ hkl]
      by_cases hpo : p = o
      · subst hpo; rw [put_same] at hp; exact absurd (Option.some.inj hp).symm hkl
      · rw [put_ne _ _ hpo] at hp; exact h.tot p k hp
  · by_cases hpo : p = o <;> by_cases hro : r = o
    · rw [hpo, hro]
    · subst hpo; rw [put_same] at hp; rw [put_ne _ _ hro] at hr
      exact absurd (Option.some.inj hp).symm (hne r k hr)
    · subst hro; rw [put_same] at hr; rw [put_ne _ _ hpo] at hp
      exact absurd (Option.some.inj hr).symm (hne p k hp)
    · rw [put_ne _ _ hpo] at hp; rw [put_ne _ _ hro] at hr; exact h.inj p r k hp hr
  · by_cases hkl : k = l
    · exact ⟨o, by rw [put_same, hkl]⟩
    · rw [upd_ne _ _ hkl] at hk
      obtain ⟨p, hp⟩ := h.cover k hk
      refine ⟨p, ?_⟩
      rw [put_ne _ _ (fun e => by rw [e, ho] at hp; cases hp)]; exact hp
  · by_cases hpo : p = o
    · subst hpo; rw [put_same, put_same]; exact upd_same _ _ _
    · rw [put_ne _ _ hpo, put_ne _ _ hpo]
      cases hp : loc p with
      | none => rfl
      | some k => simp [upd_ne _ _ (hne p k hp)]

theorem Placed.del (h : Placed loc C) {o : Own} {l : Addr} (ho : loc o = some l) :
    Placed (put loc o none) (upd C l none) ∧
      ∀ p, (put loc o none p).bind (upd C l none) = put (fun p => (loc p).bind C) o none p := by
  have hne : ∀ p k, p ≠ o → loc p = some k → k ≠ l := fun p k hpo hp hk => hpo (h.inj p o l (hk ▸ hp) ho)
  refine ⟨⟨fun p k hp => ?_, fun p r k hp hr => ?_, fun k hk => ?_⟩, fun p => ?_⟩
  · by_cases hpo : p = o
    · subst hpo; rw [put_same] at hp; cases hp
    · rw [put_ne _ _ hpo] at hp
      rw [upd_ne _ _ (hne p k hpo hp)]; exact h.tot p k hp
  · by_cases hpo : p = o
    · subst hpo; rw [put_same] at hp; cases hp
    · by_cases hro : r = o
      · subst hro; rw [put_same] at hr; cases hr
      · rw [put_ne _ _ hpo] at hp; rw [put_ne _ _ hro] at hr; exact h.inj p r k hp hr
  · by_cases hkl : k = l
    · rw [hkl, upd_same] at hk; exact absurd rfl hk
    · rw [upd_ne _ _ hkl] at hk
      obtain ⟨p, hp⟩ := h.cover k hk
      refine ⟨p, ?_⟩
      rw [put_ne _ _ (fun e => hkl (by rw [e, ho] at hp; exact (Option.some.inj hp).symm))]; exact hp
  · by_cases hpo : p = o
    · subst hpo; rw [put_same, put_same]; rfl
    · rw [put_ne _ _ hpo, put_ne _ _ hpo]
      cases hp : loc p with
      | none => rfl
      | some k => simp [upd_ne _ _ (hne p k hpo hp)]

/-- The memory holds the lists `cont`, at the places `loc`; those of the queues are found through `qloc`. Nothing else is
allocated. -/
structure Mir (loc qloc : Own → Option Addr) (mem : Queue.Mem) (cont : Own → Option (List Nat)) : Prop where
  ex : ∃ C, Maps mem.sl C ∧ Placed loc C ∧ ∀ o, cont o = (loc o).bind C
  q : Placed qloc mem.queues
  via : ∀ o q, qloc o = some q → loc o = mem.queues q

variable {mem : Queue.Mem} {cont : Own → Option (List Nat)} {o : Own} {l q : Addr} {cs : List Nat}

theorem Mir.loc_some (h : Mir loc qloc mem cont) (hc : cont o = some cs) : ∃ l, loc o = some l := by
  obtain ⟨C, _, _, e⟩ := h.ex
  rw [e] at hc
  cases hl : loc o with
  | none => rw [hl] at hc; cases hc
  | some l => exact ⟨l, rfl⟩

theorem Mir.queue (h : Mir loc qloc mem cont) (hq : qloc o = some q) (hl : loc o = some l) : mem.queues q = some l := by
  rw [← h.via o q hq]; exact hl

theorem put_congr {f g : Own → α} (h : ∀ p, f p = g p) (o : Own) (v : α) (p : Own) : put f o v p = put g o v p := by
  unfold put; split
  · rfl
  · exact h p

theorem mir_set {C : Addr → Option (List Nat)} {sl : SList.Mem} (h : Mir loc qloc mem cont) (hp : Placed loc C) (hl : loc o = some l)
    (e : ∀ p, cont p = (loc p).bind C) (hm : Maps sl (upd C l (some cs))) : Mir loc qloc { mem with sl := sl } (put cont o (some cs)) := by
  obtain ⟨h1, h2⟩ := hp.set hl cs
  exact ⟨⟨_, hm, h1, fun p => (put_congr e o _ p).trans (h2 p).symm⟩, h.q, h.via⟩

/-! Wait lists. -/

theorem Mir.lcount (h : Mir loc qloc mem cont) (hl : loc o = some l) (hc : cont o = some cs) :
    ∃ n, SList.count mem.sl l = some n ∧ n.toNat = cs.length := by
  obtain ⟨C, hm, _, e⟩ := h.ex
  rw [e, hl] at hc
  exact hm.count hc

theorem Mir.lappend (h : Mir loc qloc mem cont) (hl : loc o = some l) (hc : cont o = some cs) {r : Nat} (hr : r ≠ 0)
    {ans : Option Addr} (hu : Unused mem.sl ans) :
    (ans = none ∧ SList.appendTail mem.sl ans l r = some (ERROR_GENERAL_OUT_OF_MEMORY, mem.sl)) ∨
    ∃ sl, ans ≠ none ∧ SList.appendTail mem.sl ans l r = some (SUCCESS, sl) ∧ sl.released = mem.sl.released ∧
      Mir loc qloc { mem with sl := sl } (put cont o (some (cs ++ [r]))) := by
  obtain ⟨C, hm, hp, e⟩ := h.ex
  have hc' := hc; rw [e, hl] at hc'
  rcases hm.appendTail hc' hr hu with h1 | ⟨sl, h0, h1, h2, h3⟩
  · exact .inl h1
  · exact .inr ⟨sl, h0, h1, h2, mir_set h hp hl e h3⟩

theorem Mir.linsert (h : Mir loc qloc mem cont) (hl : loc o = some l) (hc : cont o = some cs) {r : Nat} (hr : r ≠ 0)
    {ans : Option Addr} (hu : Unused mem.sl ans) :
    (ans = none ∧ SList.insertHead mem.sl ans l r = some (ERROR_GENERAL_OUT_OF_MEMORY, mem.sl)) ∨
    ∃ sl, ans ≠ none ∧ SList.insertHead mem.sl ans l r = some (SUCCESS, sl) ∧ sl.released = mem.sl.released ∧
      Mir loc qloc { mem with sl := sl } (put cont o (some (r :: cs))) := by
  obtain ⟨C, hm, hp, e⟩ := h.ex
  have hc' := hc; rw [e, hl] at hc'
  rcases hm.insertHead hc' hr hu with h1 | ⟨sl, h0, h1, h2, h3⟩
  · exact .inl h1
  · exact .inr ⟨sl, h0, h1, h2, mir_set h hp hl e h3⟩

theorem Mir.lpop {c : Nat} (h : Mir loc qloc mem cont) (hl : loc o = some l) (hc : cont o = some (c :: cs)) (rIn : Nat) :
    ∃ sl, SList.pop okEnv mem.sl l rIn = some (SUCCESS, c, sl) ∧ sl.released = mem.sl.released ∧ c ≠ 0 ∧
      Mir loc qloc { mem with sl := sl } (put cont o (some cs)) := by
  obtain ⟨C, hm, hp, e⟩ := h.ex
  have hc' := hc; rw [e, hl] at hc'
  obtain ⟨sl, h1, h2, h3⟩ := hm.pop hc' rIn
  exact ⟨sl, h1, h2, hm.nonzero hc' c (by simp), mir_set h hp hl e h3⟩

theorem Mir.lcreate (h : Mir loc qloc mem cont) (ho : loc o = none) (hqo : qloc o = none) (hl0 : l ≠ 0) (hl : mem.sl.lists l = none) :
    ∃ sl, SList.create mem.sl (some l) = (SUCCESS, l, sl) ∧ sl.released = mem.sl.released ∧
      Mir (put loc o (some l)) qloc { mem with sl := sl } (put cont o (some [])) := by
  obtain ⟨C, hm, hp, e⟩ := h.ex
  obtain ⟨h1, h2, h3⟩ := hm.create hl0 hl
  obtain ⟨h4, h5⟩ := hp.add ho h2 []
  refine ⟨_, h1, rfl, ⟨_, h3, h4, fun p => (put_congr e o _ p).trans (h5 p).symm⟩, h.q, fun p k hk => ?_⟩
  rw [put_ne _ _ (fun e => by rw [e, hqo] at hk; cases hk)]
  exact h.via p k hk

theorem Mir.lrelease (h : Mir loc qloc mem cont) (hl : loc o = some l) (hqo : qloc o = none) (hc : cont o = some cs) {f : Nat}
    (hf : cs.length < f) :
    ∃ sl, SList.release okEnv f mem.sl l = some (SUCCESS, sl) ∧ sl.released = mem.sl.released ++ cs ∧
      Mir (put loc o none) qloc { mem with sl := sl } (put cont o none) := by
  obtain ⟨C, hm, hp, e⟩ := h.ex
  have hc' := hc; rw [e, hl] at hc'
  obtain ⟨sl, h1, h2, h3⟩ := hm.release hc' hf
  obtain ⟨h4, h5⟩ := hp.del hl
  refine ⟨sl, h1, h2, ⟨_, h3, h4, fun p => (put_congr e o _ p).trans (h5 p).symm⟩, h.q, fun p k hk => ?_⟩
  rw [put_ne _ _ (fun e => by rw [e, hqo] at hk; cases hk)]
  exact h.via p k hk

/-! Queues. -/

theorem Mir.qcount (h : Mir loc qloc mem cont) (hq : qloc o = some q) (hc : cont o = some cs) :
    ∃ n, Queue.count mem q = some n ∧ n.toNat = cs.length := by
  obtain ⟨l, hl⟩ := h.loc_some hc
  obtain ⟨n, h1, h2⟩ := h.lcount hl hc
  exact ⟨n, by simp [Queue.count, h.queue hq hl, h1], h2⟩

theorem Mir.qappend (h : Mir loc qloc mem cont) (hq : qloc o = some q) (hc : cont o = some cs) {r : Nat} (hr : r ≠ 0)
    {ans : Option Addr} (hu : Unused mem.sl ans) :
    (ans = none ∧ Queue.append mem ans q r = some (ERROR_GENERAL_OUT_OF_MEMORY, mem)) ∨
    ∃ m', ans ≠ none ∧ Queue.append mem ans q r = some (SUCCESS, m') ∧ m'.sl.released = mem.sl.released ∧
      Mir loc qloc m' (put cont o (some (cs ++ [r]))) := by
  obtain ⟨l, hl⟩ := h.loc_some hc
  rcases h.lappend hl hc hr hu with ⟨h1, h2⟩ | ⟨sl, h0, h1, h2, h3⟩
  · exact .inl ⟨h1, by simp [Queue.append, h.queue hq hl, h2]⟩
  · exact .inr ⟨_, h0, by simp [Queue.append, h.queue hq hl, h1], h2, h3⟩

theorem Mir.qinsert (h : Mir loc qloc mem cont) (hq : qloc o = some q) (hc : cont o = some cs) {r : Nat} (hr : r ≠ 0)
    {ans : Option Addr} (hu : Unused mem.sl ans) :
    (ans = none ∧ Queue.insert mem ans q r = some (ERROR_GENERAL_OUT_OF_MEMORY, mem)) ∨
    ∃ m', ans ≠ none ∧ Queue.insert mem ans q r = some (SUCCESS, m') ∧ m'.sl.released = mem.sl.released ∧
      Mir loc qloc m' (put cont o (some (r :: cs))) := by
  obtain ⟨l, hl⟩ := h.loc_some hc
  rcases h.linsert hl hc hr hu with ⟨h1, h2⟩ | ⟨sl, h0, h1, h2, h3⟩
  · exact .inl ⟨h1, by simp [Queue.insert, h.queue hq hl, h2]⟩
  · exact .inr ⟨_, h0, by simp [Queue.insert, h.queue hq hl, h1], h2, h3⟩

theorem Mir.qpop {c : Nat} (h : Mir loc qloc mem cont) (hq : qloc o = some q) (hc : cont o = some (c :: cs)) (rIn : Nat) :
    ∃ m', Queue.pop okEnv mem q rIn = some (SUCCESS, c, m') ∧ m'.sl.released = mem.sl.released ∧ c ≠ 0 ∧
      Mir loc qloc m' (put cont o (some cs)) := by
  obtain ⟨l, hl⟩ := h.loc_some hc
  obtain ⟨sl, h1, h2, h3, h4⟩ := h.lpop hl hc rIn
  exact ⟨_, by simp [Queue.pop, h.queue hq hl, h1], h2, h3, h4⟩

theorem upd_upd {β : Type} (f : Addr → Option β) (a : Addr) (v w : Option β) : upd (upd f a v) a w = upd f a w := by
  funext x; simp only [upd]; split <;> rfl

theorem upd_self {β : Type} (f : Addr → Option β) (a : Addr) (h : f a = none) : upd f a none = f := by
  funext x; simp only [upd]; split
  · next e => rw [e, h]
  · rfl

theorem Mir.qcreate (h : Mir loc qloc mem cont) (ho : loc o = none) (hqo : qloc o = none)
    (hq : mem.queues q = none) (hl0 : l ≠ 0) (hl : mem.sl.lists l = none) :
    ∃ m', Queue.create okEnv mem (some q) (some l) = (SUCCESS, q, m') ∧ m'.sl.released = mem.sl.released ∧
      Mir (put loc o (some l)) (put qloc o (some q)) m' (put cont o (some [])) := by
  obtain ⟨sl, h1, h2, h3⟩ := h.lcreate ho hqo hl0 hl
  obtain ⟨h4, h5⟩ := h.q.add hqo hq l
  refine ⟨{ sl := sl, queues := upd mem.queues q (some l) }, by simp [Queue.create, h1, upd_upd], h2, h3.ex, h4, fun p k hk => ?_⟩
  have h6 := h5 p
  rw [hk] at h6
  show put loc o (some l) p = upd mem.queues q (some l) k
  simp only [Option.bind_some] at h6
  rw [h6]
  by_cases hpo : p = o
  · subst hpo; rw [put_same, put_same]
  · rw [put_ne _ _ hpo, put_ne _ _ hpo]
    rw [put_ne _ _ hpo] at hk
    rw [hk]; exact h.via p k hk

theorem qcreate_fail (qa la : Option Addr) (hn : qa = none ∨ la = none) (hq : ∀ q, qa = some q → mem.queues q = none) :
    Queue.create okEnv mem qa la = (ERROR_GENERAL_OUT_OF_MEMORY, 0, mem) := by
  cases qa with
  | none => rfl
  | some q =>
    rcases hn with hn | rfl
    · cases hn
    · simp [Queue.create, SList.create, okEnv, upd_upd, upd_self _ _ (hq q rfl), SList.OOM_ne]

theorem Mir.qrelease (h : Mir loc qloc mem cont) (hq : qloc o = some q) (hc : cont o = some cs) {f : Nat} (hf : cs.length < f) :
    ∃ m', Queue.release okEnv f mem q = some (SUCCESS, m') ∧ m'.sl.released = mem.sl.released ++ cs ∧
      Mir (put loc o none) (put qloc o none) m' (put cont o none) := by
  obtain ⟨l, hl⟩ := h.loc_some hc
  obtain ⟨C, hm, hp, e⟩ := h.ex
  have hc' := hc; rw [e, hl] at hc'
  obtain ⟨sl, h1, h2, h3⟩ := hm.release hc' hf
  obtain ⟨h4, h5⟩ := hp.del hl
  obtain ⟨h6, h7⟩ := h.q.del hq
  have hll : mem.sl.lists l ≠ none := fun hn => by
    rw [hm.lists] at hn; rw [Option.bind_some, hn] at hc'; cases hc'
  obtain ⟨hd, hhd⟩ := Option.ne_none_iff_exists'.1 hll
  refine ⟨{ sl := sl, queues := upd mem.queues q none }, by simp [Queue.release, h.queue hq hl, hhd, h1, show okEnv.reclaim q = SUCCESS from rfl], h2,
    ⟨_, h3, h4, fun p => (put_congr e o _ p).trans (h5 p).symm⟩, h6, fun p k hk => ?_⟩
  have h8 := h7 p
  rw [hk] at h8
  simp only [Option.bind_some] at h8
  show put loc o none p = upd mem.queues q none k
  rw [h8]
  by_cases hpo : p = o
  · subst hpo; rw [put_same, put_same]
  · rw [put_ne _ _ hpo, put_ne _ _ hpo]
    rw [put_ne _ _ hpo] at hk
    rw [hk]; exact h.via p k hk

theorem Mir.congr {loc' qloc' : Own → Option Addr} {cont' : Own → Option (List Nat)} (h : Mir loc qloc mem cont)
    (h1 : ∀ o, loc' o = loc o) (h2 : ∀ o, qloc' o = qloc o) (h3 : ∀ o, cont' o = cont o) : Mir loc' qloc' mem cont' := by
  rw [funext h1, funext h2, funext h3]; exact h

theorem Mir.short (h : Mir loc qloc mem cont) (hc : cont o = some cs) : cs.length < 2 ^ 64 := by
  obtain ⟨C, hm, _, e⟩ := h.ex
  obtain ⟨l, hl⟩ := h.loc_some hc
  rw [e, hl] at hc
  exact hm.length hc

end Rcpr.FibMem
