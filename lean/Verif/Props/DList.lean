import Verif.DListProof
import Verif.Props.SList

/-! Properties of doubly linked lists: C02, C03, C04, C05, C44, C45. -/
namespace Rcpr.DList

open Rcpr.SList (Addr Env okEnv Hdr upd Out Seq World Spec FreshNode FreshList hdOr hdrOf upd_same upd_ne
  updn_upd OOM_ne first_eq stored stored_split)

/-! ### C02: sequence semantics in both directions -/

/-- C02. Every history that the specification allows runs without undefined behaviour and every
call returns exactly what the abstract sequences say. -/
theorem list_refines_sequence {ops : List Op} {outs : List Out} {s : Spec}
    (h : SpecRun SList.Spec.empty ops outs s) :
    ∃ m, run okEnv Mem.empty ops = some (outs, m) := by
  obtain ⟨m, h1, _⟩ := run_refines Inv.empty h
  exact ⟨m, h1⟩

/-- Walk a list as a client does; `adv` is `list_node_next` or `list_node_prev`. -/
def walk (adv : Addr → Option Addr) (m : Mem) : Nat → Addr → Option (List Addr)
  | 0, _ => none
  | fuel + 1, p =>
    if p = 0 then some []
    else do
      let c ← child m p
      let n ← adv p
      let cs ← walk adv m fuel n
      return c :: cs

theorem walk_fwd {m : Mem} {l : Addr} : ∀ (xs : Seq) (fuel : Nat) (p : Addr), xs.length < fuel →
    seg m.nodes l p xs 0 → walk (next m) m fuel (hdOr xs 0) = some (Seq.children xs)
  | [], fuel + 1, _, _, _ => by simp [walk, hdOr, Seq.children]
  | (a, c) :: xs, fuel + 1, p, hf, hs => by
    obtain ⟨h1, h2, h3, h4⟩ := hs
    have ih := walk_fwd xs fuel a (by simpa using hf) h4
    have hd : hdOr ((a, c) :: xs) 0 = a := rfl
    simp [walk, hd, h1, child, next, h3, ih, Seq.children]

theorem walk_bwd {m : Mem} {l : Addr} (n : Nat) : ∀ (xs : Seq) (fuel : Nat) (q : Addr), xs.length = n →
    n < fuel → seg m.nodes l 0 xs q →
    walk (prev m) m fuel (lastOr 0 xs) = some (Seq.children xs).reverse := by
  induction n with
  | zero =>
    intro xs fuel q hn hf hs
    obtain ⟨fuel, rfl⟩ : ∃ g, fuel = g + 1 := ⟨fuel - 1, by omega⟩
    have : xs = [] := by simpa using hn
    subst this; simp [walk, lastOr, Seq.children]
  | succ n ih =>
    intro xs fuel q hn hf hs
    obtain ⟨fuel, rfl⟩ : ∃ g, fuel = g + 1 := ⟨fuel - 1, by omega⟩
    rcases List.eq_nil_or_concat xs with rfl | ⟨ys, ⟨t, c⟩, rfl⟩
    · simp at hn
    · rw [List.concat_eq_append] at *
      obtain ⟨hs1, ht0, hc0, ht, -⟩ := (seg_append _ _ _ _ _ _).1 hs
      have := ih ys fuel _ (by simpa using hn) (by omega) hs1
      have hlo : lastOr 0 (ys ++ [(t, c)]) = t := by simp [lastOr]
      simp [walk, hlo, ht0, child, prev, ht, this, Seq.children]

/-- C02. After any history, for every list of the world: the forward walk from the head visits the
children of the abstract sequence in order, the backward walk from the tail visits them in
reverse order, and the count is the length. -/
theorem list_observation {ops : List Op} {outs : List Out} {s : Spec} {m : Mem}
    (h : SpecRun SList.Spec.empty ops outs s) (hr : run okEnv Mem.empty ops = some (outs, m))
    {l : Addr} {xs : Seq} (hl : (l, xs) ∈ s.lists) :
    (∃ p, head m l = some p ∧
      ∀ fuel, xs.length < fuel → walk (next m) m fuel p = some (xs.map Prod.snd)) ∧
    (∃ p, tail m l = some p ∧
      ∀ fuel, xs.length < fuel → walk (prev m) m fuel p = some (xs.map Prod.snd).reverse) ∧
    (∃ c, count m l = some c ∧ (xs.length < 2 ^ 64 → c.toNat = xs.length)) := by
  obtain ⟨m', h1, inv⟩ := run_refines Inv.empty h
  rw [hr] at h1; simp at h1; subst h1
  have hh := inv.hdr l xs hl
  refine ⟨⟨hdOr xs 0, ?_, ?_⟩, ⟨lastOr 0 xs, ?_, ?_⟩, ?_⟩
  · simp [head, hh, hdrOf, first_eq]
  · intro fuel hf; exact walk_fwd xs fuel 0 hf (inv.segs l xs hl)
  · simp [tail, hh, hdrOf, last_eq]
  · intro fuel hf; exact walk_bwd _ xs fuel 0 rfl hf (inv.segs l xs hl)
  · refine ⟨BitVec.ofNat 64 xs.length, by simp [count, hh, hdrOf], ?_⟩
    intro hlt; simp; omega

def sampleOps : List Op :=
  [.create (some 1), .insertHead 1 70 (some 10), .appendTail 1 71 (some 11), .append 10 72 (some 12),
   .insert 11 73 (some 13), .insert 10 74 (some 14), .pop 1 0, .insertHead 1 99 none, .count 1,
   .prev 13, .tail 1]

/-- The hypotheses of the theorems above are met by a non-trivial history. -/
example : ∃ outs, SpecRun SList.Spec.empty sampleOps outs
    ⟨[(1, [(10, 70), (12, 72), (13, 73), (11, 71)])], []⟩ :=
  ⟨_, .cons (.create_ok (.of (by decide))) <|
   .cons (.insertHead_ok (A := []) (by decide) (.of (by decide))) <|
   .cons (.appendTail_ok (A := []) (by decide) (.of (by decide))) <|
   .cons (.append_ok (A := []) (xs := []) (by decide) (.of (by decide))) <|
   .cons (.insert_ok (A := []) (xs := [(10, 70), (12, 72)]) (by decide) (.of (by decide))) <|
   .cons (.insert_ok (A := []) (xs := []) (by decide) (.of (by decide))) <|
   .cons (.pop_ok (A := [])) <|
   .cons (.insertHead_fail (A := []) (by decide)) <|
   .cons (.count_ok (l := 1) (xs := [(10, 70), (12, 72), (13, 73), (11, 71)]) (by simp)) <|
   .cons (.prev_ok (l := 1) (xs := [(10, 70), (12, 72)]) (n := 13) (c := 73) (ys := [(11, 71)]) (by simp)) <|
   .cons (.tail_ok (l := 1) (xs := [(10, 70), (12, 72), (13, 73), (11, 71)]) (by simp)) .nil⟩

example : (run okEnv Mem.empty sampleOps).map (fun r => r.1.drop 6) =
    some [.ptr SUCCESS 74, .st ERROR_GENERAL_OUT_OF_MEMORY, .cnt 4#64, .ptr SUCCESS 12,
      .ptr SUCCESS 11] := by decide

/-! ### C44: allocation failure -/

/-- C44 (list). When the allocator refuses the node, every inserting call returns
out-of-memory and the whole memory is unchanged, for every memory in which the call is defined. -/
theorem list_insert_oom (m : Mem) (l r : Addr) (st : Status) (m' : Mem) :
    (insertHead m none l r = some (st, m') → st = ERROR_GENERAL_OUT_OF_MEMORY ∧ m' = m) ∧
    (appendTail m none l r = some (st, m') → st = ERROR_GENERAL_OUT_OF_MEMORY ∧ m' = m) ∧
    (append m none l r = some (st, m') → st = ERROR_GENERAL_OUT_OF_MEMORY ∧ m' = m) ∧
    (insert m none l r = some (st, m') → st = ERROR_GENERAL_OUT_OF_MEMORY ∧ m' = m) := by
  have hH : ∀ l, insertHead m none l r = some (st, m') → st = ERROR_GENERAL_OUT_OF_MEMORY ∧ m' = m := by
    intro l; cases h : m.lists l <;> simp [insertHead, nodeCreate, h, OOM_ne, eq_comm]
  have hA : ∀ l, append m none l r = some (st, m') → st = ERROR_GENERAL_OUT_OF_MEMORY ∧ m' = m := by
    intro l
    cases h : m.nodes l with
    | none => simp [append, h]
    | some n =>
      cases h' : m.lists n.parent <;> simp [append, h, nodeCreate, h', OOM_ne, eq_comm]
  refine ⟨hH l, ?_, hA l, ?_⟩
  · cases h : m.lists l <;> simp [appendTail, nodeCreate, h, OOM_ne, eq_comm]
  · cases h : m.nodes l with
    | none => simp [insert, h]
    | some n =>
      by_cases hp : n.prev = 0
      · simpa [insert, h, hp] using hH n.parent
      · simpa [insert, h, hp] using hA n.prev

example : (run okEnv Mem.empty [.create (some 1), .insertHead 1 7 (some 3), .insert 3 8 none, .count 1]).map
    Prod.fst = some [.ptr SUCCESS 1, .st SUCCESS, .st ERROR_GENERAL_OUT_OF_MEMORY, .cnt 1#64] := by decide

/-! ### C04: ownership -/

/-- children whose ownership a call passed to the list -/
def given : Op → Out → List Addr
  | .insertHead _ r _, .st s => if s = SUCCESS then [r] else []
  | .appendTail _ r _, .st s => if s = SUCCESS then [r] else []
  | .append _ r _, .st s => if s = SUCCESS then [r] else []
  | .insert _ r _, .st s => if s = SUCCESS then [r] else []
  | .childSwap _ r, .ptr s _ => if s = SUCCESS then [r] else []
  | _, _ => []

/-- children whose ownership a call passed back to the caller -/
def handedBack : Op → Out → List Addr
  | .pop _ _, .ptr _ v => if v = 0 then [] else [v]
  | .childSwap _ _, .ptr _ v => if v = 0 then [] else [v]
  | _, _ => []

/-- the caller initialises the output pointer of `list_pop` with `NULL` -/
def cleanPop : Op → Prop
  | .pop _ rIn => rIn = 0
  | _ => True

def collect (f : Op → Out → List Addr) : List Op → List Out → List Addr
  | op :: ops, o :: os => f op o ++ collect f ops os
  | _, _ => []

theorem child_ne_zero {m s} (inv : Inv m s) {l xs n c ys} (h : (l, xs ++ (n, c) :: ys) ∈ s.lists) :
    c ≠ 0 := by
  obtain ⟨hs1, hn0, hc0, hn, hs2⟩ := (seg_append _ _ _ _ _ _).1 (inv.segs _ _ h)
  exact hc0

theorem step_accounting {m s op o s'} (inv : Inv m s) (h : SpecStep s op o s') (hc : cleanPop op) :
    (given op o ++ (s.released ++ stored s.lists)).Perm
      (handedBack op o ++ (s'.released ++ stored s'.lists)) := by
  cases h with
  | create_fail => simp [given, handedBack]
  | create_ok hf => simp [given, handedBack, stored]
  | insertHead_fail hr => simp [given, handedBack, OOM_ne]
  | insertHead_ok hr hf => simp only [given, handedBack, if_true, stored_split, List.map_cons]; permcount
  | appendTail_fail hr => simp [given, handedBack, OOM_ne]
  | appendTail_ok hr hf =>
    simp only [given, handedBack, if_true, stored_split, List.map_append, List.map_cons]; permcount
  | append_fail hr => simp [given, handedBack, OOM_ne]
  | append_ok hr hf =>
    simp only [given, handedBack, if_true, stored_split, List.map_append, List.map_cons]; permcount
  | insert_fail hr => simp [given, handedBack, OOM_ne]
  | insert_ok hr hf =>
    simp only [given, handedBack, if_true, stored_split, List.map_append, List.map_cons]; permcount
  | pop_empty => simp only [cleanPop] at hc; subst hc; simp [given, handedBack]
  | @pop_ok A B l n c xs R rIn =>
    have := child_ne_zero inv (l := l) (xs := []) (n := n) (c := c) (ys := xs) (by simp)
    simp only [given, handedBack, this, if_false, stored_split, List.map_cons]; permcount
  | @childSwap_ok A B l xs n c ys R r hr =>
    have := child_ne_zero inv (l := l) (xs := xs) (n := n) (c := c) (ys := ys) (by simp)
    simp only [given, handedBack, this, if_false, if_true, stored_split, List.map_append, List.map_cons]
    permcount
  | clear_ok hf => simp only [given, handedBack, stored_split, Seq.children, List.map_nil]; permcount
  | @release_ok A B l xs R f hf =>
    have : stored (A ++ B) = stored A ++ stored B := by simp [stored]
    simp only [given, handedBack, stored_split, Seq.children, this]; permcount
  | head_ok h => simp [given, handedBack]
  | tail_ok h => simp [given, handedBack]
  | count_ok h => simp [given, handedBack]
  | next_ok h => simp [given, handedBack]
  | prev_ok h => simp [given, handedBack]
  | child_ok h => simp [given, handedBack]

theorem run_accounting {ops : List Op} : ∀ {m s os s'}, Inv m s → SpecRun s ops os s' →
    (∀ op ∈ ops, cleanPop op) →
    (collect given ops os ++ (s.released ++ stored s.lists)).Perm
      (collect handedBack ops os ++ (s'.released ++ stored s'.lists)) := by
  induction ops with
  | nil => intro m s os s' inv h _; cases h; simp [collect]
  | cons op ops ih =>
    intro m s os s' inv h hc
    cases h with
    | @cons _ s1 _ _ o _ os h t =>
      obtain ⟨m1, h1, inv1⟩ := step_refines inv h
      have h2 := step_accounting inv h (hc op (by simp))
      have h3 := ih inv1 t (fun x hx => hc x (by simp [hx]))
      rw [List.perm_iff_count] at h2 h3 ⊢
      intro x
      have h2 := h2 x
      have h3 := h3 x
      simp only [collect, List.count_append] at h2 h3 ⊢
      omega

/-- C04. At any point of any history, the children given to lists are, with multiplicity, exactly
those handed back to the caller, those whose release method has been called, and those still
stored. -/
theorem list_ownership {ops : List Op} {outs : List Out} {s : Spec}
    (h : SpecRun SList.Spec.empty ops outs s) (hc : ∀ op ∈ ops, cleanPop op) :
    ∃ m, run okEnv Mem.empty ops = some (outs, m) ∧
      (collect given ops outs).Perm (collect handedBack ops outs ++ (m.released ++ stored s.lists)) := by
  obtain ⟨m, h1, inv⟩ := run_refines Inv.empty h
  refine ⟨m, h1, ?_⟩
  have := run_accounting Inv.empty h hc
  simpa [SList.Spec.empty, stored, inv.rel] using this

/-- C04, end of life: once every list has been released, each child given to a list was handed back
or released exactly once in total, and no node or list structure is still allocated. -/
theorem list_no_leak_no_double_release {ops : List Op} {outs : List Out} {s : Spec}
    (h : SpecRun SList.Spec.empty ops outs s) (hc : ∀ op ∈ ops, cleanPop op) (hdone : s.lists = []) :
    ∃ m, run okEnv Mem.empty ops = some (outs, m) ∧
      (∀ c, (collect given ops outs).count c
        = (collect handedBack ops outs).count c + m.released.count c) ∧
      (∀ a, m.nodes a = none) ∧ (∀ a, m.lists a = none) := by
  obtain ⟨m, h1, inv⟩ := run_refines Inv.empty h
  refine ⟨m, h1, ?_, ?_, ?_⟩
  · intro c
    have := run_accounting Inv.empty h hc
    rw [List.perm_iff_count] at this
    have := this c
    simpa [SList.Spec.empty, stored, hdone, inv.rel, List.count_append] using this
  · intro a
    cases hn : m.nodes a with
    | none => rfl
    | some n => obtain ⟨xs, h1, _⟩ := inv.owned a n hn; simp [hdone] at h1
  · intro a; exact inv.noList a (by simp [hdone])

/-- a concrete history ending with all lists released -/
example : ∃ outs, SpecRun SList.Spec.empty
    [.create (some 1), .insertHead 1 70 (some 10), .insert 10 71 (some 11), .pop 1 0, .release 1 5]
    outs ⟨[], [70]⟩ :=
  ⟨_, .cons (.create_ok (.of (by decide))) <|
   .cons (.insertHead_ok (A := []) (by decide) (.of (by decide))) <|
   .cons (.insert_ok (A := []) (xs := []) (by decide) (.of (by decide))) <|
   .cons (.pop_ok (A := [])) <|
   .cons (.release_ok (A := []) (by decide)) .nil⟩

/-! ### C05: failing pops -/

/-- C05 for `list_pop`: in any reachable state, if the popped node cannot be reclaimed, the call
does not report success. -/
def PopReportsFailure : Prop :=
  ∀ (ops : List Op) (outs : List Out) (s : Spec) (m : Mem), SpecRun SList.Spec.empty ops outs s →
    run okEnv Mem.empty ops = some (outs, m) →
    ∀ (e : Env) (l n c : Addr) (xs : Seq) (st : Status) (r : Addr) (m' : Mem),
      (l, (n, c) :: xs) ∈ s.lists → e.reclaim n ≠ SUCCESS →
      pop e m l 0 = some (st, r, m') → st ≠ SUCCESS

/-- C05 is violated on every non-empty list: when the node cannot be reclaimed and the child's own
release succeeds, `list_pop` returns success with `NULL` and has destroyed the child. -/
theorem list_pop_swallows_failure {m A B l n c xs R} (inv : Inv m ⟨A ++ (l, (n, c) :: xs) :: B, R⟩)
    (e : Env) (hfail : e.reclaim n ≠ SUCCESS) (hrel : e.rel c = SUCCESS) :
    ∃ m', pop e m l 0 = some (SUCCESS, 0, m') ∧ m'.released = m.released ++ [c] := by
  obtain ⟨nodes', h1, h2, -⟩ := pop_prefix (rIn := 0) e inv
  have hc0 := child_ne_zero inv (l := l) (xs := []) (n := n) (c := c) (ys := xs) (by simp)
  rw [h2]
  exact ⟨_, by simp [finishPop, nodeRelease, h1, hfail, releaseChild, hc0, hrel]; rfl, rfl⟩

/-- C05 does not hold for `list_pop`. -/
theorem list_pop_reports_failure_violated : ¬ PopReportsFailure := by
  intro h
  have hrun : SpecRun SList.Spec.empty [.create (some 1), .insertHead 1 70 (some 10)]
      [.ptr SUCCESS 1, .st SUCCESS] ⟨[(1, [(10, 70)])], []⟩ :=
    .cons (.create_ok (.of (by decide))) <|
    .cons (.insertHead_ok (A := []) (by decide) (.of (by decide))) .nil
  obtain ⟨m, h1, inv⟩ := run_refines Inv.empty hrun
  let e : Env := ⟨fun _ => SUCCESS, fun _ => ERROR_GENERAL_OUT_OF_MEMORY⟩
  obtain ⟨m', h2, _⟩ := list_pop_swallows_failure (A := []) (B := []) (l := 1) (n := 10) (c := 70)
    (xs := []) inv e OOM_ne rfl
  exact h _ _ _ _ hrun h1 e 1 10 70 [] SUCCESS 0 m' (by simp) OOM_ne h2 rfl

/-- C05, the part that holds: when the node can be reclaimed, success comes with the popped child
and the list loses exactly its first element. Missing from the full claim: the failing reclaim. -/
theorem list_pop_reports_failure_partial {m : Mem} {A B : World} {l n c : Addr} {xs : Seq}
    {R : List Addr} (inv : Inv m ⟨A ++ (l, (n, c) :: xs) :: B, R⟩) (e : Env)
    (hok : e.reclaim n = SUCCESS) :
    ∃ m', pop e m l 0 = some (SUCCESS, c, m') ∧ Inv m' ⟨A ++ (l, xs) :: B, R⟩ := by
  obtain ⟨nodes', h1, h2, h3⟩ := pop_prefix (rIn := 0) e inv
  refine ⟨_, ?_, h3⟩
  rw [h2]
  simp [finishPop, nodeRelease, h1, hok]

/-! ### C03: swap -/

/-- C03: after a swap, every history that the specification allows on the swapped lists returns
what the specification says. -/
def SwapExchanges : Prop :=
  ∀ (ops : List Op) (outs : List Out) (s : Spec) (m m' : Mem), SpecRun SList.Spec.empty ops outs s →
    run okEnv Mem.empty ops = some (outs, m) →
    ∀ (l r : Addr) (xs ys : Seq), l ≠ r → (l, xs) ∈ s.lists → (r, ys) ∈ s.lists →
      swap m l r = some m' →
      ∀ (ops' : List Op) (outs' : List Out) (s' : Spec),
        SpecRun ⟨SList.swapped l r s.lists, s.released⟩ ops' outs' s' →
        ∃ m'', run okEnv m' ops' = some (outs', m'')

def swapOps : List Op :=
  [.create (some 2), .create (some 1), .appendTail 1 70 (some 10), .appendTail 2 80 (some 20)]

/-- C03 is violated: after swapping lists 1 and 2, inserting a child before node 10 (the head of what is
now list 2) puts it in list 1. -/
theorem list_swap_violated : ¬ SwapExchanges := by
  intro h
  have hrun : SpecRun SList.Spec.empty swapOps
      [.ptr SUCCESS 2, .ptr SUCCESS 1, .st SUCCESS, .st SUCCESS] ⟨[(1, [(10, 70)]), (2, [(20, 80)])], []⟩ :=
    .cons (.create_ok (.of (by decide))) <|
    .cons (.create_ok (.of (by decide))) <|
    .cons (.appendTail_ok (A := []) (by decide) (.of (by decide))) <|
    .cons (.appendTail_ok (A := [(1, [(10, 70)])]) (by decide) (.of (by decide))) .nil
  have hrun2 : SpecRun ⟨[(1, [(20, 80)]), (2, [(10, 70)])], []⟩ [.insert 10 71 (some 30), .head 2]
      [.st SUCCESS, .ptr SUCCESS 30] ⟨[(1, [(20, 80)]), (2, [(30, 71), (10, 70)])], []⟩ :=
    .cons (.insert_ok (A := [(1, [(20, 80)])]) (xs := []) (by decide) (.of (by decide))) <|
    .cons (.head_ok (l := 2) (xs := [(30, 71), (10, 70)]) (by simp)) .nil
  obtain ⟨m, h1, inv⟩ := run_refines Inv.empty hrun
  obtain ⟨m', h2⟩ : ∃ m', swap m 1 2 = some m' := by
    have e1 := inv.hdr 1 [(10, 70)] (by simp)
    have e2 := inv.hdr 2 [(20, 80)] (by simp)
    simp [swap, e1, e2]
  have h3 := h _ _ _ m m' hrun h1 1 2 [(10, 70)] [(20, 80)] (by decide) (by simp) (by simp) h2
    [.insert 10 71 (some 30), .head 2] [.st SUCCESS, .ptr SUCCESS 30] _ hrun2
  obtain ⟨m'', h3⟩ := h3
  have hcalc : ((run okEnv Mem.empty swapOps).bind (fun r => (swap r.2 1 2).bind (fun m =>
      (run okEnv m [.insert 10 71 (some 30), .head 2]).map Prod.fst)))
        = some [.st SUCCESS, .ptr SUCCESS 10] := by decide
  rw [h1] at hcalc
  simp [h2, h3] at hcalc

/-- C03, the part that holds: immediately after a swap all observers (head, walks, tail, count) of
the two lists are exchanged. Missing: node-relative operations afterwards, which use the stale owner. -/
theorem list_swap_partial {m : Mem} {s : Spec} (inv : Inv m s) {l r : Addr} {xs ys : Seq} (hne : l ≠ r)
    (hl : (l, xs) ∈ s.lists) (hr : (r, ys) ∈ s.lists) :
    ∃ m', swap m l r = some m' ∧
      (head m' l = head m r ∧ tail m' l = tail m r ∧ count m' l = count m r) ∧
      (head m' r = head m l ∧ tail m' r = tail m l ∧ count m' r = count m l) ∧
      (∀ fuel p, walk (next m') m' fuel p = walk (next m) m fuel p) ∧
      (∀ fuel p, walk (prev m') m' fuel p = walk (prev m) m fuel p) ∧
      (∀ p, p ≠ l → p ≠ r → m'.lists p = m.lists p) := by
  have e1 := inv.hdr l xs hl
  have e2 := inv.hdr r ys hr
  refine ⟨{ m with lists := upd (upd m.lists l (some (hdrOf ys))) r (some (hdrOf xs)) },
    by simp [swap, e1, e2], ?_, ?_, ?_, ?_, ?_⟩
  · simp [head, tail, count, upd_ne _ _ hne, upd_same, e2]
  · simp [head, tail, count, upd_same, e1]
  · intro fuel
    induction fuel with
    | zero => intro p; rfl
    | succ f ih =>
      intro p
      have : next { m with lists := upd (upd m.lists l (some (hdrOf ys))) r (some (hdrOf xs)) } = next m := rfl
      rw [this] at ih ⊢
      simp only [walk, child, ih]
  · intro fuel
    induction fuel with
    | zero => intro p; rfl
    | succ f ih =>
      intro p
      have : prev { m with lists := upd (upd m.lists l (some (hdrOf ys))) r (some (hdrOf xs)) } = prev m := rfl
      rw [this] at ih ⊢
      simp only [walk, child, ih]
  · intro p h1 h2
    show upd (upd m.lists l _) r _ p = _
    rw [upd_ne _ _ h2, upd_ne _ _ h1]

/-! ### C45: a clear that fails part-way -/

/-- C45 for `list_clear`: after a clear that failed on some child, an append to the list is visible
from its head. -/
def FailedClearUsable : Prop :=
  ∀ (ops : List Op) (outs : List Out) (s : Spec) (m m' m'' : Mem), SpecRun SList.Spec.empty ops outs s →
    run okEnv Mem.empty ops = some (outs, m) →
    ∀ (e : Env) (l : Addr) (xs : Seq) (f : Nat) (st : Status) (r a : Addr), (l, xs) ∈ s.lists →
      clear e f m l = some (st, m') → m'.nodes a = none → a ≠ 0 → r ≠ 0 →
      appendTail m' (some a) l r = some (SUCCESS, m'') →
      ∃ p, head m'' l = some p ∧ p ≠ 0

/-- C45 is violated: the clear of a one-element list whose child refuses release leaves the tail pointer
behind; the next append is linked after the leaked node and the list looks empty from the head. -/
theorem list_failed_clear_violated : ¬ FailedClearUsable := by
  intro h
  have hrun : SpecRun SList.Spec.empty [.create (some 1), .insertHead 1 70 (some 10)]
      [.ptr SUCCESS 1, .st SUCCESS] ⟨[(1, [(10, 70)])], []⟩ :=
    .cons (.create_ok (.of (by decide))) <|
    .cons (.insertHead_ok (A := []) (by decide) (.of (by decide))) .nil
  obtain ⟨m, h1, inv⟩ := run_refines Inv.empty hrun
  let e : Env := ⟨fun _ => ERROR_GENERAL_OUT_OF_MEMORY, fun _ => SUCCESS⟩
  have hcalc : ((run okEnv Mem.empty [.create (some 1), .insertHead 1 70 (some 10)]).bind (fun r =>
      (clear e 5 r.2 1).bind (fun c => (appendTail c.2 (some 11) 1 71).map (fun q =>
        ((c.2.nodes 11).isNone, q.1, head q.2 1)))))
        = some (true, SUCCESS, some 0) := by decide
  rw [h1] at hcalc
  cases hc : clear e 5 m 1 with
  | none => simp [hc] at hcalc
  | some c =>
    obtain ⟨st, m'⟩ := c
    cases hp : appendTail m' (some 11) 1 71 with
    | none => simp [hc, hp] at hcalc
    | some q =>
      obtain ⟨st', m''⟩ := q
      simp [hc, hp] at hcalc
      obtain ⟨e2, e3, e4⟩ := hcalc
      subst e3
      obtain ⟨p, hp1, hp2⟩ := h _ _ _ m m' m'' hrun h1 e 1 [(10, 70)] 5 st 71 11 (by simp) hc e2
        (by decide) (by decide) hp
      rw [e4] at hp1; simp at hp1; exact hp2 hp1.symm

/-- C45, the part that holds: when the child of the first node refuses release, the clear stops
at once with that status, exactly that child was asked, and the rest of the list is still linked from
the head with the right count. Missing: the tail when the failing node was the last one. -/
theorem list_failed_clear_partial {m A B l n c xs R f}
    (inv : Inv m ⟨A ++ (l, (n, c) :: xs) :: B, R⟩) (e : Env) (hfail : e.rel c ≠ SUCCESS) :
    ∃ m', clear e (f + 1) m l = some (e.rel c, m') ∧ m'.released = m.released ++ [c] ∧
      count m' l = some (BitVec.ofNat 64 xs.length) ∧
      ∃ p, head m' l = some p ∧ ∀ fuel, xs.length < fuel →
        walk (next m') m' fuel p = some (xs.map Prod.snd) := by
  have hh := inv.hdr l _ (List.mem_append_right _ (List.mem_cons_self ..))
  have hseg := inv.segs l _ (List.mem_append_right _ (List.mem_cons_self ..))
  have hnd := inv.nodup l _ (List.mem_append_right _ (List.mem_cons_self ..))
  obtain ⟨hn0, hc0, hn, hs⟩ := hseg
  simp only [SList.addrs_cons, List.nodup_cons] at hnd
  have h2 : Seq.first ((n, c) :: xs) = n := rfl
  have hdec : BitVec.ofNat 64 ((n, c) :: xs).length - 1 = BitVec.ofNat 64 xs.length :=
    SList.ofNat_pred xs.length
  refine ⟨{ m with
      nodes := upd m.nodes n (some ⟨0, 0, 0, 0⟩)
      lists := upd m.lists l (some ⟨hdOr xs 0, Seq.last ((n, c) :: xs), BitVec.ofNat 64 xs.length⟩)
      released := m.released ++ [c] }, ?_, rfl, ?_, hdOr xs 0, ?_, ?_⟩
  · simp only [clear, hh, hdrOf, h2, Option.bind_eq_bind, Option.bind_some, ne_eq, hn0, not_false_eq_true,
      if_true, hn, Mem.modList, upd_same, Mem.modNode, updn_upd, nodeRelease, hc0, releaseChild, if_false,
      hdec]
    simp [hfail]
  · simp [count, upd_same]
  · simp [head, upd_same]
  · intro fuel hf
    exact walk_fwd xs fuel n hf (seg_congr (fun b hb => upd_ne _ _ (by rintro rfl; exact hnd.1 hb)) hs)

end Rcpr.DList
