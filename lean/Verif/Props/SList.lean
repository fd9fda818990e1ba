import Verif.SListProof

/-! Properties of singly linked lists: C01, C03, C04, C05, C44, C45. -/
namespace Rcpr.SList

/-! ### C01: sequence semantics -/

/-- C01. Every history that the specification allows (any interleaving of calls on any number
of lists, any fresh addresses from the allocator, any allocation failures) runs without
undefined behaviour and every call returns exactly what the abstract sequences say. -/
theorem slist_refines_sequence {ops : List Op} {outs : List Out} {s : Spec}
    (h : SpecRun Spec.empty ops outs s) :
    ∃ m, run okEnv Mem.empty ops = some (outs, m) := by
  obtain ⟨m, h1, _⟩ := run_refines Inv.empty h
  exact ⟨m, h1⟩

/-- Walking a list the way a client does: start at `slist_head`, collect
`slist_node_child`, advance with `slist_node_next` until `NULL`. -/
def walk (m : Mem) : Nat → Addr → Option (List Addr)
  | 0, _ => none
  | fuel + 1, p =>
    if p = 0 then some []
    else do
      let c ← child m p
      let n ← next m p
      let cs ← walk m fuel n
      return c :: cs

theorem walk_seg {m : Mem} {l : Addr} : ∀ (xs : Seq) (fuel : Nat), xs.length < fuel →
    seg m.nodes l xs 0 → walk m fuel (hdOr xs 0) = some (Seq.children xs)
  | [], fuel + 1, _, _ => by simp [walk, hdOr, Seq.children]
  | (a, c) :: xs, fuel + 1, hf, hs => by
    obtain ⟨h1, h2, h3, h4⟩ := hs
    have ih := walk_seg xs fuel (by simpa using hf) h4
    have hd : hdOr ((a, c) :: xs) 0 = a := rfl
    simp [walk, hd, h1, child, next, h3, ih, Seq.children]

/-- C01. After any history, for every list of the world: the walk from the head visits exactly the
children of the abstract sequence in order, the tail is its last node and the count its
length (as a 64-bit number). -/
theorem slist_observation {ops : List Op} {outs : List Out} {s : Spec} {m : Mem}
    (h : SpecRun Spec.empty ops outs s) (hr : run okEnv Mem.empty ops = some (outs, m))
    {l : Addr} {xs : Seq} (hl : (l, xs) ∈ s.lists) :
    (∃ p, head m l = some p ∧ ∀ fuel, xs.length < fuel → walk m fuel p = some (xs.map Prod.snd)) ∧
    tail m l = some (match xs.getLast? with | none => 0 | some n => n.1) ∧
    (∃ c, count m l = some c ∧ (xs.length < 2 ^ 64 → c.toNat = xs.length)) := by
  obtain ⟨m', h1, inv⟩ := run_refines Inv.empty h
  rw [hr] at h1; simp at h1; subst h1
  have hh := inv.hdr l xs hl
  refine ⟨⟨hdOr xs 0, ?_, ?_⟩, ?_, ?_⟩
  · simp [head, hh, hdrOf, first_eq]
  · intro fuel hf; exact walk_seg xs fuel hf (inv.segs l xs hl)
  · simp only [tail, hh, hdrOf, Seq.last]; rfl
  · refine ⟨BitVec.ofNat 64 xs.length, by simp [count, hh, hdrOf], ?_⟩
    intro hlt; simp; omega

/-- A history used below as a concrete case: two lists, head, tail and node-relative
operations, one allocation failure. -/
def sampleOps : List Op :=
  [.create (some 1), .create (some 2), .insertHead 1 70 (some 10), .appendTail 1 71 (some 11),
   .append 10 72 (some 12), .appendTail 2 80 (some 13), .insertHead 1 99 none, .nextPop 12 0,
   .pop 1 0, .count 1, .tail 1]

/-- The hypotheses of the two theorems above are met by a non-trivial history. -/
example : ∃ outs, SpecRun Spec.empty sampleOps outs ⟨[(2, [(13, 80)]), (1, [(12, 72)])], []⟩ :=
  ⟨_, .cons (.create_ok (.of (by decide))) <|
   .cons (.create_ok (.of (by decide))) <|
   .cons (.insertHead_ok (A := [(2, [])]) (by decide) (.of (by decide))) <|
   .cons (.appendTail_ok (A := [(2, [])]) (by decide) (.of (by decide))) <|
   .cons (.append_ok (A := [(2, [])]) (xs := []) (by decide) (.of (by decide))) <|
   .cons (.appendTail_ok (A := []) (by decide) (.of (by decide))) <|
   .cons (.insertHead_fail (A := [_]) (by decide)) <|
   .cons (.nextPop_ok (A := [_]) (xs := [_])) <|
   .cons (.pop_ok (A := [_])) <|
   .cons (.count_ok (l := 1) (xs := [(12, 72)]) (by simp)) <|
   .cons (.tail_ok (l := 1) (xs := [(12, 72)]) (by simp)) .nil⟩

/-- The same history executed by the pointer program. -/
example : (run okEnv Mem.empty sampleOps).map (fun r => r.1.drop 7) =
    some [.ptr SUCCESS 71, .ptr SUCCESS 70, .cnt 1#64, .ptr SUCCESS 12] := by decide

/-! ### C44: allocation failure -/

/-- C44 (slist). When the allocator refuses the node, every inserting call returns
out-of-memory and the whole memory is unchanged, for every memory in which the call is defined. -/
theorem slist_insert_oom (m : Mem) (l r : Addr) (st : Status) (m' : Mem) :
    (insertHead m none l r = some (st, m') → st = ERROR_GENERAL_OUT_OF_MEMORY ∧ m' = m) ∧
    (appendTail m none l r = some (st, m') → st = ERROR_GENERAL_OUT_OF_MEMORY ∧ m' = m) ∧
    (append m none l r = some (st, m') → st = ERROR_GENERAL_OUT_OF_MEMORY ∧ m' = m) := by
  refine ⟨?_, ?_, ?_⟩
  · cases h : m.lists l <;> simp [insertHead, nodeCreate, h, OOM_ne, eq_comm]
  · cases h : m.lists l <;> simp [appendTail, nodeCreate, h, OOM_ne, eq_comm]
  · cases h : m.nodes l with
    | none => simp [append, h]
    | some n =>
      cases h' : m.lists n.parent <;> simp [append, h, nodeCreate, h', OOM_ne, eq_comm]

example : (run okEnv Mem.empty [.create (some 1), .insertHead 1 7 none, .count 1]).map Prod.fst =
    some [.ptr SUCCESS 1, .st ERROR_GENERAL_OUT_OF_MEMORY, .cnt 0#64] := by decide

/-! ### C04: ownership -/

/-- children whose ownership a call passed to the list -/
def given : Op → Out → List Addr
  | .insertHead _ r _, .st s => if s = SUCCESS then [r] else []
  | .appendTail _ r _, .st s => if s = SUCCESS then [r] else []
  | .append _ r _, .st s => if s = SUCCESS then [r] else []
  | .childSwap _ r, .ptr s _ => if s = SUCCESS then [r] else []
  | _, _ => []

/-- children whose ownership a call passed back to the caller -/
def handedBack : Op → Out → List Addr
  | .pop _ _, .ptr _ v => if v = 0 then [] else [v]
  | .nextPop _ _, .ptr _ v => if v = 0 then [] else [v]
  | .childSwap _ _, .ptr _ v => if v = 0 then [] else [v]
  | _, _ => []

/-- the caller initialises the output pointer of the popping calls with `NULL` -/
def cleanPop : Op → Prop
  | .pop _ rIn => rIn = 0
  | .nextPop _ rIn => rIn = 0
  | _ => True

def collect (f : Op → Out → List Addr) : List Op → List Out → List Addr
  | op :: ops, o :: os => f op o ++ collect f ops os
  | _, _ => []

/-- children presently stored in some list -/
def stored (w : World) : List Addr := w.flatMap (fun p => p.2.map Prod.snd)

theorem stored_split (A B : World) (l : Addr) (xs : Seq) :
    stored (A ++ (l, xs) :: B) = stored A ++ (xs.map Prod.snd ++ stored B) := by simp [stored]

theorem child_ne_zero {m s} (inv : Inv m s) {l xs n c ys} (h : (l, xs ++ (n, c) :: ys) ∈ s.lists) :
    c ≠ 0 := by
  obtain ⟨hs1, hn0, hc0, hn, hs2⟩ := (seg_append _ _ _ _ _).1 (inv.segs _ _ h)
  exact hc0

/-- A multiset identity solved by counting. -/
macro "permcount" : tactic =>
  `(tactic| (rw [List.perm_iff_count]; intro x; simp [List.count_append, List.count_cons]; try omega))

theorem step_accounting {m s op o s'} (inv : Inv m s) (h : SpecStep s op o s') (hc : cleanPop op) :
    (given op o ++ (s.released ++ stored s.lists)).Perm
      (handedBack op o ++ (s'.released ++ stored s'.lists)) := by
  cases h with
  | create_fail => simp [given, handedBack]
  | create_ok hf => simp [given, handedBack, stored]
  | insertHead_fail hr => simp [given, handedBack, OOM_ne]
  | insertHead_ok hr hf => simp only [given, handedBack, if_true, stored_split, List.map_cons]; permcount
  | appendTail_fail hr => simp [given, handedBack, OOM_ne]
  | appendTail_ok hr hf =>
    simp only [given, handedBack, if_true, stored_split, List.map_append, List.map_cons]; permcount
  | append_fail hr => simp [given, handedBack, OOM_ne]
  | append_ok hr hf =>
    simp only [given, handedBack, if_true, stored_split, List.map_append, List.map_cons]; permcount
  | pop_empty => simp only [cleanPop] at hc; subst hc; simp [given, handedBack]
  | @pop_ok A B l n c xs R rIn =>
    have := child_ne_zero inv (l := l) (xs := []) (n := n) (c := c) (ys := xs) (by simp)
    simp only [given, handedBack, this, if_false, stored_split, List.map_cons]; permcount
  | nextPop_last => simp only [cleanPop] at hc; subst hc; simp [given, handedBack]
  | @nextPop_ok A B l xs n c n' c' ys R rIn =>
    have := child_ne_zero inv (l := l) (xs := xs ++ [(n, c)]) (n := n') (c := c') (ys := ys) (by simp)
    simp only [given, handedBack, this, if_false, stored_split, List.map_append, List.map_cons]; permcount
  | @childSwap_ok A B l xs n c ys R r hr =>
    have := child_ne_zero inv (l := l) (xs := xs) (n := n) (c := c) (ys := ys) (by simp)
    simp only [given, handedBack, this, if_false, if_true, stored_split, List.map_append, List.map_cons]
    permcount
  | clear_ok hf => simp only [given, handedBack, stored_split, Seq.children, List.map_nil]; permcount
  | @release_ok A B l xs R f hf =>
    have : stored (A ++ B) = stored A ++ stored B := by simp [stored]
    simp only [given, handedBack, stored_split, Seq.children, this]; permcount
  | head_ok h => simp [given, handedBack]
  | tail_ok h => simp [given, handedBack]
  | count_ok h => simp [given, handedBack]
  | next_ok h => simp [given, handedBack]
  | child_ok h => simp [given, handedBack]

theorem run_accounting {ops : List Op} : ∀ {m s os s'}, Inv m s → SpecRun s ops os s' →
    (∀ op ∈ ops, cleanPop op) →
    (collect given ops os ++ (s.released ++ stored s.lists)).Perm
      (collect handedBack ops os ++ (s'.released ++ stored s'.lists)) := by
  induction ops with
  | nil => intro m s os s' inv h _; cases h; simp [collect]
  | cons op ops ih =>
    intro m s os s' inv h hc
    cases h with
    | @cons _ s1 _ _ o _ os h t =>
      obtain ⟨m1, h1, inv1⟩ := step_refines inv h
      have h2 := step_accounting inv h (hc op (by simp))
      have h3 := ih inv1 t (fun x hx => hc x (by simp [hx]))
      rw [List.perm_iff_count] at h2 h3 ⊢
      intro x
      have h2 := h2 x
      have h3 := h3 x
      simp only [collect, List.count_append] at h2 h3 ⊢
      omega

/-- C04. At any point of any history, the children given to lists are, with multiplicity, exactly
those handed back to the caller, those whose release method has been called, and those still
stored. -/
theorem slist_ownership {ops : List Op} {outs : List Out} {s : Spec}
    (h : SpecRun Spec.empty ops outs s) (hc : ∀ op ∈ ops, cleanPop op) :
    ∃ m, run okEnv Mem.empty ops = some (outs, m) ∧
      (collect given ops outs).Perm (collect handedBack ops outs ++ (m.released ++ stored s.lists)) := by
  obtain ⟨m, h1, inv⟩ := run_refines Inv.empty h
  refine ⟨m, h1, ?_⟩
  have := run_accounting Inv.empty h hc
  simpa [Spec.empty, stored, inv.rel] using this

/-- C04, end of life: once every list has been released, each child given to a list was handed back
or released exactly once in total, and no node or list structure is still allocated. -/
theorem slist_no_leak_no_double_release {ops : List Op} {outs : List Out} {s : Spec}
    (h : SpecRun Spec.empty ops outs s) (hc : ∀ op ∈ ops, cleanPop op) (hdone : s.lists = []) :
    ∃ m, run okEnv Mem.empty ops = some (outs, m) ∧
      (∀ c, (collect given ops outs).count c
        = (collect handedBack ops outs).count c + m.released.count c) ∧
      (∀ a, m.nodes a = none) ∧ (∀ a, m.lists a = none) := by
  obtain ⟨m, h1, inv⟩ := run_refines Inv.empty h
  refine ⟨m, h1, ?_, ?_, ?_⟩
  · intro c
    have := run_accounting Inv.empty h hc
    rw [List.perm_iff_count] at this
    have := this c
    simpa [Spec.empty, stored, hdone, inv.rel, List.count_append] using this
  · intro a
    cases hn : m.nodes a with
    | none => rfl
    | some n => obtain ⟨xs, h1, _⟩ := inv.owned a n hn; simp [hdone] at h1
  · intro a; exact inv.noList a (by simp [hdone])

/-- a concrete history ending with all lists released -/
example : ∃ outs, SpecRun Spec.empty
    [.create (some 1), .insertHead 1 70 (some 10), .appendTail 1 71 (some 11), .pop 1 0, .release 1 5]
    outs ⟨[], [71]⟩ :=
  ⟨_, .cons (.create_ok (.of (by decide))) <|
   .cons (.insertHead_ok (A := []) (by decide) (.of (by decide))) <|
   .cons (.appendTail_ok (A := []) (by decide) (.of (by decide))) <|
   .cons (.pop_ok (A := [])) <|
   .cons (.release_ok (A := []) (by decide)) .nil⟩

/-! ### C05: failing pops -/

/-- The full claim of C05 for `slist_pop`: in any reachable state, if the popped node cannot be
reclaimed, the call does not report success. -/
def PopReportsFailure : Prop :=
  ∀ (ops : List Op) (outs : List Out) (s : Spec) (m : Mem), SpecRun Spec.empty ops outs s →
    run okEnv Mem.empty ops = some (outs, m) →
    ∀ (e : Env) (l n c : Addr) (xs : Seq) (st : Status) (r : Addr) (m' : Mem),
      (l, (n, c) :: xs) ∈ s.lists → e.reclaim n ≠ SUCCESS →
      pop e m l 0 = some (st, r, m') → st ≠ SUCCESS

/-- C05 is violated, and not only for a witness: on every non-empty list, when the node
cannot be reclaimed and the child's own release succeeds, `slist_pop` returns success, stores `NULL`
through the output pointer, and has destroyed the child. -/
theorem slist_pop_swallows_failure {m s l n c xs} (inv : Inv m s) (hl : (l, (n, c) :: xs) ∈ s.lists)
    (e : Env) (hfail : e.reclaim n ≠ SUCCESS) (hrel : e.rel c = SUCCESS) :
    ∃ m', pop e m l 0 = some (SUCCESS, 0, m') ∧ m'.released = m.released ++ [c] := by
  have hh := inv.hdr _ _ hl
  obtain ⟨hn0, hc0, hn, hs⟩ := inv.segs _ _ hl
  have hfin : ∀ (m1 : Mem), m1.nodes n = some ⟨0, 0, 0⟩ → finishPop e m1 n c
      = some (SUCCESS, 0, { m1 with released := m1.released ++ [c] }) := by
    intro m1 h1
    simp [finishPop, nodeRelease, h1, hfail, releaseChild, hc0, hrel]
  by_cases h1 : n = Seq.last ((n, c) :: xs)
  · have h2 : Seq.first ((n, c) :: xs) = n := rfl
    simp only [pop, hh, hdrOf, h2, Option.bind_eq_bind, Option.bind_some, ne_eq, hn0, not_false_eq_true,
      if_true, ← h1, Mem.modList, Mem.modNode, upd_same, hn, updn_upd]
    rw [hfin _ (by simp [upd_same])]
    exact ⟨_, rfl, rfl⟩
  · have h2 : Seq.first ((n, c) :: xs) = n := rfl
    simp only [pop, hh, hdrOf, h2, Option.bind_eq_bind, Option.bind_some, ne_eq, hn0, not_false_eq_true,
      if_true, h1, if_false, Mem.modList, Mem.modNode, upd_same, hn, updn_upd]
    rw [hfin _ (by simp [upd_same])]
    exact ⟨_, rfl, rfl⟩

/-- C05 does not hold. -/
theorem slist_pop_reports_failure_violated : ¬ PopReportsFailure := by
  intro h
  have hrun : SpecRun Spec.empty [.create (some 1), .insertHead 1 70 (some 10)]
      [.ptr SUCCESS 1, .st SUCCESS] ⟨[(1, [(10, 70)])], []⟩ :=
    .cons (.create_ok (.of (by decide))) <|
    .cons (.insertHead_ok (A := []) (by decide) (.of (by decide))) .nil
  obtain ⟨m, h1, inv⟩ := run_refines Inv.empty hrun
  let e : Env := ⟨fun _ => SUCCESS, fun _ => ERROR_GENERAL_OUT_OF_MEMORY⟩
  obtain ⟨m', h2, _⟩ := slist_pop_swallows_failure inv (l := 1) (n := 10) (c := 70) (xs := [])
    (by simp) e OOM_ne rfl
  exact h _ _ _ _ hrun h1 e 1 10 70 [] SUCCESS 0 m' (by simp) OOM_ne h2 rfl

/-- C05, the part that holds: when the node can be reclaimed, success comes with the popped child
and the list loses exactly its first element. Missing from the full claim: the failing reclaim. -/
theorem slist_pop_reports_failure_partial {m : Mem} {A B : World} {l n c : Addr} {xs : Seq}
    {R : List Addr} (inv : Inv m ⟨A ++ (l, (n, c) :: xs) :: B, R⟩) (e : Env)
    (hok : e.reclaim n = SUCCESS) :
    ∃ m', pop e m l 0 = some (SUCCESS, c, m') ∧ Inv m' ⟨A ++ (l, xs) :: B, R⟩ := by
  obtain ⟨m', h1, h2⟩ := pop_refines (rIn := 0) inv
  refine ⟨m', ?_, h2⟩
  rw [← h1]
  have hh := inv.hdr _ _ (List.mem_append_right _ (List.mem_cons_self ..))
  obtain ⟨hn0, hc0, hn, hs⟩ := inv.segs _ _ (List.mem_append_right _ (List.mem_cons_self ..))
  have hfin : ∀ (m1 : Mem), m1.nodes n = some ⟨0, 0, 0⟩ → finishPop e m1 n c = finishPop okEnv m1 n c := by
    intro m1 h1
    simp [finishPop, nodeRelease, h1, hok, okEnv]
  have h2 : Seq.first ((n, c) :: xs) = n := rfl
  by_cases h1 : n = Seq.last ((n, c) :: xs)
  · simp only [pop, hh, hdrOf, h2, Option.bind_eq_bind, Option.bind_some, ne_eq, hn0, not_false_eq_true,
      if_true, ← h1, Mem.modList, Mem.modNode, upd_same, hn, updn_upd]
    rw [hfin _ (by simp [upd_same])]
  · simp only [pop, hh, hdrOf, h2, Option.bind_eq_bind, Option.bind_some, ne_eq, hn0, not_false_eq_true,
      if_true, h1, if_false, Mem.modList, Mem.modNode, upd_same, hn, updn_upd]
    rw [hfin _ (by simp [upd_same])]

/-- C05 for `slist_node_next_pop`: the same loss of the error, for every reachable list with a
successor node. -/
theorem slist_next_pop_swallows_failure {m A B l xs n c n' c' ys R}
    (inv : Inv m ⟨A ++ (l, xs ++ (n, c) :: (n', c') :: ys) :: B, R⟩)
    (e : Env) (hfail : e.reclaim n' ≠ SUCCESS) (hrel : e.rel c' = SUCCESS) :
    ∃ m', nextPop e m n 0 = some (SUCCESS, 0, m') ∧ m'.released = m.released ++ [c'] := by
  have hh := inv.hdr l _ (List.mem_append_right _ (List.mem_cons_self ..))
  have hseg := inv.segs l _ (List.mem_append_right _ (List.mem_cons_self ..))
  have hnd := inv.nodup l _ (List.mem_append_right _ (List.mem_cons_self ..))
  obtain ⟨hs1, hn0, hc0, hn, hn0', hc0', hn', hs2⟩ := (seg_append _ _ _ _ _).1 hseg
  simp only [addrs_append, addrs_cons, List.nodup_append, List.nodup_cons, List.mem_cons, not_or] at hnd
  have hnn : n ≠ n' := hnd.2.1.1.1
  have hnn' : n' ≠ n := Ne.symm hnn
  have hfin : ∀ (m1 : Mem), m1.nodes n' = some ⟨0, 0, 0⟩ → finishPop e m1 n' c'
      = some (SUCCESS, 0, { m1 with released := m1.released ++ [c'] }) := by
    intro m1 h1
    simp [finishPop, nodeRelease, h1, hfail, releaseChild, hc0', hrel]
  have hnext : hdOr ((n', c') :: ys) 0 = n' := rfl
  by_cases h1 : n' = Seq.last (xs ++ (n, c) :: (n', c') :: ys)
  · simp only [nextPop, hn, hh, hdrOf, hnext, Option.bind_eq_bind, Option.bind_some, ne_eq, hn0',
        not_false_eq_true, if_true, ← h1, Mem.modNode, Mem.modList, upd_same, hn', upd_ne _ _ hnn,
        upd_ne _ _ hnn']
    rw [hfin _ (by simp [upd_same])]
    exact ⟨_, rfl, rfl⟩
  · simp only [nextPop, hn, hh, hdrOf, hnext, Option.bind_eq_bind, Option.bind_some, ne_eq, hn0',
        not_false_eq_true, if_true, h1, if_false, Mem.modNode, Mem.modList, upd_same, hn', upd_ne _ _ hnn,
        upd_ne _ _ hnn']
    rw [hfin _ (by simp [upd_same])]
    exact ⟨_, rfl, rfl⟩

/-! ### C03: swap -/

/-- the specification of a swap -/
def swapped (l r : Addr) (w : World) : World :=
  w.map (fun p => if p.1 = l then (l, (w.filter (fun q => q.1 = r)).flatMap Prod.snd)
    else if p.1 = r then (r, (w.filter (fun q => q.1 = l)).flatMap Prod.snd) else p)

/-- The full claim of C03: after a swap, every history that the specification allows on the swapped
lists returns what the specification says. -/
def SwapExchanges : Prop :=
  ∀ (ops : List Op) (outs : List Out) (s : Spec) (m m' : Mem), SpecRun Spec.empty ops outs s →
    run okEnv Mem.empty ops = some (outs, m) →
    ∀ (l r : Addr) (xs ys : Seq), l ≠ r → (l, xs) ∈ s.lists → (r, ys) ∈ s.lists →
      swap m l r = some m' →
      ∀ (ops' : List Op) (outs' : List Out) (s' : Spec),
        SpecRun ⟨swapped l r s.lists, s.released⟩ ops' outs' s' →
        ∃ m'', run okEnv m' ops' = some (outs', m'')

/-- two one-element lists `1 = [70]` (node 10) and `2 = [80]` (node 20) -/
def swapOps : List Op :=
  [.create (some 2), .create (some 1), .appendTail 1 70 (some 10), .appendTail 2 80 (some 20)]

/-- C03 is violated: after swapping lists 1 and 2, appending a child after node 10 (now in list 2)
leaves the count of list 2 at one. -/
theorem slist_swap_violated : ¬ SwapExchanges := by
  intro h
  have hrun : SpecRun Spec.empty swapOps
      [.ptr SUCCESS 2, .ptr SUCCESS 1, .st SUCCESS, .st SUCCESS] ⟨[(1, [(10, 70)]), (2, [(20, 80)])], []⟩ :=
    .cons (.create_ok (.of (by decide))) <|
    .cons (.create_ok (.of (by decide))) <|
    .cons (.appendTail_ok (A := []) (by decide) (.of (by decide))) <|
    .cons (.appendTail_ok (A := [(1, [(10, 70)])]) (by decide) (.of (by decide))) .nil
  have hrun2 : SpecRun ⟨[(1, [(20, 80)]), (2, [(10, 70)])], []⟩ [.append 10 71 (some 30), .count 2]
      [.st SUCCESS, .cnt 2#64] ⟨[(1, [(20, 80)]), (2, [(10, 70), (30, 71)])], []⟩ :=
    .cons (.append_ok (A := [(1, [(20, 80)])]) (xs := []) (by decide) (.of (by decide))) <|
    .cons (.count_ok (l := 2) (xs := [(10, 70), (30, 71)]) (by simp)) .nil
  obtain ⟨m, h1, inv⟩ := run_refines Inv.empty hrun
  obtain ⟨m', h2⟩ : ∃ m', swap m 1 2 = some m' := by
    have e1 := inv.hdr 1 [(10, 70)] (by simp)
    have e2 := inv.hdr 2 [(20, 80)] (by simp)
    simp [swap, e1, e2]
  have h3 := h _ _ _ m m' hrun h1 1 2 [(10, 70)] [(20, 80)] (by decide) (by simp) (by simp) h2
    [.append 10 71 (some 30), .count 2] [.st SUCCESS, .cnt 2#64] _ hrun2
  obtain ⟨m'', h3⟩ := h3
  have hcalc : ((run okEnv Mem.empty swapOps).bind (fun r => (swap r.2 1 2).bind (fun m =>
      (run okEnv m [.append 10 71 (some 30), .count 2]).map Prod.fst)))
        = some [.st SUCCESS, .cnt 1#64] := by decide
  rw [h1] at hcalc
  simp [h2, h3] at hcalc

/-- C03, the part that holds: immediately after a swap all observers (head, walk, tail, count) of the two
lists are exchanged. Missing: node-relative operations afterwards, which use the stale owner. -/
theorem slist_swap_partial {m : Mem} {s : Spec} (inv : Inv m s) {l r : Addr} {xs ys : Seq} (hne : l ≠ r)
    (hl : (l, xs) ∈ s.lists) (hr : (r, ys) ∈ s.lists) :
    ∃ m', swap m l r = some m' ∧
      (head m' l = head m r ∧ tail m' l = tail m r ∧ count m' l = count m r) ∧
      (head m' r = head m l ∧ tail m' r = tail m l ∧ count m' r = count m l) ∧
      (∀ fuel p, walk m' fuel p = walk m fuel p) ∧
      (∀ p, p ≠ l → p ≠ r → m'.lists p = m.lists p) := by
  have e1 := inv.hdr l xs hl
  have e2 := inv.hdr r ys hr
  refine ⟨{ m with lists := upd (upd m.lists l (some (hdrOf ys))) r (some (hdrOf xs)) },
    by simp [swap, e1, e2], ?_, ?_, ?_, ?_⟩
  · simp [head, tail, count, upd_ne _ _ hne, upd_same, e2]
  · simp [head, tail, count, upd_same, e1]
  · intro fuel
    induction fuel with
    | zero => intro p; rfl
    | succ f ih => intro p; simp only [walk, child, next, ih]
  · intro p h1 h2
    show upd (upd m.lists l _) r _ p = _
    rw [upd_ne _ _ h2, upd_ne _ _ h1]

/-! ### C45: a clear that fails part-way -/

/-- C45 for `slist_clear`: after a clear that failed on some child, an append to the list is visible
from its head. -/
def FailedClearUsable : Prop :=
  ∀ (ops : List Op) (outs : List Out) (s : Spec) (m m' m'' : Mem), SpecRun Spec.empty ops outs s →
    run okEnv Mem.empty ops = some (outs, m) →
    ∀ (e : Env) (l : Addr) (xs : Seq) (f : Nat) (st : Status) (r a : Addr), (l, xs) ∈ s.lists →
      clear e f m l = some (st, m') → m'.nodes a = none → a ≠ 0 → r ≠ 0 →
      appendTail m' (some a) l r = some (SUCCESS, m'') →
      ∃ p, head m'' l = some p ∧ p ≠ 0

/-- C45 is violated: the clear of a one-element list whose child refuses release leaves the tail pointer
behind; the next append is linked after the leaked node and the list looks empty from the head. -/
theorem slist_failed_clear_violated : ¬ FailedClearUsable := by
  intro h
  have hrun : SpecRun Spec.empty [.create (some 1), .insertHead 1 70 (some 10)]
      [.ptr SUCCESS 1, .st SUCCESS] ⟨[(1, [(10, 70)])], []⟩ :=
    .cons (.create_ok (.of (by decide))) <|
    .cons (.insertHead_ok (A := []) (by decide) (.of (by decide))) .nil
  obtain ⟨m, h1, inv⟩ := run_refines Inv.empty hrun
  let e : Env := ⟨fun _ => ERROR_GENERAL_OUT_OF_MEMORY, fun _ => SUCCESS⟩
  have hcalc : ((run okEnv Mem.empty [.create (some 1), .insertHead 1 70 (some 10)]).bind (fun r =>
      (clear e 5 r.2 1).bind (fun c => (appendTail c.2 (some 11) 1 71).map (fun q =>
        ((c.2.nodes 11).isNone, q.1, head q.2 1)))))
        = some (true, SUCCESS, some 0) := by decide
  rw [h1] at hcalc
  cases hc : clear e 5 m 1 with
  | none => simp [hc] at hcalc
  | some c =>
    obtain ⟨st, m'⟩ := c
    cases hp : appendTail m' (some 11) 1 71 with
    | none => simp [hc, hp] at hcalc
    | some q =>
      obtain ⟨st', m''⟩ := q
      simp [hc, hp] at hcalc
      obtain ⟨e2, e3, e4⟩ := hcalc
      subst e3
      obtain ⟨p, hp1, hp2⟩ := h _ _ _ m m' m'' hrun h1 e 1 [(10, 70)] 5 st 71 11 (by simp) hc e2
        (by decide) (by decide) hp
      rw [e4] at hp1; simp at hp1; exact hp2 hp1.symm

/-- C45, the part that holds: when the child of the first node refuses release, the clear stops
at once with that status, exactly that child was asked, and the rest of the list is still linked from
the head with the right count. Missing: the tail when the failing node was the last one. -/
theorem slist_failed_clear_partial {m A B l n c xs R f}
    (inv : Inv m ⟨A ++ (l, (n, c) :: xs) :: B, R⟩) (e : Env) (hfail : e.rel c ≠ SUCCESS) :
    ∃ m', clear e (f + 1) m l = some (e.rel c, m') ∧ m'.released = m.released ++ [c] ∧
      count m' l = some (BitVec.ofNat 64 xs.length) ∧
      ∃ p, head m' l = some p ∧ ∀ fuel, xs.length < fuel →
        walk m' fuel p = some (xs.map Prod.snd) := by
  have hh := inv.hdr l _ (List.mem_append_right _ (List.mem_cons_self ..))
  have hseg := inv.segs l _ (List.mem_append_right _ (List.mem_cons_self ..))
  have hnd := inv.nodup l _ (List.mem_append_right _ (List.mem_cons_self ..))
  obtain ⟨hn0, hc0, hn, hs⟩ := hseg
  simp only [addrs_cons, List.nodup_cons] at hnd
  have h2 : Seq.first ((n, c) :: xs) = n := rfl
  have hdec : BitVec.ofNat 64 ((n, c) :: xs).length - 1 = BitVec.ofNat 64 xs.length :=
    ofNat_pred xs.length
  refine ⟨{ m with
      nodes := upd m.nodes n (some ⟨0, 0, 0⟩)
      lists := upd m.lists l (some ⟨hdOr xs 0, Seq.last ((n, c) :: xs), BitVec.ofNat 64 xs.length⟩)
      released := m.released ++ [c] }, ?_, rfl, ?_, hdOr xs 0, ?_, ?_⟩
  · simp only [clear, hh, hdrOf, h2, Option.bind_eq_bind, Option.bind_some, ne_eq, hn0, not_false_eq_true,
      if_true, hn, Mem.modList, upd_same, Mem.modNode, updn_upd, nodeRelease, hc0, releaseChild, if_false,
      hdec]
    simp [hfail]
  · simp [count, upd_same]
  · simp [head, upd_same]
  · intro fuel hf
    exact walk_seg xs fuel hf (seg_congr (fun b hb => upd_ne _ _ (by rintro rfl; exact hnd.1 hb)) hs)

end Rcpr.SList
