import Verif.QueueProof

/-! Properties of queues: C06, C44 (queue). -/
namespace Rcpr.Queue

open Rcpr.SList (Addr Env okEnv upd Out OOM_ne)

/-- C06. Every history of queue calls in which the allocator hands out unused blocks (or fails) runs
without undefined behaviour, and every call returns what a double-ended queue returns. -/
theorem queue_refines_deque {ops : List Op} {outs : List Out} {s : Spec}
    (hl : LegalRun okEnv Mem.empty ops) (h : SpecRun Spec.empty ops outs s) :
    ∃ m, run okEnv Mem.empty ops = some (outs, m) := by
  obtain ⟨m, h1, _⟩ := run_refines QInv.empty hl h
  exact ⟨m, h1⟩

/-- resources accepted by `queue_append` on `q`, in call order -/
def appended (q : Addr) : List Op → List Out → List Addr
  | .append q' r _ :: ops, .st s :: os =>
    if q' = q ∧ s = SUCCESS then r :: appended q ops os else appended q ops os
  | _ :: ops, _ :: os => appended q ops os
  | _, _ => []

/-- resources returned by `queue_pop` on `q`, in call order -/
def popped (q : Addr) : List Op → List Out → List Addr
  | .pop q' _ :: ops, .ptr _ v :: os =>
    if q' = q ∧ v ≠ 0 then v :: popped q ops os else popped q ops os
  | _ :: ops, _ :: os => popped q ops os
  | _, _ => []

/-- contents of `q` in the abstract world -/
def contents (q : Addr) (w : List (Addr × List Addr)) : List Addr :=
  match w with
  | [] => []
  | (q', cs) :: w => if q' = q then cs else contents q w

/-- calls of a FIFO client of `q`: no front insertion on `q`, `q` stays alive,
`*r` is `NULL` before a pop -/
def fifoClient (q : Addr) : Op → Prop
  | .insert q' _ _ => q' ≠ q
  | .release q' _ => q' ≠ q
  | .pop _ rIn => rIn = 0
  | .create qa _ => qa ≠ some q
  | _ => True

theorem contents_split {A B : List (Addr × List Addr)} {q' q : Addr} {cs : List Addr}
    (hk : q' ∉ A.map Prod.fst) :
    contents q (A ++ (q', cs) :: B) = if q' = q then cs else contents q (A ++ B) := by
  induction A with
  | nil => simp [contents]
  | cons a A ih =>
    obtain ⟨p, ds⟩ := a
    simp only [List.map_cons, List.mem_cons, not_or] at hk
    simp only [List.cons_append, contents, ih hk.2]
    by_cases h1 : p = q
    · subst h1
      simp [hk.1]
    · simp [h1]

theorem spec_keys {m s A B q cs R} (inv : QInv m s) (h : s = ⟨A ++ (q, cs) :: B, R⟩) :
    q ∉ A.map Prod.fst := by
  obtain ⟨T, rep⟩ := inv
  subst h
  obtain ⟨T1, T2, l, xs, rfl, rfl, rfl, rfl⟩ := rep.split
  have := rep.keys
  simp only [List.map_append, List.map_cons, List.nodup_append, List.nodup_cons, List.mem_cons] at this
  intro hm
  rw [List.map_map] at hm
  exact this.2.2 q (by simpa using hm) q (.inl rfl) rfl

theorem spec_nonzero {m A B q c cs R} (inv : QInv m ⟨A ++ (q, c :: cs) :: B, R⟩) : c ≠ 0 := by
  obtain ⟨T, rep⟩ := inv
  obtain ⟨T1, T2, l, xs, rfl, h0, hA, hB⟩ := rep.split
  obtain ⟨⟨n, c'⟩, xs, rfl, hc, hcs⟩ := List.map_eq_cons_iff.1 h0.symm
  simp only at hc; subst hc
  exact (rep.inv.segs l ((n, c') :: xs) (by simp)).2.1

/-- C06, stated on observables only: as long as a client only appends to and pops from `q`, the
resources popped so far followed by those still queued are exactly the resources appended so far, in
order. -/
theorem queue_fifo_aux {ops : List Op} (q : Addr) : ∀ {m s os s'}, QInv m s → LegalRun okEnv m ops →
    SpecRun s ops os s' → (∀ op ∈ ops, fifoClient q op) →
    contents q s.queues ++ appended q ops os = popped q ops os ++ contents q s'.queues := by
  induction ops with
  | nil => intro m s os s' inv _ h _; cases h; simp [appended, popped]
  | cons op ops ih =>
    intro m s os s' inv hl h hc
    cases h with
    | @cons _ s1 _ _ o _ os h t =>
      obtain ⟨m1, h1, inv1⟩ := step_refines inv hl.1 h
      have h3 := ih inv1 (hl.2 _ _ h1) t (fun x hx => hc x (by simp [hx]))
      have hcl := hc op (by simp)
      cases h with
      | create_fail h => simpa [appended, popped] using h3
      | @create_ok _ q' l =>
        have hqq : q' ≠ q := by simpa [fifoClient] using hcl
        simpa [appended, popped, contents, hqq] using h3
      | append_fail hr => simpa [appended, popped, OOM_ne] using h3
      | @append_ok A B q' cs R r a hr =>
        rw [contents_split (spec_keys inv1 rfl)] at h3
        rw [contents_split (spec_keys inv rfl)]
        by_cases hq : q' = q
        · simpa [appended, popped, hq] using h3
        · simpa [appended, popped, hq] using h3
      | insert_fail hr => simpa [appended, popped] using h3
      | @insert_ok A B q' cs R r a hr =>
        rw [contents_split (spec_keys inv1 rfl)] at h3
        rw [contents_split (spec_keys inv rfl)]
        have hqq : q' ≠ q := hcl
        simpa [appended, popped, hqq] using h3
      | @pop_empty A B q' R rIn =>
        have h0 : rIn = 0 := hcl
        subst h0
        simpa [appended, popped] using h3
      | @pop_ok A B q' c cs R rIn =>
        have hc0 := spec_nonzero inv
        rw [contents_split (spec_keys inv1 rfl)] at h3
        rw [contents_split (spec_keys inv rfl)]
        by_cases hq : q' = q
        · simp [appended, popped, hq, hc0] at h3 ⊢; exact h3
        · simpa [appended, popped, hq] using h3
      | count_ok h => simpa [appended, popped] using h3
      | @release_ok A B q' cs R f hf =>
        rw [contents_split (spec_keys inv rfl)]
        have hqq : q' ≠ q := hcl
        simpa [appended, popped, hqq] using h3

/-- C06. In every history of a client that only appends to and pops from queue `q` once it exists, what
has been popped is a prefix of what has been appended, in the same order, and what is missing is
exactly what is still queued. -/
theorem queue_fifo {pre ops : List Op} {outs0 outs : List Out} {s0 s : Spec} {q : Addr} {m0 : Mem}
    (hl0 : LegalRun okEnv Mem.empty pre) (h0 : SpecRun Spec.empty pre outs0 s0)
    (hr0 : run okEnv Mem.empty pre = some (outs0, m0)) (hempty : contents q s0.queues = [])
    (hl : LegalRun okEnv m0 ops) (h : SpecRun s0 ops outs s) (hc : ∀ op ∈ ops, fifoClient q op) :
    ∃ m, run okEnv m0 ops = some (outs, m) ∧
      appended q ops outs = popped q ops outs ++ contents q s.queues := by
  obtain ⟨m1, h1, inv1⟩ := run_refines QInv.empty hl0 h0
  rw [hr0] at h1; simp at h1; subst h1
  obtain ⟨m, h2, _⟩ := run_refines inv1 hl h
  have := queue_fifo_aux q inv1 hl h hc
  rw [hempty] at this
  exact ⟨m, h2, by simpa using this⟩

def sampleOps : List Op :=
  [.create (some 1) none, .create (some 1) (some 5), .append 1 70 (some 10), .append 1 71 (some 11),
   .insert 1 72 (some 12), .append 1 99 none, .pop 1 0, .pop 1 0, .count 1]

/-- a non-trivial history of the specification -/
example : ∃ outs, SpecRun Spec.empty sampleOps outs ⟨[(1, [71])], []⟩ :=
  ⟨_, .cons (.create_fail (.inr rfl)) <| .cons .create_ok <|
   .cons (.append_ok (A := []) (by decide)) <| .cons (.append_ok (A := []) (by decide)) <|
   .cons (.insert_ok (A := []) (by decide)) <| .cons (.append_fail (A := []) (by decide)) <|
   .cons (.pop_ok (A := [])) <| .cons (.pop_ok (A := [])) <|
   .cons (.count_ok (q := 1) (cs := [71]) (by simp)) .nil⟩

/-- checkable form of legality of a run -/
def legalB (m : Mem) : Op → Bool
  | .create qa la => (match qa with | none => true | some q => q != 0 && (m.queues q).isNone) &&
      (match la with | none => true | some l => l != 0 && (m.sl.lists l).isNone)
  | .append _ _ ans => (match ans with | none => true | some a => a != 0 && (m.sl.nodes a).isNone)
  | .insert _ _ ans => (match ans with | none => true | some a => a != 0 && (m.sl.nodes a).isNone)
  | _ => true

def legalRunB (e : Env) : Mem → List Op → Bool
  | _, [] => true
  | m, op :: ops => legalB m op && (match step e m op with | none => true | some (_, m') => legalRunB e m' ops)

theorem legal_of_legalB {m : Mem} {op : Op} (h : legalB m op = true) : Legal m op := by
  cases op with
  | create qa la =>
    cases qa <;> cases la <;> simp_all [legalB, Legal]
  | append q r ans => cases ans <;> simp_all [legalB, Legal]
  | insert q r ans => cases ans <;> simp_all [legalB, Legal]
  | pop q r => trivial
  | count q => trivial
  | release q f => trivial

theorem legalRun_of_legalRunB {e : Env} : ∀ {ops : List Op} {m : Mem}, legalRunB e m ops = true →
    LegalRun e m ops
  | [], _, _ => trivial
  | op :: ops, m, h => by
    simp only [legalRunB, Bool.and_eq_true] at h
    refine ⟨legal_of_legalB h.1, ?_⟩
    intro o m' hs
    rw [hs] at h
    exact legalRun_of_legalRunB h.2

/-- and its allocator answers are legal -/
example : LegalRun okEnv Mem.empty sampleOps := legalRun_of_legalRunB (by decide)

example : (run okEnv Mem.empty sampleOps).map (fun r => r.1.drop 5) =
    some [.st ERROR_GENERAL_OUT_OF_MEMORY, .ptr SUCCESS 72, .ptr SUCCESS 70, .cnt 1#64] := by decide

/-- C44 (queue). When the allocator refuses the node, append and insert return
out-of-memory and the whole memory is unchanged. -/
theorem queue_insert_oom (m : Mem) (q r : Addr) (st : Status) (m' : Mem) :
    (append m none q r = some (st, m') → st = ERROR_GENERAL_OUT_OF_MEMORY ∧ m' = m) ∧
    (insert m none q r = some (st, m') → st = ERROR_GENERAL_OUT_OF_MEMORY ∧ m' = m) := by
  constructor
  · cases h : m.queues q with
    | none => simp [append, h]
    | some l =>
      cases h' : m.sl.lists l <;>
        simp +contextual [append, h, SList.appendTail, SList.nodeCreate, h', OOM_ne, eq_comm]
  · cases h : m.queues q with
    | none => simp [insert, h]
    | some l =>
      cases h' : m.sl.lists l <;>
        simp +contextual [insert, h, SList.insertHead, SList.nodeCreate, h', OOM_ne, eq_comm]

/-- C44 (queue). When either allocation of `queue_create` fails, the call fails, no handle is
produced, and every block allocated before is exactly as before (the queue block itself is returned). -/
theorem queue_create_oom (m : Mem) (qa la : Option Addr) (hl : Legal m (.create qa la))
    (hfail : qa = none ∨ la = none) :
    ∃ m', create okEnv m qa la = (ERROR_GENERAL_OUT_OF_MEMORY, 0, m') ∧
      m'.sl = m.sl ∧ ∀ p, m'.queues p = m.queues p := by
  cases qa with
  | none => exact ⟨m, rfl, rfl, fun _ => rfl⟩
  | some q =>
    cases la with
    | some l => simp at hfail
    | none =>
      refine ⟨{ m with queues := upd (upd m.queues q (some 0)) q none }, ?_, rfl, ?_⟩
      · simp [create, SList.create, OOM_ne, okEnv]
      · intro p
        have := (hl.1 q rfl).2
        by_cases h : p = q
        · subst h; simp [upd, this]
        · simp [upd, h]

example : Legal Mem.empty (.create (some 3) none) := legal_of_legalB (by decide)

end Rcpr.Queue
