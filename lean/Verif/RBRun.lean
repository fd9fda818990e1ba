import Verif.RBClear

/-! Calls of the interface against the specification. -/
namespace Rcpr.RB

open Rcpr

theorem Rep.alloc {N : Nat} {h : Heap} : ∀ {t : T} {p : Nat}, Rep N h p t → ∀ a ∈ t.addrs, ∃ n, h a = some n
  | .node c l b v r, p, ⟨h1, h2, h3⟩, a, ha => by
    simp only [T.addrs, List.mem_cons, List.mem_append] at ha
    rcases ha with rfl | ha | ha
    · exact ⟨_, h1⟩
    · exact h2.alloc a ha
    · exact h3.alloc a ha

section
variable {K : Type} (o : Order K)

/-- The memory holds the tree `X`, which is what the caller sees as `v`. -/
structure Inv (s : St) (X : T) (v : Spec.View) : Prop where
  holds : Holds s.heap s.tree X
  fit : Fit X
  items : X.io.map Prod.snd = v.items
  log : s.released = v.released
  sorted : Spec.Sorted o v.items
  values : ∀ x ∈ X.io, x.2 ≠ 0

/-- The sentinel points at itself. -/
def Clean (s : St) : Prop := ∃ n, s.heap s.tree.nil = some (nilNode s.tree.nil n)

theorem create_inv {N : Nat} : Inv o (create N) .nil ⟨[], []⟩ :=
  ⟨⟨⟨trivial, trivial, rfl, by simp [T.addrs, Ctx.addrs]⟩, ⟨⟨N, N, N, false, 0⟩, by simp [create], rfl⟩, rfl⟩, ⟨trivial, rfl⟩, rfl, rfl,
    List.Pairwise.nil, by simp [T.io]⟩

variable [Std.TransCmp o.cmp]

theorem insert_ok {s : St} {X : T} {v : Spec.View} {u a : Nat} {st : Status} (i : Inv o s X v) (hu : u ≠ 0)
    (ha : st = SUCCESS → s.heap a = none) :
    ∃ out s' X' v', insert o s u a st = some (out, s') ∧ (∀ e, Spec.Step o e v (.insert u a st) (out, 0) v') ∧ Inv o s' X' v' ∧
      ((∃ b, Bal b X) → ∃ b, Bal b X') ∧ (Rises X → Rises X') ∧ s'.tree.nil = s.tree.nil ∧ (Clean s → Clean s') ∧
      (∀ b, b ≠ a → b ≠ s.tree.nil → b ∉ X.addrs → s'.heap b = s.heap b) ∧
      ((∀ x ∈ v.items, o.cmp (o.key u) (o.key x) ≠ .lt) → X.stacked → X'.stacked) := by
  by_cases hst : st = SUCCESS
  · subst hst
    have ha := ha rfl
    obtain ⟨hh, fit, hi, hl, hs, hv⟩ := i
    obtain ⟨wX, ⟨vn, hn, hnr⟩, hc⟩ := hh
    have haX : a ∉ X.addrs := fun hm => by
      obtain ⟨n, hn⟩ := wX.sub.alloc a hm
      rw [ha] at hn; cases hn
    have haN : a ≠ s.tree.nil := fun e => by rw [e, hn] at ha; cases ha
    have w' : Holds (put s.heap a ⟨s.tree.nil, s.tree.nil, s.tree.nil, false, u⟩) s.tree X :=
      ⟨wX.frame fun b hb => put_ne (fun e => haX (by rcases hb with hb | hb; exact e ▸ hb; cases hb)),
        ⟨vn, by rw [put_ne (Ne.symm haN), hn], hnr⟩, hc⟩
    obtain ⟨h', r', X', k, e1, w2, fit2, io1, io2, hp, hX, hb, hrise, hnil, hf, hy⟩ := insertNode_holds o w' fit put_same haN haX
    obtain ⟨q1, q2⟩ := insert_path o (v := u) (k := k) (by rw [← hX, hi]; exact hs) hp
    rw [← hX, hi] at q1
    refine ⟨SUCCESS, ⟨h', { s.tree with root := r', count := s.tree.count + 1 }, s.released⟩, X', { v with items := Spec.insert o u v.items },
      ?_, fun _ => .insert, ⟨w2, fit2, ?_, hl, ?_, ?_⟩, hb, hrise, rfl, fun _ => hnil, ?_, fun hg => hy ?_⟩
    · unfold insert
      simp only [ne_eq, not_true_eq_false, if_false, Option.bind_eq_bind, e1, Option.bind_some]
    · rw [io2]; simp only [List.map_append, List.map_cons]; exact q1
    · show Spec.Sorted o (Spec.insert o u v.items)
      rw [← q1]; exact q2
    · intro x hx
      rw [io2] at hx
      rcases List.mem_append.1 hx with hx | hx
      · exact hv x (by rw [io1]; exact List.mem_append_left _ hx)
      · rcases List.mem_cons.1 hx with rfl | hx
        · exact hu
        · exact hv x (by rw [io1]; exact List.mem_append_right _ hx)
    · intro b h1 h2 h3
      show h' b = _
      rw [hf b h1 h2 h3, put_ne h1]
    · intro f hf
      refine right_of_path o hp (fun x hx => hg x ?_) f hf
      rw [← hi, io1]
      exact hx
  · refine ⟨st, s, X, v, by unfold insert; rw [if_pos hst], fun _ => .insertFail hst, i, fun h => h, fun h => h, rfl, fun h => h, fun _ _ _ _ => rfl, fun _ h => h⟩

/-- What a lookup finds. -/
theorem findNode_ok {s : St} {X : T} {v : Spec.View} {k : K} (i : Inv o s X v) :
    (∃ kk c L a u R, findNode o s.heap s.tree.nil k (s.tree.count + 2) s.tree.root = some (some a) ∧ X = plug kk (.node c L a u R) ∧
      Spec.Match o k u) ∨
    (findNode o s.heap s.tree.nil k (s.tree.count + 2) s.tree.root = some none ∧ ∀ u ∈ v.items, ¬ Spec.Match o k u) := by
  obtain ⟨⟨wX, ⟨vn, hn, hnr⟩, hc⟩, fit, hi, hl, hs, hv⟩ := i
  have hroot : s.tree.root = X.root s.tree.nil := wX.root
  rcases find_at o (key := k) (n := s.tree.count + 2) (by have := height_le_size (t := X); omega) wX with ⟨c, L, a, u, R, k2, e1, e2, e3, e4⟩ | ⟨k2, e1, e2, e3, e4⟩
  · rw [List.append_nil] at e2
    exact .inl ⟨k2, c, L, a, u, R, by rw [hroot]; exact e1, e2.symm, e3⟩
  · rw [List.append_nil] at e2
    have e2' : plug k2 .nil = X := e2
    refine .inr ⟨by rw [hroot]; exact e1, ?_⟩
    have := find_none o (k := k2) (key := k) (by rw [e2', hi]; exact hs) e3 e4
    rwa [e2', hi] at this

theorem find_ok {s : St} {X : T} {v : Spec.View} {k : K} (i : Inv o s X v) :
    ∃ out, find o s k = some out ∧ ∀ e, Spec.Step o e v (.find k) out v := by
  rcases findNode_ok o (k := k) i with ⟨kk, c, L, a, u, R, e1, hX, hm⟩ | ⟨e1, hno⟩
  · have wX := i.holds.here
    rw [hX] at wX
    have w := at_plug.2 wX
    have ha : s.heap a = some ⟨Ctx.parent s.tree.nil (kk ++ []), L.root s.tree.nil, R.root s.tree.nil, c, u⟩ := w.sub.1
    refine ⟨(SUCCESS, u), by simp [find, e1, ha], fun e => .find ?_ hm⟩
    rw [← i.items, hX, plug_io]
    simp [T.io]
  · exact ⟨(ERROR_RBTREE_NOT_FOUND, 0), by simp [find, e1], fun e => .findNone hno⟩

/-- What taking the node at `a` off the tree `X` in `s` leads to: the tree `X'` without it. -/
def Removes (s : St) (X : T) (kk : Ctx) (L : T) (a u : Nat) (R : T) (Q : T → Prop) : Prop :=
  ∃ h' r' X' nz, removeNode (s.tree.count + 2) s.heap s.tree a = some (h', { s.tree with root := r', count := s.tree.count - 1 }) ∧
    Holds h' { s.tree with root := r', count := s.tree.count - 1 } X' ∧ Fit X' ∧
    X'.io = Ctx.pre kk ++ (L.io ++ (R.io ++ Ctx.post kk)) ∧ h' a = some nz ∧ nz.value = u ∧ a ∉ X'.addrs ∧
    (∃ n, h' s.tree.nil = some (nilNode s.tree.nil n)) ∧ Q X' ∧ (∀ b, b ≠ s.tree.nil → b ∉ X.addrs → h' b = s.heap b)

/-- Deletion, given what the removal of the node does. -/
theorem delete_of {e : Env} {s : St} {X : T} {v : Spec.View} {k : K} {take : Bool} (i : Inv o s X v) {Q : T → Prop}
    (hrem : ∀ kk c L a u R, X = plug kk (.node c L a u R) → Spec.Match o k u → Removes s X kk L a u R Q)
    (hnone : (∀ u ∈ v.items, ¬ Spec.Match o k u) → Q X) :
    ∃ st val s' X' v', delete o e s k take = some (st, val, s') ∧ Spec.Step o e v (.delete k take) (st, val) v' ∧ Inv o s' X' v' ∧
      s'.tree.nil = s.tree.nil ∧ (Clean s → Clean s') ∧ Q X' := by
  rcases findNode_ok o (k := k) i with ⟨kk, c, L, a, u, R, e1, hX, hm⟩ | ⟨e1, hno⟩
  · obtain ⟨h1, r1, X', nz, e2, w2, fit2, io2, hz, hzv, hzX, ⟨nn, hcl⟩, hB, hf⟩ := hrem _ _ _ _ _ _ hX hm
    obtain ⟨hh, fit, hi, hl, hs, hv⟩ := i
    have hXio : X.io = Ctx.pre kk ++ (L.io ++ (a, u) :: (R.io ++ Ctx.post kk)) := by rw [hX, plug_io]; simp [T.io]
    have hu0 : u ≠ 0 := hv (a, u) (by rw [hXio]; simp)
    have hitems : v.items = (Ctx.pre kk ++ L.io).map Prod.snd ++ u :: (R.io ++ Ctx.post kk).map Prod.snd := by
      rw [← hi, hXio]; simp
    have hitems' : X'.io.map Prod.snd = (Ctx.pre kk ++ L.io).map Prod.snd ++ (R.io ++ Ctx.post kk).map Prod.snd := by
      rw [io2]; simp
    have hs' : Spec.Sorted o ((Ctx.pre kk ++ L.io).map Prod.snd ++ (R.io ++ Ctx.post kk).map Prod.snd) := by
      rw [hitems] at hs
      exact List.Pairwise.sublist (List.Sublist.append_left (List.sublist_cons_self _ _) _) hs
    have hv' : ∀ x ∈ X'.io, x.2 ≠ 0 := by
      intro x hx
      refine hv x ?_
      rw [hXio]; rw [io2] at hx
      simp only [List.mem_append, List.mem_cons] at hx ⊢
      rcases hx with h | h | h | h
      · exact .inl h
      · exact .inr (.inl h)
      · exact .inr (.inr (.inr (.inl h)))
      · exact .inr (.inr (.inr (.inr h)))
    have haN : a ≠ s.tree.nil := hh.here.nin (.inl (by rw [mem_addrs_io, hXio]; simp))
    obtain ⟨vv, vlog⟩ := v
    -- memory that differs at the unlinked node only
    have hold : ∀ h2 : Heap, (∀ b, b ≠ a → h2 b = h1 b) → Holds h2 { s.tree with root := r1, count := s.tree.count - 1 } X' := by
      intro h2 hh2
      obtain ⟨wX', ⟨n', hn', hnr'⟩, hc'⟩ := w2
      refine ⟨wX'.frame fun b hb => hh2 b ?_, ⟨n', by rw [← hn']; exact hh2 _ (Ne.symm haN), hnr'⟩, hc'⟩
      rintro rfl
      rcases hb with hb | hb
      · exact hzX hb
      · cases hb
    simp only at hitems hl hi
    subst hitems
    subst hl
    cases take with
    | true =>
      -- the value is handed over; the node is reclaimed
      have hr2 : ∃ h2, nodeRelease e (put h1 a { nz with value := 0 }) s.released a = some (e.reclaim a, h2, s.released) ∧ ∀ b, b ≠ a → h2 b = h1 b := by
        unfold nodeRelease
        simp only [put_same, Option.bind_eq_bind, Option.bind_some, ne_eq, not_true_eq_false, if_false]
        by_cases h2 : e.reclaim a = SUCCESS
        · refine ⟨_, by simp only [h2, not_true_eq_false, if_false]; rfl, ?_⟩
          intro b hb; simp [hb, put]
        · refine ⟨_, by simp only [h2, not_false_eq_true, if_true]; rfl, ?_⟩
          intro b hb; simp [hb, put]
      obtain ⟨h2, e3, f3⟩ := hr2
      refine ⟨e.reclaim a, u, ⟨h2, { s.tree with root := r1, count := s.tree.count - 1 }, s.released⟩, X', _, ?_, .take (a := a) hm,
        ⟨hold h2 f3, fit2, hitems', rfl, hs', hv'⟩, rfl, fun _ => ⟨nn, (f3 _ (Ne.symm haN)).trans hcl⟩, hB⟩
      simp only [delete, e1, Option.bind_eq_bind, Option.bind_some, deleteNode, e2, hz, if_true, e3, hzv]
    | false =>
      obtain ⟨st, h2, e3, f3, -, -, -, hst⟩ := nodeRelease_at (e := e) (log := s.released) hz (by rw [hzv]; exact hu0)
      rw [hzv] at e3 hst
      subst hst
      refine ⟨_, 0, ⟨h2, { s.tree with root := r1, count := s.tree.count - 1 }, s.released ++ [u]⟩, X', _, ?_, .delete (a := a) hm,
        ⟨hold h2 f3, fit2, hitems', rfl, hs', hv'⟩, rfl, fun _ => ⟨nn, (f3 _ (Ne.symm haN)).trans hcl⟩, hB⟩
      simp only [delete, e1, Option.bind_eq_bind, Option.bind_some, deleteNode, e2, hz, Bool.false_eq_true, if_false, e3]
  · exact ⟨ERROR_RBTREE_NOT_FOUND, 0, s, X, v, by simp [delete, e1], .deleteNone hno, i, rfl, fun h => h, hnone hno⟩

theorem delete_ok {e : Env} {s : St} {X : T} {v : Spec.View} {k : K} {take : Bool} (i : Inv o s X v) (hr : oneRed X) :
    ∃ st val s' X' v', delete o e s k take = some (st, val, s') ∧ Spec.Step o e v (.delete k take) (st, val) v' ∧ Inv o s' X' v' ∧
      s'.tree.nil = s.tree.nil ∧ (Clean s → Clean s') ∧
      (∀ b, Bal b X →
        ((∀ kk c L a u R, X = plug kk (.node c L a u R) → Spec.Match o k u → spareT (.node c L a u R)) → Bal b X') ∧
        ((∀ kk c L a u R, X = plug kk (.node c L a u R) → Spec.Match o k u → ¬ spareT (.node c L a u R)) →
          (∃ u ∈ v.items, Spec.Match o k u) → X'.size ≠ 0 → ∀ b', ¬ Bal b' X')) := by
  refine delete_of o i (fun kk c L a u R hX hm => ?_) fun hno b hb => ⟨fun _ => hb, fun _ ⟨u, hu, hm⟩ => absurd hm (hno u hu)⟩
  obtain ⟨h1, r1, X', nz, e2, w2, fit2, io2, hz, hzv, hzX, hcl, hbal, hf⟩ := removeNode_holds i.holds i.fit hX hr
  exact ⟨h1, r1, X', nz, e2, w2, fit2, io2, hz, hzv, hzX, hcl, fun b hb =>
    ⟨fun h => (hbal b hb).1 (h _ _ _ _ _ _ hX hm), fun h _ => (hbal b hb).2 (h _ _ _ _ _ _ hX hm)⟩, hf⟩

theorem clear_ok {e : Env} {s : St} {X : T} {v : Spec.View} (i : Inv o s X v) :
    ∃ st s' p, clear e s = some (st, s') ∧ s'.released = s.released ++ p ∧ p.Perm v.items ∧
      Inv o s' .nil ⟨[], v.released ++ p⟩ ∧
      (st = SUCCESS → ∀ x ∈ X.io, e.release x.2 = SUCCESS ∧ e.reclaim x.1 = SUCCESS) ∧
      (st ≠ SUCCESS → ∃ x ∈ X.io, st = e.release x.2 ∨ st = e.reclaim x.1) ∧
      (∀ x ∈ X.io, s'.heap x.1 = none ↔ e.release x.2 = SUCCESS ∧ e.reclaim x.1 = SUCCESS) ∧
      s'.tree = ⟨s.tree.nil, s.tree.nil, 0⟩ ∧ (∃ n, s'.heap s.tree.nil = some (nilNode s.tree.nil n)) ∧
      (∀ b, b ∉ X.addrs → b ≠ s.tree.nil → s'.heap b = s.heap b) := by
  obtain ⟨⟨wX, ⟨vn, hn, hnr⟩, hc⟩, fit, hi, hl, hs, hv⟩ := i
  have hroot : s.tree.root = X.root s.tree.nil := wX.root
  have D : ∃ st h1 p, (if s.tree.root ≠ s.tree.nil then deleteNodes e s.tree.nil (s.tree.count + 2) s.heap s.released s.tree.root
      else some (SUCCESS, s.heap, s.released)) = some (st, h1, s.released ++ p) ∧ p.Perm (X.io.map Prod.snd) ∧
      (∀ b, b ∉ X.addrs → h1 b = s.heap b) ∧
      (st = SUCCESS → ∀ x ∈ X.io, e.release x.2 = SUCCESS ∧ e.reclaim x.1 = SUCCESS) ∧
      (st ≠ SUCCESS → ∃ x ∈ X.io, st = e.release x.2 ∨ st = e.reclaim x.1) ∧
      (∀ x ∈ X.io, h1 x.1 = none ↔ e.release x.2 = SUCCESS ∧ e.reclaim x.1 = SUCCESS) := by
    by_cases hX : X = .nil
    · subst hX
      exact ⟨SUCCESS, s.heap, [], by rw [if_neg (by simp [hroot, T.root])]; simp, by simp [T.io], fun _ _ => rfl, by simp [T.io], fun h => absurd rfl h, by simp [T.io]⟩
    · have : s.tree.root ≠ s.tree.nil := by
        rw [hroot]
        cases X with
        | nil => exact absurd rfl hX
        | node c l a v r => exact wX.nin (.inl (by simp [T.addrs, T.root]))
      rw [if_pos this, hroot]
      refine deleteNodes_rep hX (by omega) wX.sub ?_ hv
      have := wX.nd
      simpa [Ctx.addrs] using this
  obtain ⟨st, h1, p, e1, p1, f1, s1, t1, n1⟩ := D
  have hNX : s.tree.nil ∉ X.addrs := fun h => wX.nin (.inl h) rfl
  have hn1 : h1 s.tree.nil = some vn := by rw [f1 _ hNX, hn]
  refine ⟨st, ⟨put h1 s.tree.nil (nilNode s.tree.nil vn.value), ⟨s.tree.nil, s.tree.nil, 0⟩, s.released ++ p⟩, p, ?_, rfl, ?_, ?_, s1, t1, ?_, rfl,
    ⟨_, put_same⟩, ?_⟩
  · simp only [clear, e1, Option.bind_eq_bind, Option.bind_some, resetNil, hn1]; rfl
  · rw [← hi]; exact p1
  · refine ⟨⟨⟨trivial, trivial, rfl, by simp [T.addrs, Ctx.addrs]⟩, ⟨_, put_same, rfl⟩, rfl⟩, ⟨trivial, rfl⟩, rfl, ?_, List.Pairwise.nil, by simp [T.io]⟩
    rw [← hl]
  · intro x hx
    have hm : x.1 ∈ X.addrs := mem_addrs_io.2 (List.mem_map_of_mem hx)
    show put h1 _ _ x.1 = none ↔ _
    have hne : x.1 ≠ s.tree.nil := fun e => hNX (e ▸ hm)
    rw [put_ne hne]; exact n1 x hx
  · intro b hb hbN
    show put h1 _ _ b = _
    rw [put_ne hbN, f1 b hb]

/-- One call. -/
theorem call_ok {e : Env} {s : St} {X : T} {v : Spec.View} {op : Spec.Op K} (i : Inv o s X v) (hL : Legal s op)
    (hr : isDelete op = true → oneRed X) :
    ∃ out s' X' v', call o e s op = some (out, s') ∧ Spec.Step o e v op out v' ∧ Inv o s' X' v' ∧
      (isDelete op = false → (∃ b, Bal b X) → ∃ b, Bal b X') ∧ (isClear op = true → ∃ b, Bal b X') ∧ (Clean s → Clean s') := by
  cases op with
  | insert u a st =>
    obtain ⟨out, s', X', v', e1, e2, e3, e4, -, -, e5, -⟩ := insert_ok o i hL.1 hL.2
    exact ⟨(out, 0), s', X', v', by simp [call, e1], e2 e, e3, fun _ => e4, (fun h => by cases h), e5⟩
  | find k =>
    obtain ⟨out, e1, e2⟩ := find_ok o (k := k) i
    exact ⟨out, s, X, v, by simp [call, e1], e2 e, i, fun _ h => h, (fun h => by cases h), fun h => h⟩
  | delete k take =>
    obtain ⟨st, val, s', X', v', e1, e2, e3, -, e4, -⟩ := delete_ok o (e := e) (k := k) (take := take) i (hr rfl)
    exact ⟨(st, val), s', X', v', by simp [call, e1], e2, e3, (fun h => by cases h), (fun h => by cases h), e4⟩
  | clear =>
    obtain ⟨st, s', p, e1, e2, e3, e4, e5, e6, e7, e8, ⟨n, e9⟩, -⟩ := clear_ok o (e := e) i
    have hmem : ∀ u ∈ v.items, ∃ a, (a, u) ∈ X.io := by
      intro u hu
      rw [← i.items] at hu
      obtain ⟨x, hx, rfl⟩ := List.mem_map.1 hu
      exact ⟨x.1, hx⟩
    have hmem' : ∀ x ∈ X.io, x.2 ∈ v.items := fun x hx => by rw [← i.items]; exact List.mem_map_of_mem hx
    refine ⟨(st, 0), s', .nil, _, by simp [call, e1], .clear e3 ?_ ?_ ?_, e4, fun _ _ => ⟨0, rfl⟩, fun _ => ⟨0, rfl⟩, fun _ => ⟨n, by rw [e8]; exact e9⟩⟩
    · intro hst u hu
      obtain ⟨a, ha⟩ := hmem u hu
      exact (e5 hst _ ha).1
    · intro hst
      obtain ⟨x, hx, h⟩ := e6 hst
      rcases h with h | h
      · exact .inl ⟨x.2, hmem' x hx, h⟩
      · exact .inr ⟨x.1, h⟩
    · intro h1 h2
      refine Classical.byContradiction fun hst => ?_
      obtain ⟨x, hx, h⟩ := e6 hst
      rcases h with h | h
      · exact hst (h.trans (h1 _ (hmem' x hx)))
      · exact hst (h.trans (h2 _))

end

end Rcpr.RB
