import Verif.Disc

/-! Properties of disciplines: C27, C28, C31 and part of C35. -/
namespace Rcpr.Disc

open Rcpr

/-! ### Lemmas -/

theorem store_some {α : Type} {v : List (Option α)} {i : Nat} {x : α} (h : i < v.length) :
    store v i x = some (v.set i (some x)) := by simp [store, h]

theorem fill_spec (off context : Nat) : ∀ (fs : List Nat) (i : Nat) (cv xv : List (Option Nat))
    (codes : List (Option (BitVec 32))),
    i + off + fs.length ≤ cv.length → i + off + fs.length ≤ xv.length → i + fs.length ≤ codes.length →
    ∃ cv' xv' codes', fill off context fs i cv xv codes = some (cv', xv', codes') ∧
      cv'.length = cv.length ∧ xv'.length = xv.length ∧ codes'.length = codes.length ∧
      (∀ j, j < i + off → cv'[j]? = cv[j]?) ∧ (∀ j, j < i + off → xv'[j]? = xv[j]?) ∧
      (∀ j, j < i → codes'[j]? = codes[j]?) ∧
      (∀ k (hk : k < fs.length), cv'[i + k + off]? = some (some fs[k])) ∧
      (∀ k, k < fs.length → xv'[i + k + off]? = some (some context)) ∧
      (∀ k, k < fs.length → codes'[i + k]? = some (some (BitVec.ofNat 32 (i + k + off)))) := by
  intro fs
  induction fs with
  | nil =>
    intro i cv xv codes _ _ _
    exact ⟨cv, xv, codes, rfl, rfl, rfl, rfl, fun _ _ => rfl, fun _ _ => rfl, fun _ _ => rfl,
      fun k hk => absurd hk (by simp), fun k hk => absurd hk (by simp), fun k hk => absurd hk (by simp)⟩
  | cons f fs ih =>
    intro i cv xv codes h1 h2 h3
    simp only [List.length_cons] at h1 h2 h3
    obtain ⟨cv', xv', codes', he, l1, l2, l3, p1, p2, p3, q1, q2, q3⟩ :=
      ih (i + 1) (cv.set (i + off) (some f)) (xv.set (i + off) (some context))
        (codes.set i (some (BitVec.ofNat 32 (i + off))))
        (by simp; omega) (by simp; omega) (by simp; omega)
    simp only [List.length_set] at l1 l2 l3
    refine ⟨cv', xv', codes', ?_, l1, l2, l3, ?_, ?_, ?_, ?_, ?_, ?_⟩
    · simp only [fill]
      rw [store_some (by omega), store_some (by omega), store_some (by omega)]
      exact he
    · intro j hj; rw [p1 j (by omega), List.getElem?_set_ne (by omega)]
    · intro j hj; rw [p2 j (by omega), List.getElem?_set_ne (by omega)]
    · intro j hj; rw [p3 j (by omega), List.getElem?_set_ne (by omega)]
    · intro k hk
      cases k with
      | zero => rw [show i + 0 + off = i + off by omega, p1 _ (by omega), List.getElem?_set_self (by omega)]; rfl
      | succ k =>
        have := q1 k (by simpa using hk)
        rw [show i + (k + 1) + off = i + 1 + k + off by omega, this]; rfl
    · intro k hk
      cases k with
      | zero => rw [show i + 0 + off = i + off by omega, p2 _ (by omega), List.getElem?_set_self (by omega)]
      | succ k =>
        have := q2 k (by simpa using hk)
        rw [show i + (k + 1) + off = i + 1 + k + off by omega, this]
    · intro k hk
      cases k with
      | zero =>
        rw [show i + 0 = i by omega, p3 _ (by omega), List.getElem?_set_self (by omega)]
      | succ k =>
        have := q3 k (by simpa using hk)
        rw [show i + (k + 1) = i + 1 + k by omega, this]

theorem resize_length (v : List (Option Nat)) (n : Nat) : (resize v n).length = n := by
  simp [resize]; omega

theorem resize_get {v : List (Option Nat)} {n j : Nat} (hj : j < n) (hv : j < v.length) :
    (resize v n)[j]? = v[j]? := by
  rw [resize, List.getElem?_append_left (by simp; omega), List.getElem?_take_of_lt hj]

/-- the vectors hold the entries of discipline `d` at the codes recorded in it -/
def Placed (cv xv : List (Option Nat)) (size : Nat) (d : Disc) : Prop :=
  ∃ off, off + d.cbs.length ≤ size ∧
    (∀ k (hk : k < d.cbs.length), cv[k + off]? = some (some d.cbs[k])) ∧
    (∀ k, k < d.cbs.length → xv[k + off]? = some (some d.context)) ∧
    (∀ k, k < d.cbs.length → d.codes[k]? = some (some (BitVec.ofNat 32 (k + off))))

structure Inv (internal : List Nat) (ctx : Nat) (ops : List Op) (c : Ctx) (done : List Nat) : Prop where
  tree : ∀ a ∈ c.tree, (c.mem a).isSome
  vec : ∃ cv xv, c.cv = some cv ∧ c.xv = some xv ∧ c.size ≤ cv.length ∧ c.size ≤ xv.length ∧
    internal.length ≤ c.size ∧
    (∀ k (hk : k < internal.length), cv[k]? = some (some internal[k])) ∧
    (∀ k, k < internal.length → xv[k]? = some (some ctx)) ∧
    ∀ a ∈ done, ∃ d, c.mem a = some d ∧ d.owner = true ∧ Placed cv xv c.size d
  codes : ∀ a d, c.mem a = some d → d.codes.length = d.cbs.length
  owner : ∀ a d, c.mem a = some d → (d.owner = true ↔ a ∈ done)
  intree : ∀ a ∈ done, a ∈ c.tree
  made : ∀ a d, c.mem a = some d → .create a d.id d.context d.cbs ∈ ops
  uniq : ∀ a id x cbs, .create a id x cbs ∈ ops → ∃ d, c.mem a = some d ∧ d.id = id ∧ d.context = x ∧ d.cbs = cbs

theorem find_some {mem : Nat → Option Disc} {id : Nat} : ∀ {t : List Nat},
    (∀ a ∈ t, (mem a).isSome) → ∃ r, find mem id t = some r ∧
      (r = none → ∀ a ∈ t, ∀ d, mem a = some d → d.id ≠ id) ∧
      (∀ a, r = some a → a ∈ t ∧ ∃ d, mem a = some d ∧ d.id = id) := by
  intro t
  induction t with
  | nil => intro _; exact ⟨none, rfl, fun _ a h => absurd h (by simp), fun a h => by simp at h⟩
  | cons a t ih =>
    intro h
    obtain ⟨d, hd⟩ := Option.isSome_iff_exists.1 (h a (by simp))
    obtain ⟨r, hr, hr1, hr2⟩ := ih fun b hb => h b (List.mem_cons_of_mem _ hb)
    by_cases hid : d.id = id
    · refine ⟨some a, by simp [find, hd, hid], fun h => by simp at h, ?_⟩
      intro b hb; simp only [Option.some.injEq] at hb; subst hb
      exact ⟨by simp, d, hd, hid⟩
    · refine ⟨r, by simp [find, hd, hid, hr], ?_, ?_⟩
      · intro hn b hb e he
        rcases List.mem_cons.1 hb with rfl | hb
        · rw [hd] at he; cases he; exact hid
        · exact hr1 hn b hb e he
      · intro b hb
        obtain ⟨p, q⟩ := hr2 b hb
        exact ⟨List.mem_cons_of_mem _ p, q⟩

/-- what `add` does in a state that satisfies the invariant -/
inductive AddCase (c : Ctx) (a : Nat) (d : Disc) : Answers → Ctx → Status → Prop
  | owned (ans) : d.owner = true → AddCase c a d ans c ERROR_FIBER_SCHEDULER_DISCIPLINE_ALREADY_OWNED
  | dup (ans) : d.owner = false → (∃ b ∈ c.tree, ∃ e, c.mem b = some e ∧ e.id = d.id) →
      AddCase c a d ans c ERROR_FIBER_SCHEDULER_DUPLICATE_DISCIPLINE_ID
  | node (ans) : d.owner = false → (∀ b ∈ c.tree, ∀ e, c.mem b = some e → e.id ≠ d.id) →
      ans.node ≠ SUCCESS → AddCase c a d ans c ans.node
  | cv (ans) : d.owner = false → (∀ b ∈ c.tree, ∀ e, c.mem b = some e → e.id ≠ d.id) →
      ans.node = SUCCESS → ans.cv ≠ SUCCESS →
      AddCase c a d ans ⟨c.mem, c.tree ++ [a], c.size, c.cv, c.xv⟩ ans.cv
  | xv (ans cv) : d.owner = false → (∀ b ∈ c.tree, ∀ e, c.mem b = some e → e.id ≠ d.id) →
      ans.node = SUCCESS → ans.cv = SUCCESS → ans.xv ≠ SUCCESS → c.cv = some cv →
      AddCase c a d ans ⟨c.mem, c.tree ++ [a], c.size, some (resize cv (c.size + d.cbs.length)), c.xv⟩ ans.xv
  | ok (ans cv xv cv' xv' codes') : d.owner = false →
      (∀ b ∈ c.tree, ∀ e, c.mem b = some e → e.id ≠ d.id) →
      ans.node = SUCCESS → ans.cv = SUCCESS → ans.xv = SUCCESS → c.cv = some cv → c.xv = some xv →
      fill c.size d.context d.cbs 0 (resize cv (c.size + d.cbs.length))
        (resize xv (c.size + d.cbs.length)) d.codes = some (cv', xv', codes') →
      AddCase c a d ans ⟨fun b => if b = a then some ⟨d.id, true, d.context, d.cbs, codes'⟩ else c.mem b,
        c.tree ++ [a], c.size + d.cbs.length, some cv', some xv'⟩ SUCCESS

theorem add_cases {internal : List Nat} {ctx : Nat} {ops : List Op} {c : Ctx} {done : List Nat}
    (i : Inv internal ctx ops c done) {a : Nat} {d : Disc} (hd : c.mem a = some d) (ans : Answers) :
    ∃ c' st, add true c a ans = some (c', st) ∧ AddCase c a d ans c' st := by
  obtain ⟨r, hr, hr1, hr2⟩ := find_some (id := d.id) i.tree
  obtain ⟨cv, xv, hcv, hxv, l1, l2, _⟩ := i.vec
  cases ho : d.owner with
  | true => exact ⟨_, _, by simp [add, hd, ho], .owned ans ho⟩
  | false =>
    cases r with
    | some b =>
      obtain ⟨hb, e, he, hid⟩ := hr2 b rfl
      exact ⟨_, _, by simp [add, hd, ho, hr], .dup ans ho ⟨b, hb, e, he, hid⟩⟩
    | none =>
      have hno := hr1 rfl
      by_cases h1 : ans.node = SUCCESS
      · by_cases h2 : ans.cv = SUCCESS
        · by_cases h3 : ans.xv = SUCCESS
          · obtain ⟨cv', xv', codes', hf, _⟩ := fill_spec c.size d.context d.cbs 0
              (resize cv (c.size + d.cbs.length)) (resize xv (c.size + d.cbs.length)) d.codes
              (by rw [resize_length]; omega) (by rw [resize_length]; omega) (by rw [i.codes a d hd]; omega)
            exact ⟨_, _, by simp [add, hd, ho, hr, h1, h2, h3, hcv, hxv, grow, hf],
              .ok ans cv xv cv' xv' codes' ho hno h1 h2 h3 hcv hxv hf⟩
          · exact ⟨_, _, by simp [add, hd, ho, hr, h1, h2, h3, hcv, grow], .xv ans cv ho hno h1 h2 h3 hcv⟩
        · exact ⟨_, _, by simp [add, hd, ho, hr, h1, h2], .cv ans ho hno h1 h2⟩
      · exact ⟨_, _, by simp [add, hd, ho, hr, h1], .node ans ho hno h1⟩

theorem Placed.mono {cv xv cv' xv' : List (Option Nat)} {s s' : Nat} {d : Disc} (h : Placed cv xv s d)
    (hs : s ≤ s') (h1 : ∀ j, j < s → cv'[j]? = cv[j]?) (h2 : ∀ j, j < s → xv'[j]? = xv[j]?) :
    Placed cv' xv' s' d := by
  obtain ⟨off, p0, p1, p2, p3⟩ := h
  refine ⟨off, by omega, ?_, ?_, p3⟩
  · intro k hk; rw [h1 _ (by omega)]; exact p1 k hk
  · intro k hk; rw [h2 _ (by omega)]; exact p2 k hk

theorem Inv.add {internal : List Nat} {ctx : Nat} {ops : List Op} {c c' : Ctx} {done : List Nat}
    (i : Inv internal ctx ops c done) {a : Nat} {d : Disc} (hd : c.mem a = some d) {ans : Answers}
    {st : Status} (h : AddCase c a d ans c' st) :
    Inv internal ctx ops c' (if st = SUCCESS then done ++ [a] else done) := by
  have tr : ∀ b ∈ c.tree ++ [a], (c.mem b).isSome := by
    intro b hb
    rcases List.mem_append.1 hb with hb | hb
    · exact i.tree b hb
    · simp only [List.mem_singleton] at hb; subst hb; simp [hd]
  cases h with
  | owned => rw [if_neg (by decide)]; exact i
  | dup => rw [if_neg (by decide)]; exact i
  | node _ _ h => rw [if_neg h]; exact i
  | cv _ _ _ h =>
    rw [if_neg h]
    exact ⟨tr, i.vec, i.codes, i.owner, fun b hb => by simp [i.intree b hb], i.made, i.uniq⟩
  | xv cv _ _ _ _ h hcv =>
    rw [if_neg h]
    refine ⟨tr, ?_, i.codes, i.owner, fun b hb => by simp [i.intree b hb], i.made, i.uniq⟩
    obtain ⟨cv0, xv, hcv0, hxv, l1, l2, l3, p1, p2, p3⟩ := i.vec
    rw [hcv] at hcv0; cases hcv0
    refine ⟨_, xv, rfl, hxv, by rw [resize_length]; exact Nat.le_add_right _ _, l2, l3, ?_, p2, ?_⟩
    · intro k hk; rw [resize_get (by omega) (by omega)]; exact p1 k hk
    · intro b hb
      obtain ⟨e, he, ho, hp⟩ := p3 b hb
      exact ⟨e, he, ho, hp.mono (Nat.le_refl _)
        (fun j hj => resize_get (by omega) (by omega)) (fun _ _ => rfl)⟩
  | ok cv xv cv' xv' codes' ho hno _ _ _ hcv hxv hf =>
    rw [if_pos rfl]
    obtain ⟨cv0, xv0, hcv0, hxv0, l1, l2, l3, p1, p2, p3⟩ := i.vec
    rw [hcv] at hcv0; cases hcv0
    rw [hxv] at hxv0; cases hxv0
    obtain ⟨cv1, xv1, codes1, hf1, e1, e2, e3, q1, q2, q3, r1, r2, r3⟩ := fill_spec c.size d.context d.cbs 0
      (resize cv (c.size + d.cbs.length)) (resize xv (c.size + d.cbs.length)) d.codes
      (by rw [resize_length]; omega) (by rw [resize_length]; omega) (by rw [i.codes a d hd]; omega)
    rw [hf] at hf1; cases hf1
    rw [resize_length] at e1 e2
    have s1 : ∀ j, j < c.size → cv'[j]? = cv[j]? := fun j hj => by
      rw [q1 j (by omega), resize_get (by omega) (by omega)]
    have s2 : ∀ j, j < c.size → xv'[j]? = xv[j]? := fun j hj => by
      rw [q2 j (by omega), resize_get (by omega) (by omega)]
    have hnd : a ∉ done := by
      intro h; have := (i.owner a d hd).2 h; rw [ho] at this; cases this
    refine ⟨?_, ⟨cv', xv', rfl, rfl, by rw [e1]; exact Nat.le_refl _, by rw [e2]; exact Nat.le_refl _,
      Nat.le_trans l3 (Nat.le_add_right _ _), ?_, ?_, ?_⟩, ?_, ?_, ?_, ?_, ?_⟩
    · intro b hb
      show (if b = a then _ else _ : Option Disc).isSome
      split
      · rfl
      · exact tr b hb
    · intro k hk; rw [s1 k (by omega)]; exact p1 k hk
    · intro k hk; rw [s2 k (by omega)]; exact p2 k hk
    · intro b hb
      show ∃ e, (if b = a then _ else _ : Option Disc) = some e ∧ _
      rcases List.mem_append.1 hb with hb | hb
      · have : b ≠ a := fun h => hnd (h ▸ hb)
        rw [if_neg this]
        obtain ⟨e, he, ho, hp⟩ := p3 b hb
        exact ⟨e, he, ho, hp.mono (Nat.le_add_right _ _) s1 s2⟩
      · simp only [List.mem_singleton] at hb
        rw [if_pos hb]
        refine ⟨_, rfl, rfl, c.size, Nat.le_refl _, ?_, ?_, ?_⟩
        · intro k hk; have := r1 k hk; rw [show 0 + k + c.size = k + c.size by omega] at this; exact this
        · intro k hk; have := r2 k hk; rw [show 0 + k + c.size = k + c.size by omega] at this; exact this
        · intro k hk; have := r3 k hk
          rw [show 0 + k + c.size = k + c.size by omega, show 0 + k = k by omega] at this; exact this
    · intro b e he
      replace he : (if b = a then _ else _ : Option Disc) = some e := he
      split at he
      · cases he; rw [e3]; exact i.codes a d hd
      · exact i.codes b e he
    · intro b e he
      replace he : (if b = a then _ else _ : Option Disc) = some e := he
      split at he
      · next h => cases he; simp [h]
      · next h => rw [i.owner b e he]; simp [h]
    · intro b hb
      rcases List.mem_append.1 hb with hb | hb
      · exact List.mem_append_left _ (i.intree b hb)
      · exact List.mem_append_right _ hb
    · intro b e he
      replace he : (if b = a then _ else _ : Option Disc) = some e := he
      split at he
      · next h => cases he; subst h; exact i.made b d hd
      · exact i.made b e he
    · intro b id x cbs hb
      obtain ⟨e, he, h1, h2, h3⟩ := i.uniq b id x cbs hb
      show ∃ e, (if b = a then _ else _ : Option Disc) = some e ∧ _
      split
      · next h => subst h; rw [hd] at he; cases he; exact ⟨_, rfl, h1, h2, h3⟩
      · exact ⟨e, he, h1, h2, h3⟩

theorem Inv.create {internal : List Nat} {ctx : Nat} {ops : List Op} {c : Ctx} {done : List Nat}
    (i : Inv internal ctx ops c done) {a id x : Nat} {cbs : List Nat} (h : c.mem a = none) :
    Inv internal ctx (ops ++ [.create a id x cbs]) (create c a id x cbs) done := by
  have ne : ∀ b e, c.mem b = some e → b ≠ a := by
    intro b e he hb; subst hb; rw [h] at he; cases he
  have nd : ∀ b ∈ done, b ≠ a := by
    intro b hb
    obtain ⟨d, hd⟩ := Option.isSome_iff_exists.1 (i.tree b (i.intree b hb))
    exact ne b d hd
  refine ⟨?_, ?_, ?_, ?_, i.intree, ?_, ?_⟩
  · intro b hb
    show (if b = a then _ else _ : Option Disc).isSome
    split
    · rfl
    · exact i.tree b hb
  · obtain ⟨cv, xv, h1, h2, l1, l2, l3, p1, p2, p3⟩ := i.vec
    refine ⟨cv, xv, h1, h2, l1, l2, l3, p1, p2, ?_⟩
    intro b hb
    obtain ⟨d, hd, hr⟩ := p3 b hb
    refine ⟨d, ?_, hr⟩
    show (if b = a then _ else _ : Option Disc) = some d
    rw [if_neg (ne b d hd)]; exact hd
  · intro b e he
    replace he : (if b = a then _ else _ : Option Disc) = some e := he
    split at he
    · cases he; simp
    · exact i.codes b e he
  · intro b e he
    replace he : (if b = a then _ else _ : Option Disc) = some e := he
    split at he
    · next hb =>
      cases he; constructor
      · intro h; cases h
      · intro h; exact absurd hb (nd b h)
    · exact i.owner b e he
  · intro b e he
    replace he : (if b = a then _ else _ : Option Disc) = some e := he
    split at he
    · next hb => cases he; subst hb; simp
    · exact List.mem_append_left _ (i.made b e he)
  · intro b id' x' cbs' hb
    show ∃ e, (if b = a then _ else _ : Option Disc) = some e ∧ _
    rcases List.mem_append.1 hb with hb | hb
    · obtain ⟨e, he, hr⟩ := i.uniq b id' x' cbs' hb
      rw [if_neg (ne b e he)]; exact ⟨e, he, hr⟩
    · simp only [List.mem_singleton, Op.create.injEq] at hb
      obtain ⟨rfl, rfl, rfl, rfl⟩ := hb
      rw [if_pos rfl]; exact ⟨_, rfl, rfl, rfl, rfl⟩

theorem Inv.start (internal : List Nat) (ctx : Nat) : Inv internal ctx [] (start internal ctx) [] := by
  refine ⟨fun a h => absurd h (by simp [Disc.start]), ⟨_, _, rfl, rfl, by simp [Disc.start], by simp [Disc.start],
    Nat.le_refl _, ?_, ?_, fun a h => absurd h (by simp)⟩, ?_, ?_, fun a h => absurd h (by simp), ?_, ?_⟩
  · intro k hk; simp [List.getElem?_eq_getElem hk]
  · intro k hk; simp [List.getElem?_eq_getElem hk]
  · intro a d h; cases h
  · intro a d h; cases h
  · intro a d h; cases h
  · intro a id x cbs h; cases h

theorem Inv.snoc_add {internal : List Nat} {ctx : Nat} {ops : List Op} {c : Ctx} {done : List Nat}
    (i : Inv internal ctx ops c done) (a : Nat) (ans : Answers) :
    Inv internal ctx (ops ++ [.add a ans]) c done := by
  refine ⟨i.tree, i.vec, i.codes, i.owner, i.intree, ?_, ?_⟩
  · intro b e he; exact List.mem_append_left _ (i.made b e he)
  · intro b id x cbs hb
    rcases List.mem_append.1 hb with hb | hb
    · exact i.uniq b id x cbs hb
    · simp at hb

theorem Inv.run {internal : List Nat} {ctx : Nat} : ∀ {ops pre : List Op} {c c' : Ctx} {done done' : List Nat},
    Inv internal ctx pre c done → Disc.run c done ops = some (c', done') →
    Inv internal ctx (pre ++ ops) c' done' := by
  intro ops
  induction ops with
  | nil => intro pre c c' done done' i h; simp [Disc.run] at h; obtain ⟨rfl, rfl⟩ := h; simpa using i
  | cons op ops ih =>
    intro pre c c' done done' i h
    cases op with
    | create a id x cbs =>
      simp only [Disc.run] at h
      by_cases hm : (c.mem a).isSome = true
      · rw [if_pos hm] at h; cases h
      · rw [if_neg hm] at h
        have hn : c.mem a = none := by simpa using hm
        have := ih (i.create hn) h
        simpa using this
    | add a ans =>
      simp only [Disc.run, bind, Option.bind_eq_some_iff] at h
      obtain ⟨⟨c1, st⟩, h1, h2⟩ := h
      cases hd : c.mem a with
      | none => simp [Disc.add, hd] at h1
      | some d =>
        obtain ⟨c2, st2, he, hc⟩ := add_cases i hd ans
        rw [h1] at he; cases he
        have := ih ((i.add hd hc).snoc_add a ans) h2
        simpa using this

theorem code_small {n : Nat} (h : n < 2 ^ 31) :
    ((BitVec.ofNat 32 n).signExtend 64).toNat = n ∧ (BitVec.ofNat 32 n).toNat = n := by
  have hm : (BitVec.ofNat 32 n).msb = false := by
    rw [BitVec.msb_eq_decide]; simp; omega
  constructor
  · rw [BitVec.toNat_signExtend]; simp [hm]; omega
  · simp; omega

/-! ### Properties -/

/-- **C27** (registered disciplines). In every history of creations and registrations - successful or
failing at any allocation - if `add` returned success for the discipline created with callbacks `cbs`
and context `x`, then a yield to its k-th callback calls exactly `cbs[k]` with `x`.

`c.size` is the number of registered callbacks (internal ones included); codes are stored in 32 bits
and passed through an `int`, so it must not exceed 2^31. -/
theorem discipline_dispatch {internal : List Nat} {ctx : Nat} {ops : List Op} {c : Ctx} {done : List Nat}
    (h : run (start internal ctx) [] ops = some (c, done)) (hs : c.size ≤ 2 ^ 31)
    {a id x : Nat} {cbs : List Nat} (hc : .create a id x cbs ∈ ops) (hd : a ∈ done)
    (k : Nat) (hk : k < cbs.length) :
    ∃ code, yieldTo c a (BitVec.ofNat 32 k) = some (.call cbs[k] x code) := by
  have i := (Inv.start internal ctx).run h
  obtain ⟨cv, xv, hcv, hxv, l1, l2, l3, p1, p2, p3⟩ := i.vec
  obtain ⟨d, hm, ho, off, q0, q1, q2, q3⟩ := p3 a hd
  obtain ⟨d', hm', _, rfl, rfl⟩ := i.uniq a id x cbs (by simpa using hc)
  rw [hm] at hm'; cases hm'
  have hk' : k < 2 ^ 31 := by omega
  have hko : k + off < 2 ^ 31 := by omega
  refine ⟨BitVec.ofNat 32 (k + off), ?_⟩
  have hdis : dispatch c (BitVec.ofNat 32 (k + off)) = some (.call d.cbs[k] d.context (BitVec.ofNat 32 (k + off))) := by
    unfold dispatch
    rw [(code_small hko).1, (code_small hko).2, if_neg (by omega), hcv, hxv]
    simp [load, q1 k hk, q2 k hk]
  unfold yieldTo
  rw [hm]
  simp only [bind, Option.bind_some, (code_small hk').1]
  rw [if_neg (by omega)]
  simp [load, q3 k hk, ho, hdis]

/-- **C27** (internal callbacks). The codes below the number of internal callbacks reach those, with
the scheduler context, after every history. -/
theorem internal_dispatch {internal : List Nat} {ctx : Nat} {ops : List Op} {c : Ctx} {done : List Nat}
    (h : run (start internal ctx) [] ops = some (c, done)) (hs : internal.length ≤ 2 ^ 31)
    (k : Nat) (hk : k < internal.length) :
    dispatch c (BitVec.ofNat 32 k) = some (.call internal[k] ctx (BitVec.ofNat 32 k)) := by
  have i := (Inv.start internal ctx).run h
  obtain ⟨cv, xv, hcv, hxv, l1, l2, l3, p1, p2, p3⟩ := i.vec
  have hk' : k < 2 ^ 31 := by omega
  unfold dispatch
  rw [(code_small hk').1, (code_small hk').2, if_neg (by omega), hcv, hxv]
  simp [load, p1 k hk, p2 k hk]

/-- **C27** (out of range). A code that, read as an `int`, is negative or not below the number of
registered callbacks is rejected. -/
theorem dispatch_out_of_range (c : Ctx) (code : BitVec 32) (hs : c.size ≤ 2 ^ 63)
    (h : code.toInt < 0 ∨ (c.size : Int) ≤ code.toInt) :
    dispatch c code = some (.err ERROR_FIBER_SCHEDULER_BAD_YIELD_EVENT) := by
  have : c.size ≤ (code.signExtend 64).toNat := by
    have e : (code.signExtend 64).toInt = code.toInt := BitVec.toInt_signExtend_of_le (by omega)
    have e2 := BitVec.toInt_eq_toNat_cond (code.signExtend 64)
    have e3 := (code.signExtend 64).isLt
    rw [e] at e2
    split at e2 <;> omega
  unfold dispatch
  rw [if_pos this]; rfl

/-- Two disciplines, the second registration of the first and a failing third one, then yields. -/
example :
    ∃ c done, run (start [100, 101, 102, 103, 104] 7) []
      [.create 1 11 21 [31, 32], .create 2 12 22 [33], .add 1 ⟨SUCCESS, SUCCESS, SUCCESS⟩,
       .create 3 13 23 [34, 35, 36], .add 3 ⟨SUCCESS, SUCCESS, ERROR_GENERAL_OUT_OF_MEMORY⟩,
       .add 2 ⟨SUCCESS, SUCCESS, SUCCESS⟩, .add 1 ⟨SUCCESS, SUCCESS, SUCCESS⟩] = some (c, done) ∧
      done = [1, 2] ∧ yieldTo c 1 1 = some (.call 32 21 6) ∧ yieldTo c 2 0 = some (.call 33 22 7) ∧
      dispatch c 8 = some (.err ERROR_FIBER_SCHEDULER_BAD_YIELD_EVENT) ∧
      dispatch c 3 = some (.call 103 7 3) :=
  ⟨_, _, rfl, by decide, by decide, by decide, by decide, by decide⟩

/-- **C28**, the part that holds: an event past the number of callbacks (or negative) is rejected with
`ERROR_FIBER_SCHEDULER_BAD_YIELD_EVENT`, whatever the state. Missing: the event equal to the number of
callbacks, see `yield_past_end_violated`. -/
theorem yield_past_end_partial {c : Ctx} {a : Nat} {d : Disc} (hm : c.mem a = some d) (ev : BitVec 32)
    (hs : d.cbs.length < 2 ^ 63) (h : ev.toInt < 0 ∨ (d.cbs.length : Int) < ev.toInt) :
    yieldTo c a ev = some (.err ERROR_FIBER_SCHEDULER_BAD_YIELD_EVENT) := by
  have : d.cbs.length < (ev.signExtend 64).toNat := by
    have e : (ev.signExtend 64).toInt = ev.toInt := BitVec.toInt_signExtend_of_le (by omega)
    have e2 := BitVec.toInt_eq_toNat_cond (ev.signExtend 64)
    have e3 := (ev.signExtend 64).isLt
    rw [e] at e2
    split at e2 <;> omega
  unfold yieldTo
  rw [hm]
  simp only [bind, Option.bind_some]
  rw [if_pos this]; rfl

/-- **C28** fails: the event equal to the number of callbacks is not rejected. For every discipline of
every history, registered or not, it reads one element past the end of the code vector. -/
theorem yield_past_end_violated {internal : List Nat} {ctx : Nat} {ops : List Op} {c : Ctx} {done : List Nat}
    (h : run (start internal ctx) [] ops = some (c, done)) {a id x : Nat} {cbs : List Nat}
    (hc : .create a id x cbs ∈ ops) (hs : cbs.length < 2 ^ 31) :
    yieldTo c a (BitVec.ofNat 32 cbs.length) = none := by
  have i := (Inv.start internal ctx).run h
  obtain ⟨d, hm, _, _, rfl⟩ := i.uniq a id x cbs (by simpa using hc)
  unfold yieldTo
  rw [hm]
  simp only [bind, Option.bind_some, (code_small hs).1]
  rw [if_neg (by omega)]
  simp [load, i.codes a d hm]

/-- Yielding through a discipline that was not registered is undefined too: its codes were never
written. -/
theorem yield_unregistered {c : Ctx} {a id x : Nat} {cbs : List Nat} (k : Nat) (hk : k < cbs.length)
    (hs : cbs.length < 2 ^ 31) :
    yieldTo (create c a id x cbs) a (BitVec.ofNat 32 k) = none := by
  have hk' : k < 2 ^ 31 := by omega
  unfold yieldTo
  simp only [create, if_true, bind, Option.bind_some, (code_small hk').1]
  rw [if_neg (by omega)]
  simp [load, hk]

example : yieldTo (start [100] 7) 1 0 = none := by decide

/-- **C31**, the part that holds: registration in a reachable state never goes wrong in an undefined
way; a failure before the tree was changed leaves the scheduler as it was; and even a failing
(re)allocation of the vectors leaves the discipline unowned and every yield as before. Missing: after
a failing (re)allocation the discipline stays in the tree, see `discipline_add_violated`. -/
theorem discipline_add_partial {internal : List Nat} {ctx : Nat} {ops : List Op} {c : Ctx} {done : List Nat}
    (h : run (start internal ctx) [] ops = some (c, done)) {a : Nat} (ha : (c.mem a).isSome) (ans : Answers) :
    ∃ c' st, add true c a ans = some (c', st) ∧
      (st ≠ SUCCESS → c'.mem = c.mem ∧ c'.size = c.size ∧
        (∀ code, code.toNat < 2 ^ 31 → dispatch c' code = dispatch c code) ∧
        (ans.node ≠ SUCCESS ∨ ans.cv = SUCCESS ∧ ans.xv = SUCCESS → c' = c)) ∧
      (st = SUCCESS → ∃ d, c.mem a = some d ∧ d.owner = false ∧
        discFind c d.id = some (ERROR_FIBER_SCHEDULER_DISCIPLINE_NOT_FOUND, none) ∧
        discFind c' d.id = some (SUCCESS, some a) ∧ ∃ d', c'.mem a = some d' ∧ d'.owner = true) := by
  have i := (Inv.start internal ctx).run h
  obtain ⟨d, hd⟩ := Option.isSome_iff_exists.1 ha
  obtain ⟨c', st, he, hc⟩ := add_cases i hd ans
  refine ⟨c', st, he, ?_, ?_⟩
  · intro hst
    cases hc with
    | owned => exact ⟨rfl, rfl, fun _ _ => rfl, fun _ => rfl⟩
    | dup => exact ⟨rfl, rfl, fun _ _ => rfl, fun _ => rfl⟩
    | node => exact ⟨rfl, rfl, fun _ _ => rfl, fun _ => rfl⟩
    | cv _ _ h1 h2 => exact ⟨rfl, rfl, fun _ _ => rfl, fun h => by rcases h with h | ⟨h, _⟩ <;> contradiction⟩
    | xv cv _ _ h1 h2 h3 hcv =>
      refine ⟨rfl, rfl, ?_, fun h => by rcases h with h | ⟨_, h⟩ <;> contradiction⟩
      intro code hlt
      obtain ⟨cv0, xv, hcv0, hxv, l1, l2, _⟩ := i.vec
      rw [hcv] at hcv0; cases hcv0
      have hcd := code_small hlt
      rw [BitVec.ofNat_toNat] at hcd
      simp only [BitVec.setWidth_eq] at hcd
      unfold dispatch
      simp only [hcd.1, hcv, bind, Option.bind_some]
      split
      · rfl
      · next hn =>
        have e := resize_get (v := cv) (show code.toNat < c.size + d.cbs.length by omega) (by omega)
        simp only [load, e]
    | ok => exact absurd rfl hst
  · intro hst
    cases hc with
    | owned => exact absurd hst (by decide)
    | dup => exact absurd hst (by decide)
    | node _ _ h => exact absurd hst h
    | cv _ _ _ h => exact absurd hst h
    | xv _ _ _ _ _ h => exact absurd hst h
    | ok cv xv cv' xv' codes' ho hno =>
      obtain ⟨r, hr, hr1, hr2⟩ := find_some (id := d.id) i.tree
      have hrn : r = none := by
        cases r with
        | none => rfl
        | some b =>
          obtain ⟨hb, e, he, hid⟩ := hr2 b rfl
          exact absurd hid (hno b hb e he)
      subst hrn
      refine ⟨d, hd, ho, by simp [discFind, hr], ?_, ⟨d.id, true, d.context, d.cbs, codes'⟩, by simp, rfl⟩
      have hat : ∀ t : List Nat, (∀ b ∈ t, (c.mem b).isSome) → (∀ b ∈ t, ∀ e, c.mem b = some e → e.id ≠ d.id) →
          find (fun b => if b = a then some ⟨d.id, true, d.context, d.cbs, codes'⟩ else c.mem b) d.id (t ++ [a])
            = some (some a) := by
        intro t
        induction t with
        | nil => intro _ _; simp [find]
        | cons b t ih =>
          intro h1 h2
          obtain ⟨e, hme⟩ := Option.isSome_iff_exists.1 (h1 b (by simp))
          have hne := h2 b (by simp) e hme
          have hba : b ≠ a := by intro hb; rw [hb, hd] at hme; cases hme; exact hne rfl
          have := ih (fun b hb => h1 b (List.mem_cons_of_mem _ hb)) (fun b hb => h2 b (List.mem_cons_of_mem _ hb))
          simp only [List.cons_append, find, if_neg hba, hme, bind, Option.bind_some, if_neg hne]
          exact this
      simp [discFind, hat c.tree i.tree hno]

/-- **C31** fails: when one of the vectors cannot be (re)allocated, the call reports the failure but the
discipline stays in the tree. It is then found although no scheduler owns it, the registration
cannot be repeated, and - the caller still owns the discipline - releasing it and then the scheduler
releases it twice. This happens in every history. -/
theorem discipline_add_violated {internal : List Nat} {ctx : Nat} {ops : List Op} {c : Ctx} {done : List Nat}
    (h : run (start internal ctx) [] ops = some (c, done)) {a : Nat} {d : Disc} (hd : c.mem a = some d)
    (ho : d.owner = false) (hnf : discFind c d.id = some (ERROR_FIBER_SCHEDULER_DISCIPLINE_NOT_FOUND, none))
    (ans : Answers) (hn : ans.node = SUCCESS) (hv : ans.cv ≠ SUCCESS ∨ ans.xv ≠ SUCCESS) :
    ∃ c' st, add true c a ans = some (c', st) ∧ st ≠ SUCCESS ∧
      discFind c' d.id = some (SUCCESS, some a) ∧ c'.mem a = some d ∧
      (∀ ans', add true c' a ans' = some (c', ERROR_FIBER_SCHEDULER_DUPLICATE_DISCIPLINE_ID)) ∧
      (∀ c2, release c' a = some c2 → releaseTree c2 c2.tree = none) := by
  have i := (Inv.start internal ctx).run h
  have hno : ∀ b ∈ c.tree, ∀ e, c.mem b = some e → e.id ≠ d.id := by
    obtain ⟨r, hr, hr1, hr2⟩ := find_some (id := d.id) i.tree
    cases r with
    | none => exact hr1 rfl
    | some b => simp [discFind, hr] at hnf
  obtain ⟨c', st, he, hc⟩ := add_cases i hd ans
  have i' := i.add hd hc
  have key : st ≠ SUCCESS ∧ c'.tree = c.tree ++ [a] ∧ c'.mem = c.mem := by
    cases hc with
    | owned h => rw [ho] at h; cases h
    | dup _ h => obtain ⟨b, hb, e, he, hid⟩ := h; exact absurd hid (hno b hb e he)
    | node _ _ h => exact absurd hn h
    | cv _ _ _ h => exact ⟨h, rfl, rfl⟩
    | xv _ _ _ _ _ h => exact ⟨h, rfl, rfl⟩
    | ok _ _ _ _ _ _ _ _ h1 h2 => rcases hv with h | h <;> contradiction
  obtain ⟨k1, k2, k3⟩ := key
  have hfind : find c'.mem d.id c'.tree = some (some a) := by
    have hat : ∀ t : List Nat, (∀ b ∈ t, (c.mem b).isSome) → (∀ b ∈ t, ∀ e, c.mem b = some e → e.id ≠ d.id) →
        find c.mem d.id (t ++ [a]) = some (some a) := by
      intro t
      induction t with
      | nil => intro _ _; simp [find, hd]
      | cons b t ih =>
        intro h1 h2
        obtain ⟨e, he⟩ := Option.isSome_iff_exists.1 (h1 b (by simp))
        have := ih (fun b hb => h1 b (List.mem_cons_of_mem _ hb)) (fun b hb => h2 b (List.mem_cons_of_mem _ hb))
        simp only [List.cons_append, find, he, bind, Option.bind_some, if_neg (h2 b (by simp) e he)]
        exact this
    rw [k2, k3]; exact hat c.tree i.tree hno
  refine ⟨c', st, he, k1, by simp [discFind, hfind], by rw [k3]; exact hd, ?_, ?_⟩
  · intro ans'
    simp [add, k3, hd, ho]
    rw [← k3, hfind]; simp
  · intro c2 h2
    simp only [release, k3, hd, bind, Option.bind_some, pure, Option.some.injEq] at h2
    subst h2
    simp only
    have gen : ∀ (t : List Nat) (c : Ctx), a ∈ t → c.mem a = none → releaseTree c t = none := by
      intro t
      induction t with
      | nil => intro c h; cases h
      | cons b t ih =>
        intro c hb hn
        simp only [releaseTree, release, bind, Option.bind]
        cases hm : c.mem b with
        | none => rfl
        | some e =>
          have hba : b ≠ a := by intro h; subst h; rw [hn] at hm; cases hm
          simp only [pure]
          refine ih _ ?_ ?_
          · rcases List.mem_cons.1 hb with h | h
            · exact absurd h.symm hba
            · exact h
          · simp [hn]
    exact gen _ _ (by simp [k2]) (by simp)

/-- the hypotheses of `discipline_add_violated` are met by the first registration -/
example : ∃ c, run (start [100] 7) [] [.create 1 11 21 [31]] = some (c, []) ∧
    discFind c 11 = some (ERROR_FIBER_SCHEDULER_DISCIPLINE_NOT_FOUND, none) ∧
    (add true c 1 ⟨SUCCESS, ERROR_GENERAL_OUT_OF_MEMORY, SUCCESS⟩).map (fun r => (r.2, discFind r.1 11))
      = some (ERROR_GENERAL_OUT_OF_MEMORY, some (SUCCESS, some 1)) :=
  ⟨_, rfl, by decide, by decide⟩

/-- **C35** for `fiber_scheduler_discipline_create`: success is reported exactly when the three
allocations succeed; otherwise, when the reclaims succeed, nothing stays allocated and the report is
out of memory. -/
theorem discipline_create_reports (a0 a1 a2 r0 r1 : Status) :
    ((createAlloc a0 a1 a2 r0 r1).1 = SUCCESS ↔ a0 = SUCCESS ∧ a1 = SUCCESS ∧ a2 = SUCCESS) ∧
    ((createAlloc a0 a1 a2 r0 r1).1 = SUCCESS → (createAlloc a0 a1 a2 r0 r1).2 = [0, 1, 2]) ∧
    (r0 = SUCCESS → r1 = SUCCESS → (createAlloc a0 a1 a2 r0 r1).1 ≠ SUCCESS →
      createAlloc a0 a1 a2 r0 r1 = (ERROR_GENERAL_OUT_OF_MEMORY, [])) := by
  have hne : ERROR_GENERAL_OUT_OF_MEMORY ≠ SUCCESS := by decide
  unfold createAlloc
  by_cases h0 : a0 = SUCCESS <;> by_cases h1 : a1 = SUCCESS <;> by_cases h2 : a2 = SUCCESS <;>
    by_cases g0 : r0 = SUCCESS <;> by_cases g1 : r1 = SUCCESS <;> simp [h0, h1, h2, g0, g1, hne]

example : createAlloc SUCCESS SUCCESS ERROR_GENERAL_OUT_OF_MEMORY SUCCESS SUCCESS
    = (ERROR_GENERAL_OUT_OF_MEMORY, []) := by decide

end Rcpr.Disc
