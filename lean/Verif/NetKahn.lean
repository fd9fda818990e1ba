import Verif.NetSpec

/-! What fibers over sockets can see, without the scheduler: what the next thing to see may be, that it depends on nothing but
the programs, and that what can be seen once can be seen whatever is seen first (lemmas). -/
namespace Rcpr.Net

open Rcpr Epoll Io

theorem tally_snoc (l : List Atom) (a : Atom) : tally (l ++ [a]) =
    match a with | .byte b => ((tally l).1, (tally l).2 ++ [b]) | .done => ((tally l).1 ++ [(tally l).2], []) := by
  unfold tally
  rw [List.foldl_append]
  cases a <;> rfl

theorem scan_tally (S : Setup) (f : Nat) (sd : Side) (p : Nat) (l : List Atom) : (l.foldl (scanStep S f sd p) (([], []), [])).1 = tally l := by
  have : ∀ (l : List Atom) t, (l.foldl (scanStep S f sd p) t).1 =
      l.foldl (fun t a => match a with | .byte b => (t.1, t.2 ++ [b]) | .done => (t.1 ++ [t.2], [])) t.1 := by
    intro l
    induction l with
    | nil => intro t; rfl
    | cons a l ih =>
      intro t
      rw [List.foldl_cons, List.foldl_cons, ih]
      cases a <;> rfl
  exact this l _

theorem results_byte (l : List Atom) (b : Byte) : results (l ++ [.byte b]) = results l := by simp [results, tally_snoc]
theorem results_done (l : List Atom) : results (l ++ [.done]) = results l ++ [part l] := by simp [results, part, tally_snoc]
theorem part_byte (l : List Atom) (b : Byte) : part (l ++ [.byte b]) = part l ++ [b] := by simp [part, tally_snoc]
theorem part_done (l : List Atom) : part (l ++ [.done]) = [] := by simp [part, tally_snoc]

theorem carried_byte (S : Setup) (f : Nat) (sd : Side) (p : Nat) (l : List Atom) (b : Byte) :
    carried S f sd p (l ++ [.byte b]) = if Op.on sd p (S.prog f (results l)) then carried S f sd p l ++ [b] else carried S f sd p l := by
  unfold carried results
  rw [List.foldl_append, ← scan_tally S f sd p l]
  rfl

theorem carried_done (S : Setup) (f : Nat) (sd : Side) (p : Nat) (l : List Atom) : carried S f sd p (l ++ [.done]) = carried S f sd p l := by
  unfold carried
  rw [List.foldl_append]
  rfl

theorem carried_mono (S : Setup) (f : Nat) (sd : Side) (p : Nat) {l l' : List Atom} (h : l <+: l') : carried S f sd p l <+: carried S f sd p l' := by
  obtain ⟨t, rfl⟩ := h
  induction t generalizing l with
  | nil => simp
  | cons a t ih =>
    have h1 : carried S f sd p l <+: carried S f sd p (l ++ [a]) := by
      cases a with
      | byte b =>
        rw [carried_byte]
        split
        · exact List.prefix_append _ _
        · exact List.prefix_refl _
      | done => rw [carried_done]; exact List.prefix_refl _
    have := ih (l := l ++ [a])
    rw [List.append_assoc] at this
    exact h1.trans this

theorem results_mono {l l' : List Atom} (h : l <+: l') : results l <+: results l' := by
  obtain ⟨t, rfl⟩ := h
  induction t generalizing l with
  | nil => simp
  | cons a t ih =>
    have h1 : results l <+: results (l ++ [a]) := by
      cases a with
      | byte b => rw [results_byte]; exact List.prefix_refl _
      | done => rw [results_done]; exact List.prefix_append _ _
    have := ih (l := l ++ [a])
    rw [List.append_assoc] at this
    exact h1.trans this

theorem Spawned.mono {S : Setup} {f g : Nat} {l l' : List Atom} (h : l <+: l') (k : Spawned S f l g) : Spawned S f l' g := by
  obtain ⟨i, h1, h2⟩ := k
  obtain ⟨t, ht⟩ := results_mono h
  refine ⟨i, ?_, ?_⟩
  · rw [← ht, List.length_append]; omega
  · rw [← ht, List.take_append_of_le_length (by omega)]; exact h2

theorem Live.mono {S : Setup} {A B : Seen} (h : ∀ f, A f <+: B f) {f : Nat} (k : Live S A f) : Live S B f :=
  k.imp id fun ⟨g, hg⟩ => ⟨g, hg.mono (h g)⟩

/-- What the call at hand may let the fiber see next. -/
def offers (S : Setup) (P : Plan) (A : Seen) (l : List Atom) (x : Atom) : Option Op → Prop
  | none => False
  | some (.read p n) =>
    if (part l).length < n then ∃ b, x = .byte b ∧ (sent S P A p)[(recv S P A p).length]? = some b else x = .done
  | some (.write p d) =>
    if (part l).length < d.length then
      ∃ b, x = .byte b ∧ d[(part l).length]? = some b ∧ (sent S P A (S.peer p)).length < (recv S P A (S.peer p)).length + S.cap (S.peer p)
    else x = .done
  | some (.spawn _) => x = .done
  | some .pause => x = .done

/-- Fiber `f` may see `x` next. -/
def May (S : Setup) (P : Plan) (A : Seen) (f : Nat) (x : Atom) : Prop :=
  Live S A f ∧ offers S P A (A f) x (S.prog f (results (A f)))

def push (A : Seen) (f : Nat) (l : List Atom) : Seen := fun g => if g = f then A g ++ l else A g

inductive Sees (S : Setup) (P : Plan) : Seen → Prop
  | nil : Sees S P fun _ => []
  | snoc {A} (f : Nat) (x : Atom) : Sees S P A → May S P A f x → Sees S P (push A f [x])

theorem push_le (A : Seen) (f : Nat) (l : List Atom) (g : Nat) : A g <+: push A f l g := by
  unfold push
  split
  · exact List.prefix_append _ _
  · exact List.prefix_refl _

theorem get_prefix {α : Type} {l l' : List α} (h : l <+: l') {i : Nat} {b : α} (hb : l[i]? = some b) : l'[i]? = some b := by
  obtain ⟨t, rfl⟩ := h
  obtain ⟨hi, -⟩ := List.getElem?_eq_some_iff.1 hb
  rw [List.getElem?_append_left hi]
  exact hb

variable {S : Setup} {P : Plan}

/-- What is offered stays offered. -/
theorem May.mono (L : Legal S P) {A B : Seen} {f : Nat} {x : Atom} (h : ∀ g, A g <+: B g) (hf : A f = B f) (k : May S P A f x) : May S P B f x := by
  refine ⟨k.1.mono h, ?_⟩
  have k2 := k.2
  rw [hf] at k2
  cases ho : S.prog f (results (B f)) with
  | none => rw [ho] at k2; exact k2
  | some op =>
    rw [ho] at k2
    cases op with
    | read p n =>
      simp only [offers] at k2 ⊢
      split
      · next hn =>
        rw [if_pos hn] at k2
        obtain ⟨b, hx, hb⟩ := k2
        have hr : recv S P B p = recv S P A p := by unfold recv; rw [L.read f _ p n ho, hf]
        exact ⟨b, hx, by rw [hr]; exact get_prefix (carried_mono S _ _ _ (h _)) hb⟩
      · next hn => rwa [if_neg hn] at k2
    | write p d =>
      simp only [offers] at k2 ⊢
      split
      · next hn =>
        rw [if_pos hn] at k2
        obtain ⟨b, hx, hb, hc⟩ := k2
        have hs : sent S P B (S.peer p) = sent S P A (S.peer p) := by unfold sent; rw [L.peer, L.write f _ p d ho, hf]
        have hr : (recv S P A (S.peer p)).length ≤ (recv S P B (S.peer p)).length := (carried_mono S _ _ _ (h _)).length_le
        exact ⟨b, hx, hb, by rw [hs]; omega⟩
      · next hn => rwa [if_neg hn] at k2
    | spawn g => exact k2
    | pause => exact k2

def Cmp {α : Type} (l l' : List α) : Prop := l <+: l' ∨ l' <+: l

/-- What is offered does not depend on the order of things. -/
theorem May.det (L : Legal S P) {A B : Seen} {f : Nat} {x y : Atom} (h : ∀ g, Cmp (A g) (B g)) (hf : A f = B f) (k : May S P A f x)
    (k' : May S P B f y) : x = y := by
  have k2 := k.2
  have k2' := k'.2
  rw [hf] at k2
  cases ho : S.prog f (results (B f)) with
  | none => rw [ho] at k2; exact k2.elim
  | some op =>
    rw [ho] at k2 k2'
    cases op with
    | read p n =>
      simp only [offers] at k2 k2'
      split at k2
      · next hn =>
        rw [if_pos hn] at k2'
        obtain ⟨b, hx, hb⟩ := k2
        obtain ⟨b', hx', hb'⟩ := k2'
        have hr : recv S P B p = recv S P A p := by unfold recv; rw [L.read f _ p n ho, hf]
        rw [hr] at hb'
        have : b = b' := by
          rcases h (P.wtr (S.peer p)) with h1 | h1
          · have := get_prefix (carried_mono S (P.wtr (S.peer p)) .wr (S.peer p) h1) hb
            exact Option.some.inj (this.symm.trans hb')
          · have := get_prefix (carried_mono S (P.wtr (S.peer p)) .wr (S.peer p) h1) hb'
            exact Option.some.inj (hb.symm.trans this)
        rw [hx, hx', this]
      · next hn => rw [if_neg hn] at k2'; rw [k2, k2']
    | write p d =>
      simp only [offers] at k2 k2'
      split at k2
      · next hn =>
        rw [if_pos hn] at k2'
        obtain ⟨b, hx, hb, -⟩ := k2
        obtain ⟨b', hx', hb', -⟩ := k2'
        rw [hx, hx', Option.some.inj (hb.symm.trans hb')]
      · next hn => rw [if_neg hn] at k2'; rw [k2, k2']
    | spawn g => exact k2.trans k2'.symm
    | pause => exact k2.trans k2'.symm

theorem prefix_snoc {α : Type} {l l' : List α} {x : α} (h : l <+: l' ++ [x]) : l = l' ++ [x] ∨ l <+: l' := by
  rcases List.prefix_concat_iff.1 h with h | h
  · exact .inl h
  · exact .inr h

/-- On the way, the fiber has seen less, and could see what it saw next. -/
theorem Sees.through {B : Seen} (h : Sees S P B) {f : Nat} {l : List Atom} (hl : l <+: B f) (hne : l ≠ B f) :
    ∃ C y, Sees S P C ∧ (∀ g, C g <+: B g) ∧ C f = l ∧ May S P C f y ∧ l ++ [y] <+: B f := by
  induction h with
  | nil => exact absurd (List.prefix_nil.1 hl) hne
  | @snoc A g x ha hm ih =>
    by_cases hg : f = g
    · subst hg
      have hp : push A f [x] f = A f ++ [x] := if_pos rfl
      rw [hp] at hl hne
      have hl := (prefix_snoc hl).resolve_left hne
      by_cases he : l = A f
      · exact ⟨A, x, ha, push_le A f [x], he.symm, hm, by rw [hp, he]; exact List.prefix_refl _⟩
      · obtain ⟨C, y, h1, h2, h3, h4, h5⟩ := ih hl he
        exact ⟨C, y, h1, fun g => (h2 g).trans (push_le A f [x] g), h3, h4, h5.trans (push_le A f [x] f)⟩
    · have hp : push A g [x] f = A f := if_neg hg
      rw [hp] at hl hne ⊢
      obtain ⟨C, y, h1, h2, h3, h4, h5⟩ := ih hl hne
      exact ⟨C, y, h1, fun k => (h2 k).trans (push_le A g [x] k), h3, h4, h5⟩

theorem prefix_of_ne {α : Type} {l l' : List α} (h : l <+: l') (hne : l ≠ l') : ∃ y, l ++ [y] <+: l' := by
  obtain ⟨t, rfl⟩ := h
  cases t with
  | nil => simp at hne
  | cons y t => exact ⟨y, t, by simp⟩

/-- What a fiber sees in one execution and in another is the same, as far as it goes. -/
theorem Sees.cmp (L : Legal S P) {A B : Seen} (ha : Sees S P A) (hb : Sees S P B) (f : Nat) : Cmp (A f) (B f) := by
  induction ha generalizing B f with
  | nil => exact .inl (List.nil_prefix)
  | @snoc A g x ha hm ih =>
    by_cases hg : f = g
    · subst hg
      have hp : push A f [x] f = A f ++ [x] := if_pos rfl
      rw [hp]
      rcases ih hb f with h | h
      · by_cases he : A f = B f
        · exact .inr (he ▸ List.prefix_append _ _)
        · obtain ⟨C, y, h1, -, h3, h4, h5⟩ := hb.through h he
          have : x = y := hm.det L (fun k => ih h1 k) h3.symm h4
          exact .inl (this ▸ h5)
      · exact .inr (h.trans (List.prefix_append _ _))
    · have hp : push A g [x] f = A f := if_neg hg
      rw [hp]
      exact ih hb f

/-- Where nothing more can be seen, everything has been seen. -/
theorem Sees.top (L : Legal S P) {A B : Seen} (ha : Sees S P A) (hb : Sees S P B) (hs : ∀ f x, ¬ May S P B f x) (f : Nat) : A f <+: B f := by
  induction ha generalizing f with
  | nil => exact List.nil_prefix
  | @snoc A g x ha hm ih =>
    by_cases hg : f = g
    · subst hg
      have hp : push A f [x] f = A f ++ [x] := if_pos rfl
      rw [hp]
      by_cases he : A f = B f
      · exact absurd (hm.mono L ih he) (hs f x)
      · obtain ⟨C, y, h1, -, h3, h4, h5⟩ := hb.through (ih f) he
        have : x = y := hm.det L (fun k => ha.cmp L h1 k) h3.symm h4
        exact this ▸ h5
    · have hp : push A g [x] f = A f := if_neg hg
      rw [hp]
      exact ih f

end Rcpr.Net
