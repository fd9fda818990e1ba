import Verif.NetTalkSpec

/-! Lemmas: the calls a code makes, whatever the results, are on the sockets it names. -/
namespace Rcpr.Net

open Rcpr Psock

/-- What can come of a write on `p` in `n` calls: all returned; or it failed, or is in one of them. -/
def WEnds (p n : Nat) (s : Play) (x : Option (Play × Status)) : Prop :=
  ∀ s' st, x = some (s', st) → (st = SUCCESS → s'.want = none ∧ s.left.length = s'.left.length + n) ∧
    (s'.want = none ∨ st ≠ SUCCESS ∧ ∃ d, s'.want = some (.write p d))

def REnds {α : Type} (p n : Nat) (s : Play) (x : Option (Play × Status × α)) : Prop :=
  ∀ s' st v, x = some (s', st, v) → (st = SUCCESS → s'.want = none ∧ s.left.length = s'.left.length + n) ∧
    (s'.want = none ∨ st ≠ SUCCESS ∧ ∃ d, s'.want = some (.read p d))

theorem waiting_ne' : WAITING ≠ SUCCESS := by decide

theorem WEnds.bind {p n m : Nat} {s : Play} {x : Option (Play × Status)} {g : Play → Option (Play × Status)} (h : WEnds p n s x)
    (h' : ∀ s', s'.want = none → WEnds p m s' (g s')) :
    WEnds p (n + m) s (x.bind fun r => if r.2 ≠ SUCCESS then some (r.1, r.2) else g r.1) := by
  intro s2 st2 he
  cases x with
  | none => cases he
  | some r =>
    obtain ⟨s1, st1⟩ := r
    obtain ⟨h1, h2⟩ := h s1 st1 rfl
    simp only [Option.bind_some] at he
    split at he
    · next hne =>
      cases he
      exact ⟨fun h => absurd h hne, h2⟩
    · next hne =>
      have hst : st1 = SUCCESS := Classical.byContradiction hne
      obtain ⟨a, b⟩ := h1 hst
      obtain ⟨c, d⟩ := h' s1 a s2 st2 he
      exact ⟨fun h => ⟨(c h).1, by have := (c h).2; omega⟩, d⟩

theorem wr_ends (p : Nat) (s : Play) (hs : s.want = none) (d : List Byte) (k : Nat) (er : Status) (her : er ≠ SUCCESS) : WEnds p 1 s
    ((wr p s d).bind fun r => if r.2.1 ≠ SUCCESS then some (r.1, r.2.1) else if k ≠ r.2.2 then some (r.1, er) else some (r.1, SUCCESS)) := by
  obtain ⟨left, want⟩ := s
  cases hs
  intro s' st he
  cases left with
  | nil =>
    simp only [wr, Option.bind_some, waiting_ne', ne_eq, not_false_eq_true, if_true] at he
    cases he
    exact ⟨fun h => absurd h waiting_ne', .inr ⟨waiting_ne', d, rfl⟩⟩
  | cons r l =>
    simp only [wr, Option.bind_some, ne_eq, not_true_eq_false, if_false] at he
    split at he
    · cases he
      exact ⟨fun h => absurd h her, .inl rfl⟩
    · cases he
      exact ⟨fun _ => ⟨rfl, rfl⟩, .inl rfl⟩

theorem ws_ne : ERROR_PSOCK_WRITE_INVALID_SIZE ≠ SUCCESS := by decide
theorem rs_ne : ERROR_PSOCK_READ_INVALID_SIZE ≠ SUCCESS := by decide
theorem rt_ne : ERROR_PSOCK_READ_BOXED_INVALID_TYPE ≠ SUCCESS := by decide
theorem rz_ne : ERROR_PSOCK_READ_BOXED_INVALID_SIZE ≠ SUCCESS := by decide

theorem writeRawInt_ends (e : Endian) (p : Nat) (s : Play) (hs : s.want = none) (w : Width) (v : BitVec (8 * w.bytes)) :
    WEnds p 1 s (writeRawInt e (wr p) s w v) := wr_ends p s hs _ _ _ ws_ne

theorem writeBoxed_ends (e : Endian) (p : Nat) (s : Play) (hs : s.want = none) (v : Val) :
    WEnds p (rounds v.ty) s (writeBoxed e (wr p) s v) := by
  cases v with
  | int t v => exact WEnds.bind (n := 1) (m := 1) (writeRawInt_ends e p s hs .w32 _) fun s' h' => writeRawInt_ends e p s' h' _ v
  | bool b => exact WEnds.bind (n := 1) (m := 1) (writeRawInt_ends e p s hs .w32 _) fun s' h' => wr_ends p s' h' _ _ _ ws_ne
  | string v =>
    show WEnds p 3 s (writeBoxedString e (wr p) s v)
    unfold writeBoxedString
    simp only
    split
    · intro s' st he
      cases he
      exact ⟨fun h => absurd h ws_ne, .inl hs⟩
    · exact WEnds.bind (n := 1) (m := 2) (writeRawInt_ends e p s hs .w32 _) fun s' h' =>
        WEnds.bind (n := 1) (m := 1) (writeRawInt_ends e p s' h' .w32 _) fun s' h' => wr_ends p s' h' _ _ _ ws_ne
  | data v =>
    exact WEnds.bind (n := 1) (m := 2) (writeRawInt_ends e p s hs .w32 _) fun s' h' =>
        WEnds.bind (n := 1) (m := 1) (writeRawInt_ends e p s' h' .w32 _) fun s' h' => wr_ends p s' h' _ _ _ ws_ne

theorem rd_cases (p : Nat) (s : Play) (hs : s.want = none) (n : Nat) (b : Bool) : REnds p 1 s (rd p s n b) := by
  obtain ⟨left, want⟩ := s
  cases hs
  intro s' st v he
  cases left with
  | nil => cases he; exact ⟨fun h => absurd h waiting_ne', .inr ⟨waiting_ne', n, rfl⟩⟩
  | cons r l => cases he; exact ⟨fun _ => ⟨rfl, rfl⟩, .inl rfl⟩

theorem REnds.fail {α β : Type} {p n m : Nat} {s s1 : Play} {st1 : Status} {v1 : β} {x : Option (Play × Status × β)} (h : REnds p n s x) (hx : x = some (s1, st1, v1))
    (hne : st1 ≠ SUCCESS) {y : Option (Play × Status × α)} {v : α} (hy : y = some (s1, st1, v)) : REnds p m s y := by
  intro s' st v' he
  rw [hy] at he
  cases he
  exact ⟨fun h => absurd h hne, (h _ _ _ hx).2⟩

theorem REnds.bad {α β : Type} {p n m : Nat} {s s1 : Play} {v1 : β} {x : Option (Play × Status × β)} (h : REnds p n s x) (hx : x = some (s1, SUCCESS, v1))
    {er : Status} (hne : er ≠ SUCCESS) {y : Option (Play × Status × α)} {v : α} (hy : y = some (s1, er, v)) : REnds p m s y := by
  intro s' st v' he
  rw [hy] at he
  cases he
  exact ⟨fun h => absurd h hne, .inl ((h _ _ _ hx).1 rfl).1⟩

theorem REnds.next {α β : Type} {p n m : Nat} {s s1 : Play} {v1 : β} {x : Option (Play × Status × β)} (h : REnds p n s x) (hx : x = some (s1, SUCCESS, v1))
    {y : Option (Play × Status × α)} (hy : REnds p m s1 y) : REnds p (n + m) s y := by
  intro s' st v' he
  obtain ⟨a, b⟩ := (h _ _ _ hx).1 rfl
  obtain ⟨c, d⟩ := hy _ _ _ he
  exact ⟨fun h => ⟨(c h).1, by have := (c h).2; omega⟩, d⟩

theorem REnds.map {α β : Type} {p n : Nat} {s : Play} {x : Option (Play × Status × β)} (h : REnds p n s x) (g : β → α) :
    REnds p n s (x.map fun r => (r.1, r.2.1, g r.2.2)) := by
  intro s' st v he
  cases x with
  | none => cases he
  | some r => cases he; exact h _ _ _ rfl

theorem REnds.ok {α : Type} {p : Nat} {s : Play} (hs : s.want = none) (v : α) : REnds p 0 s (some (s, SUCCESS, v)) := by
  intro s' st v' he
  cases he
  exact ⟨fun _ => ⟨hs, rfl⟩, .inl hs⟩

theorem REnds.want {α : Type} {p n : Nat} {s s1 : Play} {v : α} {x : Option (Play × Status × α)} (h : REnds p n s x) (hx : x = some (s1, SUCCESS, v)) : s1.want = none :=
  ((h _ _ _ hx).1 rfl).1

theorem readRawInt_ends (e : Endian) (p : Nat) (s : Play) (hs : s.want = none) (w : Width) : REnds p 1 s (readRawInt e (rd p) s w) := by
  have h := rd_cases p s hs w.bytes true
  unfold readRawInt
  cases hx : rd p s w.bytes true with
  | none => intro _ _ _ he; cases he
  | some r =>
    obtain ⟨s1, st1, d⟩ := r
    simp only [Option.pure_def, Option.bind_eq_bind, Option.bind_some]
    split
    · next hne => exact h.fail hx hne rfl
    · next hne =>
      have hst : st1 = SUCCESS := Classical.byContradiction hne
      subst hst
      split
      · exact h.bad hx rs_ne rfl
      · exact h.next (m := 0) hx (.ok (h.want hx) _)

theorem readRawBool_ends (p : Nat) (s : Play) (hs : s.want = none) : REnds p 1 s (readRawBool (rd p) s) := by
  have h := rd_cases p s hs 1 true
  unfold readRawBool
  cases hx : rd p s 1 true with
  | none => intro _ _ _ he; cases he
  | some r =>
    obtain ⟨s1, st1, d⟩ := r
    simp only [Option.pure_def, Option.bind_eq_bind, Option.bind_some]
    split
    · next hne => exact h.fail hx hne rfl
    · next hne =>
      have hst : st1 = SUCCESS := Classical.byContradiction hne
      subst hst
      split
      · exact h.next (m := 0) hx (.ok (h.want hx) _)
      · exact h.bad hx rs_ne rfl

/-- A read of the type before the rest. -/
theorem tagged_ends {α : Type} (e : Endian) (p n : Nat) (s : Play) (hs : s.want = none) (c : BitVec 32) (v : α) (g : Play → Option (Play × Status × α))
    (hg : ∀ s', s'.want = none → REnds p n s' (g s')) : REnds p (1 + n) s
    ((readRawU32 e (rd p) s).bind fun r => if r.2.1 ≠ SUCCESS then some (r.1, r.2.1, v)
      else if some c ≠ r.2.2 then some (r.1, ERROR_PSOCK_READ_BOXED_INVALID_TYPE, v) else g r.1) := by
  have h : REnds p 1 s (readRawU32 e (rd p) s) := readRawInt_ends e p s hs .w32
  cases hx : readRawU32 e (rd p) s with
  | none => intro _ _ _ he; cases he
  | some r =>
    obtain ⟨s1, st1, d⟩ := r
    simp only [Option.bind_some]
    split
    · next hne => exact h.fail hx hne rfl
    · next hne =>
      have hst : st1 = SUCCESS := Classical.byContradiction hne
      subst hst
      split
      · exact h.bad hx rt_ne rfl
      · exact h.next hx (hg s1 (h.want hx))

theorem readBoxedString_ends (e : Endian) (p : Nat) (s : Play) (hs : s.want = none) :
    REnds p 3 s ((readBoxedString e (rd p) s SUCCESS SUCCESS).map fun r => (r.sock, r.st, r.val)) := by
  have h : REnds p 1 s (readRawU32 e (rd p) s) := readRawInt_ends e p s hs .w32
  unfold readBoxedString
  cases hx : readRawU32 e (rd p) s with
  | none => intro _ _ _ he; cases he
  | some r =>
    obtain ⟨s1, st1, d⟩ := r
    simp only [Option.pure_def, Option.bind_eq_bind, Option.bind_some]
    split
    · next hne => exact h.fail hx hne rfl
    · next hne =>
      have hst : st1 = SUCCESS := Classical.byContradiction hne
      subst hst
      split
      · exact h.bad hx rt_ne rfl
      · refine h.next (m := 2) hx ?_
        have h1 := h.want hx
        have h : REnds p 1 s1 (readRawU32 e (rd p) s1) := readRawInt_ends e p s1 h1 .w32
        cases hy : readRawU32 e (rd p) s1 with
        | none => intro _ _ _ he; cases he
        | some r =>
          obtain ⟨s2, st2, z⟩ := r
          simp only [Option.bind_some]
          split
          · next hne => exact h.fail hy hne rfl
          · next hne =>
            have hst : st2 = SUCCESS := Classical.byContradiction hne
            subst hst
            cases z with
            | none => intro _ _ _ he; cases he
            | some z =>
              simp only [Option.bind_some, ne_eq, not_true_eq_false]
              split
              · exact h.bad hy rz_ne rfl
              · refine h.next (m := 1) hy ?_
                have h2 := h.want hy
                have h := rd_cases p s2 h2 z.toNat true
                cases hw : rd p s2 z.toNat true with
                | none => intro _ _ _ he; cases he
                | some r =>
                  obtain ⟨s3, st3, d⟩ := r
                  simp only [Option.bind_some]
                  split
                  · next hne => exact h.fail (v := none) hw hne (by simp)
                  · next hne =>
                    have hst : st3 = SUCCESS := Classical.byContradiction hne
                    subst hst
                    split
                    · exact h.bad hw rs_ne rfl
                    · exact h.next (m := 0) hw (.ok (h.want hw) _)

theorem readBoxedData_ends (e : Endian) (p : Nat) (s : Play) (hs : s.want = none) :
    REnds p 3 s ((readBoxedData e (rd p) s SUCCESS SUCCESS).map fun r => (r.sock, r.st, r.val)) := by
  have h : REnds p 1 s (readRawU32 e (rd p) s) := readRawInt_ends e p s hs .w32
  unfold readBoxedData
  cases hx : readRawU32 e (rd p) s with
  | none => intro _ _ _ he; cases he
  | some r =>
    obtain ⟨s1, st1, d⟩ := r
    simp only [Option.pure_def, Option.bind_eq_bind, Option.bind_some]
    split
    · next hne => exact h.fail hx hne rfl
    · next hne =>
      have hst : st1 = SUCCESS := Classical.byContradiction hne
      subst hst
      split
      · exact h.bad hx rt_ne rfl
      · refine h.next (m := 2) hx ?_
        have h1 := h.want hx
        have h : REnds p 1 s1 (readRawU32 e (rd p) s1) := readRawInt_ends e p s1 h1 .w32
        cases hy : readRawU32 e (rd p) s1 with
        | none => intro _ _ _ he; cases he
        | some r =>
          obtain ⟨s2, st2, z⟩ := r
          simp only [Option.bind_some]
          split
          · next hne => exact h.fail hy hne rfl
          · next hne =>
            have hst : st2 = SUCCESS := Classical.byContradiction hne
            subst hst
            cases z with
            | none => intro _ _ _ he; cases he
            | some z =>
              simp only [Option.bind_some, ne_eq, not_true_eq_false]
              refine h.next (m := 1) hy ?_
              have h2 := h.want hy
              have h := rd_cases p s2 h2 z.toNat true
              cases hw : rd p s2 z.toNat true with
              | none => intro _ _ _ he; cases he
              | some r =>
                obtain ⟨s3, st3, d⟩ := r
                simp only [Option.bind_some]
                split
                · next hne => exact h.fail (v := none) hw hne (by simp)
                · next hne =>
                  have hst : st3 = SUCCESS := Classical.byContradiction hne
                  subst hst
                  split
                  · exact h.bad hw rs_ne rfl
                  · exact h.next (m := 0) hw (.ok (h.want hw) _)

theorem readBoxed_ends (e : Endian) (p : Nat) (s : Play) (hs : s.want = none) (t : Ty) :
    REnds p (rounds t) s (readBoxed e (rd p) s SUCCESS SUCCESS t) := by
  cases t with
  | int t => exact REnds.map (tagged_ends e p 1 s hs _ none _ fun s' h' => readRawInt_ends e p s' h' t.width) _
  | bool => exact REnds.map (tagged_ends e p 1 s hs _ none _ fun s' h' => readRawBool_ends p s' h') _
  | string =>
    have := (readBoxedString_ends e p s hs).map fun v => v.map fun b => Val.string (b.takeWhile (· ≠ 0))
    rw [Option.map_map] at this
    exact this
  | data =>
    have := (readBoxedData_ends e p s hs).map fun v => v.map Val.data
    rw [Option.map_map] at this
    exact this

theorem other_ends (op : Op) (s : Play) (hs : s.want = none) : ((other op s).2 = SUCCESS → (other op s).1.want = none ∧ s.left.length = (other op s).1.left.length + 1) ∧
    ((other op s).2 ≠ SUCCESS → (other op s).1.want = some op ∧ s.left = []) := by
  obtain ⟨left, want⟩ := s
  cases hs
  cases left with
  | nil => exact ⟨fun h => absurd h waiting_ne', fun _ => ⟨rfl, rfl⟩⟩
  | cons r l => exact ⟨fun _ => ⟨rfl, rfl⟩, fun h => absurd rfl h⟩

/-- What the plan says of a call. -/
def Allowed (S : Setup) (P : Plan) (f n : Nat) : Option Op → Prop
  | some (.read p _) => P.rdr p = f
  | some (.write p _) => P.wtr p = f
  | some (.spawn g) => P.site g = (f, n) ∧ g ≠ S.main ∧ g ≠ S.idle ∧ g ≠ 0
  | _ => True

theorem run_within (S : Setup) (P : Plan) (e : Endian) (f N : Nat) (k : Sess) : ∀ (n : Nat) (s : Play), s.want = none → Within S P f n k → N = n + s.left.length →
    ∀ r, k.run e s = some r → Allowed S P f N r.1.want := by
  induction k with
  | stop =>
    intro n s hs _ _ r hr
    cases hr
    rw [hs]
    trivial
  | send p v k ih =>
    intro n s hs hw hN r hr
    have h := writeBoxed_ends e p s hs v
    unfold Sess.run at hr
    split at hr
    · cases hr
    · next s1 st1 hx =>
      obtain ⟨h1, h2⟩ := h _ _ hx
      split at hr
      · cases hr
        rcases h2 with h2 | ⟨-, d, h2⟩
        · rw [h2]; trivial
        · rw [h2]; exact hw.1
      · next hne =>
        obtain ⟨a, b⟩ := h1 (Classical.byContradiction hne)
        cases hk : k.run e s1 with
        | none => rw [hk] at hr; cases hr
        | some r1 =>
          rw [hk] at hr
          cases hr
          exact ih _ s1 a hw.2 (by omega) r1 hk
  | recv p t k ih =>
    intro n s hs hw hN r hr
    have h := readBoxed_ends e p s hs t
    unfold Sess.run at hr
    split at hr
    · cases hr
    · next s1 st1 v hx =>
      obtain ⟨h1, h2⟩ := h _ _ _ hx
      split at hr
      · cases hr
        rcases h2 with h2 | ⟨-, d, h2⟩
        · rw [h2]; trivial
        · rw [h2]; exact hw.1
      · next hne =>
        obtain ⟨a, b⟩ := h1 (Classical.byContradiction hne)
        split at hr
        · cases hr
        · next v =>
          cases hk : (k v).run e s1 with
          | none => rw [hk] at hr; cases hr
          | some r1 =>
            rw [hk] at hr
            cases hr
            exact ih v _ s1 a (hw.2 v) (by omega) r1 hk
  | add g k ih =>
    intro n s hs hw hN r hr
    obtain ⟨h1, h2⟩ := other_ends (.spawn g) s hs
    unfold Sess.run at hr
    simp only at hr
    split at hr
    · next hne =>
      cases hr
      obtain ⟨a, b⟩ := h2 hne
      simp only [a]
      rw [b] at hN
      have hN : N = n := hN
      subst hN
      exact hw.1
    · next hne =>
      obtain ⟨a, b⟩ := h1 (Classical.byContradiction hne)
      cases hk : k.run e (other (.spawn g) s).1 with
      | none => rw [hk] at hr; cases hr
      | some r1 =>
        rw [hk] at hr
        cases hr
        exact ih _ _ a hw.2 (by omega) r1 hk
  | pause k ih =>
    intro n s hs hw hN r hr
    obtain ⟨h1, h2⟩ := other_ends .pause s hs
    unfold Sess.run at hr
    simp only at hr
    split at hr
    · next hne =>
      cases hr
      simp only [(h2 hne).1]
      trivial
    · next hne =>
      obtain ⟨a, b⟩ := h1 (Classical.byContradiction hne)
      cases hk : k.run e (other .pause s).1 with
      | none => rw [hk] at hr; cases hr
      | some r1 =>
        rw [hk] at hr
        cases hr
        exact ih _ _ a hw (by omega) r1 hk

theorem prog_within {S : Setup} {P : Plan} {e : Endian} {f : Nat} {k : Sess} (hw : Within S P f 0 k) (h : List (List Byte)) : Allowed S P f h.length (k.prog e h) := by
  unfold Sess.prog
  cases hk : k.run e ⟨h, none⟩ with
  | none => trivial
  | some r => exact run_within S P e f h.length k 0 ⟨h, none⟩ rfl hw (Nat.zero_add _).symm r hk

end Rcpr.Net
