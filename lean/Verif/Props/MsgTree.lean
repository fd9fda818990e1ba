import Verif.MsgTreeProof
import Verif.Props.Fiber

/-!
Mailboxes and conditions with the red-black trees they are kept in (C77). `Verif.Props.Fiber` takes the trees to
be finite maps. Here: when that is right, and an execution in which it is not. Missing from the theorems with the
suffix `_partial`: uses of the trees outside `Tame`.
-/
namespace Rcpr.MsgTree

open Rcpr Fiber

/-- The uses of a tree under which it is known to be right: no delete while a node with an only child has a black one
(`Quiet`), one delete, at most four structures at a time, only the one with the least address is taken out
(`First`: what was created first is closed first), or all goes in and out at the upper end (`Stack`: what was created last is
closed first). -/
def Tame (P : Use) : Prop := P = RB.Quiet ∨ P = RB.OneDelete ∨ P = RB.AtMost 4 ∨ P = RB.First byAddr ∨ P = RB.Stack byAddr

theorem tame_safe {P : Use} (h : Tame P) : ∃ G, Safe P G := by
  rcases h with rfl | rfl | rfl | rfl | rfl
  · exact ⟨_, safe_quiet⟩
  · exact ⟨_, safe_once⟩
  · exact ⟨_, safe_four⟩
  · exact ⟨_, safe_first⟩
  · exact ⟨_, safe_stack⟩

/-- Whatever the calls and whatever fails: what is seen is what is seen when the trees are finite maps, the trees
hold the structures that exist, and the next call is defined. -/
theorem trees_are_maps_partial {P : Use} (hP : Tame P) {main idle N M : Nat} {w : World} {tr : List Item}
    (h : HistT P anyCall main idle N M w tr) :
    Any main idle w.sys tr ∧ w.mail.tree.count = number (fun a => (w.sys.boxes a).isSome) w.sys.mindex ∧
      w.cond.tree.count = number (fun a => (w.sys.conds a).isSome) w.sys.cindex ∧
      ∀ c x, Fresh w c x → Keeps P w c x → ∃ w' it, stepT w c x = some (w', it) := by
  obtain ⟨G, S⟩ := tame_safe hP
  obtain ⟨j, a⟩ := h.any S
  refine ⟨a, j.mail.number S, j.cond.number S, fun c x hf hk => ?_⟩
  obtain ⟨w', o', e, -⟩ := stepT_ok S j hf hk
  exact ⟨w', _, e⟩

/-- The same for the legal calls of `Verif.FiberSpec`, so that the theorems about legal histories apply. -/
theorem trees_are_maps_legal_partial {P : Use} (hP : Tame P) {main idle N M : Nat} {w : World} {tr : List Item}
    (h : HistT P Legal main idle N M w tr) : Hist main idle w.sys tr := by
  obtain ⟨G, S⟩ := tame_safe hP
  exact (h.hist S).2

/-- In particular an address that was returned and never closed can be sent to. -/
theorem open_found_partial {P : Use} (hP : Tame P) {main idle N M : Nat} {w : World} {tr : List Item}
    (h : HistT P Legal main idle N M w tr) {a : Nat} (hc : a ∈ created tr) (hn : ∀ it ∈ tr, it.call ≠ .boxClose a) {m : Nat} {x : Ans}
    (lg : Legal w.sys (.send a m) x.o) (hk : Keeps P w (.send a m) x) (h0 : x.o.a 0 = SUCCESS) :
    ∃ w' it, stepT w (.send a m) x = some (w', it) ∧ it.refused = false := by
  obtain ⟨G, S⟩ := tame_safe hP
  obtain ⟨j, hh⟩ := h.hist S
  obtain ⟨w', o', e1, -, -, -, e5⟩ := stepT_ok (c := .send a m) (x := x) S j ⟨nofun, nofun⟩ hk
  have ho : o' = x.o := e5 fun _ => ⟨by simp, by simp⟩
  subst ho
  exact ⟨w', _, e1, open_accepts_partial hh hc hn lg h0⟩

/-- And an address that was closed cannot: `message_send`, `message_receive` and `mailbox_close` are refused, whatever else failed. -/
theorem closed_lost_partial {P : Use} (hP : Tame P) {main idle N M : Nat} {w : World} {tr : List Item}
    (h : HistT P anyCall main idle N M w tr) {a : Nat} (hc : closed a tr) {c : Call} (hcc : c = .receive a ∨ c = .boxClose a ∨ ∃ m, c = .send a m)
    {x : Ans} (hk : Keeps P w c x) : ∃ w' it, stepT w c x = some (w', it) ∧ it.refused = true := by
  obtain ⟨G, S⟩ := tame_safe hP
  obtain ⟨j, hh⟩ := h.any S
  obtain ⟨w', o', e1, -⟩ := stepT_ok (c := c) (x := x) S j (by rcases hcc with rfl | rfl | ⟨m, rfl⟩ <;> exact ⟨nofun, nofun⟩) hk
  exact ⟨w', _, e1, closed_refused hh hc o' hcc⟩

/-- When what was created first is closed first, any number of structures may exist: whatever the calls and whatever
fails, what is seen is what is seen when the trees are finite maps. -/
theorem oldest_first_maps_partial {main idle N M : Nat} {w : World} {tr : List Item}
    (h : HistT RB.Free (fun s c _ => Oldest s c) main idle N M w tr) :
    Any main idle w.sys tr ∧ w.mail.tree.count = number (fun a => (w.sys.boxes a).isSome) w.sys.mindex ∧
      w.cond.tree.count = number (fun a => (w.sys.conds a).isSome) w.sys.cindex ∧
      ∀ c x, Fresh w c x → Oldest w.sys c → ∃ w' it, stepT w c x = some (w', it) := by
  have h' : HistT (RB.First byAddr) anyCall main idle N M w tr := HistT.oldest (P := RB.Free) (by
    induction h with
    | init h1 h2 => exact .init h1 h2
    | step c x _ hl hf hk hs ih => exact .step c x ih ⟨trivial, hl⟩ hf hk hs)
  obtain ⟨h1, h2, h3, h4⟩ := trees_are_maps_partial (.inr (.inr (.inr (.inl rfl)))) h'
  exact ⟨h1, h2, h3, fun c x hf ho => h4 c x hf (keeps_oldest safe_first (h'.any safe_first).1 ho)⟩

/-- The same for the legal calls: then every address that was returned and never closed can be sent to. -/
theorem oldest_first_found_partial {main idle N M : Nat} {w : World} {tr : List Item}
    (h : HistT RB.Free (fun s c o => Legal s c o ∧ Oldest s c) main idle N M w tr) :
    Hist main idle w.sys tr ∧ ∀ a m x, a ∈ created tr → (∀ it ∈ tr, it.call ≠ .boxClose a) → Legal w.sys (.send a m) x.o → x.o.a 0 = SUCCESS →
      ∃ w' it, stepT w (.send a m) x = some (w', it) ∧ it.refused = false := by
  have h' := h.oldest
  refine ⟨trees_are_maps_legal_partial (.inr (.inr (.inr (.inl rfl)))) h', fun a m x hc hn lg h0 => ?_⟩
  exact open_found_partial (.inr (.inr (.inr (.inl rfl)))) h' hc hn lg (keeps_oldest safe_first (h'.any safe_first).1 trivial) h0

/-- The same when what was created last is closed first. -/
theorem newest_first_maps_partial {main idle N M : Nat} {w : World} {tr : List Item}
    (h : HistT RB.Free (fun s c _ => Newest s c) main idle N M w tr) :
    Any main idle w.sys tr ∧ w.mail.tree.count = number (fun a => (w.sys.boxes a).isSome) w.sys.mindex ∧
      w.cond.tree.count = number (fun a => (w.sys.conds a).isSome) w.sys.cindex ∧
      ∀ c x, Fresh w c x → Newest w.sys c → ∃ w' it, stepT w c x = some (w', it) := by
  have h' : HistT (RB.Stack byAddr) anyCall main idle N M w tr := HistT.newest (P := RB.Free) (by
    induction h with
    | init h1 h2 => exact .init h1 h2
    | step c x _ hl hf hk hs ih => exact .step c x ih ⟨trivial, hl⟩ hf hk hs)
  obtain ⟨h1, h2, h3, h4⟩ := trees_are_maps_partial (.inr (.inr (.inr (.inr rfl)))) h'
  exact ⟨h1, h2, h3, fun c x hf ho => h4 c x hf (keeps_newest safe_stack (h'.any safe_stack).1 ho)⟩

theorem newest_first_found_partial {main idle N M : Nat} {w : World} {tr : List Item}
    (h : HistT RB.Free (fun s c o => Legal s c o ∧ Newest s c) main idle N M w tr) :
    Hist main idle w.sys tr ∧ ∀ a m x, a ∈ created tr → (∀ it ∈ tr, it.call ≠ .boxClose a) → Legal w.sys (.send a m) x.o → x.o.a 0 = SUCCESS →
      ∃ w' it, stepT w (.send a m) x = some (w', it) ∧ it.refused = false := by
  have h' := h.newest
  refine ⟨trees_are_maps_legal_partial (.inr (.inr (.inr (.inr rfl)))) h', fun a m x hc hn lg h0 => ?_⟩
  exact open_found_partial (.inr (.inr (.inr (.inr rfl)))) h' hc hn lg (keeps_newest safe_stack (h'.any safe_stack).1 trivial) h0

/-! ### Executions -/

def okX (node : Nat) : Ans := ⟨okO, node, ⟨fun _ => SUCCESS, fun _ => SUCCESS⟩⟩

private def fewB (m : Nat) (s : RB.St) : RB.Spec.Op Nat → Bool
  | .insert _ _ st => st ≠ SUCCESS || s.tree.count < m
  | _ => true

private theorem fewB_iff {m : Nat} {h : Log} {s : RB.St} {op : RB.Spec.Op Nat} (hf : fewB m s op = true) : RB.AtMost m h s op := by
  rintro u a rfl
  simpa [fewB] using hf

private def goodB (m : Nat) (w : World) (c : Call) (node : Nat) : Bool :=
  legalB w.sys c && (w.mail.heap node).isNone && (w.cond.heap node).isNone &&
    (mailOp w c (okX node)).all (fewB m w.mail) && (condOp w c (okX node)).all (fewB m w.cond)

/-- calls with new nodes at `n`, `n + 1`, … -/
def okT : Nat → List Call → List (Call × Ans)
  | _, [] => []
  | n, c :: cs => (c, okX n) :: okT (n + 1) cs

private def goodsB (m : Nat) : World → Nat → List Call → Bool
  | _, _, [] => true
  | w, n, c :: cs => goodB m w c n && match stepT w c (okX n) with
    | none => false
    | some r => goodsB m r.1 (n + 1) cs

private theorem histT_exec {m main idle N M : Nat} : ∀ {cs : List Call} {n : Nat} {w : World} {tr : List Item},
    HistT (RB.AtMost m) Legal main idle N M w tr → goodsB m w n cs = true →
    ∃ r, execT w (okT n cs) = some r ∧ HistT (RB.AtMost m) Legal main idle N M r.1 (tr ++ r.2)
  | [], n, w, tr, h, _ => ⟨(w, []), rfl, by simpa using h⟩
  | c :: cs, n, w, tr, h, hg => by
    simp only [goodsB, Bool.and_eq_true] at hg
    obtain ⟨hg, hr⟩ := hg
    cases hs : stepT w c (okX n) with
    | none => simp [hs] at hr
    | some r =>
      simp only [hs] at hr
      obtain ⟨w', it⟩ := r
      simp only [goodB, Bool.and_eq_true, Option.isNone_iff_eq_none, Option.all_eq_true] at hg
      obtain ⟨⟨⟨⟨h1, h2⟩, h3⟩, h4⟩, h5⟩ := hg
      obtain ⟨q, e1, e2⟩ := histT_exec (.step c (okX n) h (legalB_ok h1) ⟨fun _ _ => h2, fun _ _ => h3⟩
        ⟨fun op ho => fewB_iff (h := w.mlog) (h4 op ho), fun op ho => fewB_iff (h := w.clog) (h5 op ho)⟩ hs) hr
      exact ⟨(q.1, it :: q.2), by simp [execT, okT, hs, e1], by simpa using e2⟩

private theorem histT_from {m main idle N M n : Nat} {cs : List Call} (h0 : main ≠ 0) (hi : main ≠ idle)
    (h : goodsB m (initT main idle N M) n cs = true) :
    ∃ r, execT (initT main idle N M) (okT n cs) = some r ∧ HistT (RB.AtMost m) Legal main idle N M r.1 r.2 := by
  simpa using histT_exec (tr := []) (.init h0 hi) h

/-- At most four mailboxes at a time, opened and closed. -/
def fourBoxes : List Call := [.boxCreate, .boxCreate, .boxCreate, .boxCreate, .boxClose 4, .boxClose 2, .boxCreate, .boxCreate, .boxClose 3,
  .boxClose 6, .condCreate, .boxCreate, .boxCreate, .condClose 1, .boxClose 1, .boxClose 7]

example : ∃ w tr, HistT (RB.AtMost 4) Legal 1 9 0 0 w tr ∧ tr.length = 16 ∧ 5 ∈ created tr ∧ (∀ it ∈ tr, it.call ≠ .boxClose 5) ∧
    closed 3 tr ∧ Legal w.sys (.send 5 7) okO ∧ Keeps (RB.AtMost 4) w (.send 5 7) (okX 100) := by
  obtain ⟨r, e, h⟩ := histT_from (m := 4) (main := 1) (idle := 9) (N := 0) (M := 0) (n := 10) (cs := fourBoxes) (by decide) (by decide)
    (by decide +kernel)
  have hc : (execT (initT 1 9 0 0) (okT 10 fourBoxes)).map (fun r => (r.2.length, created r.2, r.2.map (·.call),
      r.2.any (fun i => i.call == .boxClose 3 && !i.refused), legalB r.1.sys (.send 5 7))) =
      some (16, [1, 2, 3, 4, 5, 6, 7, 8], fourBoxes, true, true) := by decide +kernel
  rw [e] at hc
  simp only [Option.map_some, Option.some.injEq, Prod.mk.injEq, List.any_eq_true, Bool.and_eq_true, beq_iff_eq, Bool.not_eq_true'] at hc
  obtain ⟨c1, c2, c3, ⟨i, c4, c5, c6⟩, c7⟩ := hc
  refine ⟨r.1, r.2, h, c1, by rw [c2]; decide, fun it hit hb => ?_, ⟨i, c4, c5, c6⟩, legalB_ok c7, fun op ho => ?_, fun op ho => ?_⟩
  · have := List.mem_map_of_mem (f := (·.call)) hit
    rw [c3, hb] at this
    revert this; decide
  · simp [mailOp] at ho; subst ho; intro u a h; cases h
  · simp [condOp] at ho

private def endB (r : Nat → Nat → Bool) (w : Sys) : Call → Bool
  | .boxClose a => (w.boxes a).isNone || (List.range (w.mindex + 1)).all fun b => (w.boxes b).isNone || b == a || r a b
  | .condClose a => (w.conds a).isNone || (List.range (w.cindex + 1)).all fun b => (w.conds b).isNone || b == a || r a b
  | _ => true

private theorem endB_key {G : Log → RB.St → RB.Spec.View → Prop} {r : Nat → Nat → Bool} {α : Type} {f : Nat → Option α} {log : Log} {s : RB.St} {n : Nat} :
    Tied G log s (fun a => f a ≠ none) n → ∀ a, ((f a).isNone || (List.range (n + 1)).all fun b => (f b).isNone || b == a || r a b) = true →
      f a ≠ none → ∀ b, f b ≠ none → b ≠ a → r a b = true := by
  intro ⟨v, _, h2, _, h4⟩ a h ha b hb hne
  rw [Bool.or_eq_true, List.all_eq_true] at h
  rcases h with h | h
  · exact absurd (Option.isNone_iff_eq_none.1 h) ha
  · have := h b (List.mem_range.2 (by have := h4 b ((h2 b).1 hb); omega))
    simp only [Bool.or_eq_true, Option.isNone_iff_eq_none, beq_iff_eq] at this
    rcases this with (h | h) | h
    · exact absurd h hb
    · exact absurd h hne
    · exact h

private theorem oldestB_iff {G : Log → RB.St → RB.Spec.View → Prop} {w : World} (j : J G w) {c : Call} (h : endB (fun a b => a < b) w.sys c = true) :
    Oldest w.sys c := by
  cases c with
  | boxClose a => exact fun h1 b h2 h3 => of_decide_eq_true (endB_key (r := fun a b => a < b) j.mail a h h1 b h2 h3)
  | condClose a => exact fun h1 b h2 h3 => of_decide_eq_true (endB_key (r := fun a b => a < b) j.cond a h h1 b h2 h3)
  | _ => trivial

private theorem newestB_iff {G : Log → RB.St → RB.Spec.View → Prop} {w : World} (j : J G w) {c : Call} (h : endB (fun a b => b < a) w.sys c = true) :
    Newest w.sys c := by
  cases c with
  | boxClose a => exact fun h1 b h2 h3 => of_decide_eq_true (endB_key (r := fun a b => b < a) j.mail a h h1 b h2 h3)
  | condClose a => exact fun h1 b h2 h3 => of_decide_eq_true (endB_key (r := fun a b => b < a) j.cond a h h1 b h2 h3)
  | _ => trivial

private def endsB (r : Nat → Nat → Bool) : World → Nat → List Call → Bool
  | _, _, [] => true
  | w, n, c :: cs => legalB w.sys c && (w.mail.heap n).isNone && (w.cond.heap n).isNone && endB r w.sys c && match stepT w c (okX n) with
    | none => false
    | some q => endsB r q.1 (n + 1) cs

private theorem histO_exec {main idle N M : Nat} : ∀ {cs : List Call} {n : Nat} {w : World} {tr : List Item},
    HistT RB.Free (fun s c o => Legal s c o ∧ Oldest s c) main idle N M w tr → endsB (fun a b => a < b) w n cs = true →
    ∃ r, execT w (okT n cs) = some r ∧ HistT RB.Free (fun s c o => Legal s c o ∧ Oldest s c) main idle N M r.1 (tr ++ r.2)
  | [], n, w, tr, h, _ => ⟨(w, []), rfl, by simpa using h⟩
  | c :: cs, n, w, tr, h, hg => by
    simp only [endsB, Bool.and_eq_true, Option.isNone_iff_eq_none] at hg
    obtain ⟨⟨⟨⟨h1, h2⟩, h3⟩, h4⟩, hr⟩ := hg
    cases hs : stepT w c (okX n) with
    | none => simp [hs] at hr
    | some r =>
      simp only [hs] at hr
      obtain ⟨w', it⟩ := r
      obtain ⟨q, e1, e2⟩ := histO_exec (.step c (okX n) h ⟨legalB_ok h1, oldestB_iff (h.oldest.any safe_first).1 h4⟩ ⟨fun _ _ => h2, fun _ _ => h3⟩
        ⟨fun _ _ => trivial, fun _ _ => trivial⟩ hs) hr
      exact ⟨(q.1, it :: q.2), by simp [execT, okT, hs, e1], by simpa using e2⟩

private theorem histN_exec {main idle N M : Nat} : ∀ {cs : List Call} {n : Nat} {w : World} {tr : List Item},
    HistT RB.Free (fun s c o => Legal s c o ∧ Newest s c) main idle N M w tr → endsB (fun a b => b < a) w n cs = true →
    ∃ r, execT w (okT n cs) = some r ∧ HistT RB.Free (fun s c o => Legal s c o ∧ Newest s c) main idle N M r.1 (tr ++ r.2)
  | [], n, w, tr, h, _ => ⟨(w, []), rfl, by simpa using h⟩
  | c :: cs, n, w, tr, h, hg => by
    simp only [endsB, Bool.and_eq_true, Option.isNone_iff_eq_none] at hg
    obtain ⟨⟨⟨⟨h1, h2⟩, h3⟩, h4⟩, hr⟩ := hg
    cases hs : stepT w c (okX n) with
    | none => simp [hs] at hr
    | some r =>
      simp only [hs] at hr
      obtain ⟨w', it⟩ := r
      obtain ⟨q, e1, e2⟩ := histN_exec (.step c (okX n) h ⟨legalB_ok h1, newestB_iff (h.newest.any safe_stack).1 h4⟩ ⟨fun _ _ => h2, fun _ _ => h3⟩
        ⟨fun _ _ => trivial, fun _ _ => trivial⟩ hs) hr
      exact ⟨(q.1, it :: q.2), by simp [execT, okT, hs, e1], by simpa using e2⟩

/-- Twelve mailboxes, up to ten at a time; the newest is closed. -/
def newBoxes : List Call := [.boxCreate, .boxCreate, .boxCreate, .condCreate, .boxCreate, .boxCreate, .boxCreate, .boxCreate, .boxCreate, .boxCreate,
  .boxCreate, .boxClose 10, .condCreate, .boxClose 9, .boxClose 8, .boxClose 9, .boxClose 7, .boxClose 6, .condClose 2, .boxClose 5,
  .boxCreate, .boxCreate, .boxClose 12, .boxClose 11, .boxClose 4]

example : ∃ w tr, HistT RB.Free (fun s c o => Legal s c o ∧ Newest s c) 1 9 0 0 w tr ∧ tr.length = 25 ∧ w.mail.tree.count = 3 ∧ 2 ∈ created tr ∧
    (∀ it ∈ tr, it.call ≠ .boxClose 2) ∧ Legal w.sys (.send 2 7) okO := by
  obtain ⟨r, e, h⟩ := histN_exec (main := 1) (idle := 9) (N := 0) (M := 0) (n := 100) (cs := newBoxes) (tr := []) (.init (by decide) (by decide))
    (by decide +kernel)
  have hc : (execT (initT 1 9 0 0) (okT 100 newBoxes)).map (fun r => (r.2.length, r.1.mail.tree.count, created r.2, r.2.map (·.call),
      legalB r.1.sys (.send 2 7))) = some (25, 3, [1, 2, 3, 4, 5, 6, 7, 8, 9, 10, 11, 12], newBoxes, true) := by decide +kernel
  rw [e] at hc
  simp only [Option.map_some, Option.some.injEq, Prod.mk.injEq] at hc
  obtain ⟨c1, c2, c3, c4, c5⟩ := hc
  refine ⟨r.1, r.2, by simpa using h, c1, c2, by rw [c3]; decide, fun it hit hb => ?_, legalB_ok c5⟩
  have := List.mem_map_of_mem (f := (·.call)) hit
  rw [c4, hb] at this
  revert this; decide

/-- Twelve mailboxes, up to ten at a time, closed in the order of their creation; some calls close nothing. -/
def oldBoxes : List Call := [.boxCreate, .boxCreate, .boxCreate, .condCreate, .boxCreate, .boxCreate, .boxCreate, .boxCreate, .boxCreate, .boxCreate,
  .boxCreate, .boxClose 1, .condCreate, .boxClose 2, .boxClose 3, .boxCreate, .boxClose 2, .boxClose 4, .boxClose 5, .condClose 1, .boxClose 6,
  .boxCreate, .boxClose 7, .boxClose 8]

example : ∃ w tr, HistT RB.Free (fun s c o => Legal s c o ∧ Oldest s c) 1 9 0 0 w tr ∧ tr.length = 24 ∧ w.mail.tree.count = 4 ∧ 12 ∈ created tr ∧
    (∀ it ∈ tr, it.call ≠ .boxClose 12) ∧ Legal w.sys (.send 12 7) okO := by
  obtain ⟨r, e, h⟩ := histO_exec (main := 1) (idle := 9) (N := 0) (M := 0) (n := 100) (cs := oldBoxes) (tr := []) (.init (by decide) (by decide))
    (by decide +kernel)
  have hc : (execT (initT 1 9 0 0) (okT 100 oldBoxes)).map (fun r => (r.2.length, r.1.mail.tree.count, created r.2, r.2.map (·.call),
      legalB r.1.sys (.send 12 7))) = some (24, 4, [1, 2, 3, 4, 5, 6, 7, 8, 9, 10, 11, 12], oldBoxes, true) := by decide +kernel
  rw [e] at hc
  simp only [Option.map_some, Option.some.injEq, Prod.mk.injEq] at hc
  obtain ⟨c1, c2, c3, c4, c5⟩ := hc
  refine ⟨r.1, r.2, by simpa using h, c1, c2, by rw [c3]; decide, fun it hit hb => ?_, legalB_ok c5⟩
  have := List.mem_map_of_mem (f := (·.call)) hit
  rw [c4, hb] at this
  revert this; decide

private def lostB (c : Call) (i : Item) : Bool :=
  match i.next with
  | .ret f c' e => f == 1 && c' == c && (result c e).1 == ERROR_RBTREE_NOT_FOUND
  | _ => false

private theorem lostB_iff {c : Call} {i : Item} (h : lostB c i = true) :
    ∃ e, i.next = .ret 1 c e ∧ (result c e).1 = ERROR_RBTREE_NOT_FOUND := by
  unfold lostB at h
  split at h
  · next f c' e hn =>
    simp only [Bool.and_eq_true, beq_iff_eq] at h
    obtain ⟨⟨rfl, rfl⟩, h⟩ := h
    exact ⟨e, hn, h⟩
  · cases h

/-- Seven mailboxes, at most five at a time; 1 and 7 stay open. -/
def fiveBoxes : List Call := [.boxCreate, .boxCreate, .boxCreate, .boxCreate, .boxClose 4, .boxClose 2, .boxCreate, .boxCreate, .boxCreate,
  .boxClose 3, .boxClose 6, .boxClose 5]

/-- C77 (violated): with up to five mailboxes, every call successful and every allocation too, a mailbox that was returned,
never closed and still exists is not found: sending to it fails. -/
theorem open_found_violated : ∃ w tr, HistT (RB.AtMost 5) Legal 1 9 0 0 w tr ∧ (∀ it ∈ tr, it.refused = false) ∧
    1 ∈ created tr ∧ (∀ it ∈ tr, it.call ≠ .boxClose 1) ∧ w.sys.boxes 1 ≠ none ∧ Legal w.sys (.send 1 7) okO ∧
    ∃ w' it e, stepT w (.send 1 7) (okX 100) = some (w', it) ∧ it.next = .ret 1 (.send 1 7) e ∧ (result (.send 1 7) e).1 = ERROR_RBTREE_NOT_FOUND := by
  obtain ⟨r, e, h⟩ := histT_from (m := 5) (main := 1) (idle := 9) (N := 0) (M := 0) (n := 10) (cs := fiveBoxes) (by decide) (by decide)
    (by decide +kernel)
  have hc : (execT (initT 1 9 0 0) (okT 10 fiveBoxes)).map (fun r => (created r.2, r.2.map (·.call), [r.2.all (fun i => !i.refused),
      (r.1.sys.boxes 1).isSome, legalB r.1.sys (.send 1 7)], (stepT r.1 (.send 1 7) (okX 100)).map fun q => lostB (.send 1 7) q.2)) =
      some ([1, 2, 3, 4, 5, 6, 7], fiveBoxes, [true, true, true], some true) := by decide +kernel
  rw [e] at hc
  simp only [Option.map_some, Option.some.injEq, Prod.mk.injEq, List.all_eq_true, Bool.not_eq_true', List.cons.injEq, and_true] at hc
  obtain ⟨c1, c2, ⟨c3, c4, c5⟩, c6⟩ := hc
  refine ⟨r.1, r.2, h, c3, by rw [c1]; decide, fun it hit hb => ?_, by rw [← Option.isSome_iff_ne_none]; exact c4, legalB_ok c5, ?_⟩
  · have := List.mem_map_of_mem (f := (·.call)) hit
    rw [c2, hb] at this
    revert this; decide
  · cases hs : stepT r.1 (.send 1 7) (okX 100) with
    | none => rw [hs] at c6; cases c6
    | some q =>
      rw [hs] at c6
      obtain ⟨e, d1, d2⟩ := lostB_iff (Option.some.inj c6)
      exact ⟨q.1, q.2, e, rfl, d1, d2⟩

def fiveConds : List Call := [.condCreate, .add 2, .run, .wait 1, .condCreate, .condCreate, .condCreate, .condClose 4, .condClose 2,
  .condCreate, .condCreate, .condCreate, .condClose 3, .condClose 6, .condClose 5]

/-- C77 (violated): the same with conditions. A fiber waits on the lost one; notifying it fails and the fiber stays asleep. -/
theorem waiter_found_violated : ∃ w tr, HistT (RB.AtMost 5) Legal 1 9 0 0 w tr ∧ (∀ it ∈ tr, it.refused = false) ∧
    (∀ it ∈ tr, it.call ≠ .condClose 1) ∧ w.sys.conds 1 = some [2] ∧
    ∀ c, c = .notifyOne 1 ∨ c = .notifyAll 1 → Legal w.sys c okO ∧
    ∃ w' it e, stepT w c (okX 100) = some (w', it) ∧ it.next = .ret 1 c e ∧ (result c e).1 = ERROR_RBTREE_NOT_FOUND ∧ 2 ∉ w'.sys.runq := by
  obtain ⟨r, e, h⟩ := histT_from (m := 5) (main := 1) (idle := 9) (N := 0) (M := 0) (n := 10) (cs := fiveConds) (by decide) (by decide)
    (by decide +kernel)
  have hc : (execT (initT 1 9 0 0) (okT 10 fiveConds)).map (fun r => (r.2.map (·.call), r.2.all (fun i => !i.refused), r.1.sys.conds 1)) =
      some (fiveConds, true, some [2]) := by decide +kernel
  have hc' : (execT (initT 1 9 0 0) (okT 10 fiveConds)).map (fun r => [Call.notifyOne 1, .notifyAll 1].map fun c => (legalB r.1.sys c,
      (stepT r.1 c (okX 100)).map fun q => (lostB c q.2, q.1.sys.runq))) =
      some [(true, some (true, [])), (true, some (true, []))] := by decide +kernel
  rw [e] at hc hc'
  simp only [Option.map_some, Option.some.injEq, Prod.mk.injEq, List.all_eq_true, Bool.not_eq_true'] at hc
  simp only [Option.map_some, Option.some.injEq, Prod.mk.injEq, List.map_cons, List.map_nil, List.cons.injEq, and_true] at hc'
  obtain ⟨c1, c2, c3⟩ := hc
  obtain ⟨⟨c4, c5⟩, ⟨c6, c7⟩⟩ := hc'
  refine ⟨r.1, r.2, h, c2, fun it hit hb => ?_, c3, fun c hcc => ?_⟩
  · have := List.mem_map_of_mem (f := (·.call)) hit
    rw [c1, hb] at this
    revert this; decide
  · have key : ∀ c : Call, (stepT r.1 c (okX 100)).map (fun q => (lostB c q.2, q.1.sys.runq)) = some (true, []) →
        ∃ w' it e, stepT r.1 c (okX 100) = some (w', it) ∧ it.next = .ret 1 c e ∧ (result c e).1 = ERROR_RBTREE_NOT_FOUND ∧ 2 ∉ w'.sys.runq := by
      intro c hk
      cases hs : stepT r.1 c (okX 100) with
      | none => rw [hs] at hk; cases hk
      | some q =>
        rw [hs] at hk
        simp only [Option.map_some, Option.some.injEq, Prod.mk.injEq] at hk
        obtain ⟨e, d1, d2⟩ := lostB_iff hk.1
        exact ⟨q.1, q.2, e, rfl, d1, d2, by rw [hk.2]; simp⟩
    rcases hcc with rfl | rfl
    · exact ⟨legalB_ok c4, key _ c5⟩
    · exact ⟨legalB_ok c6, key _ c7⟩

end Rcpr.MsgTree
