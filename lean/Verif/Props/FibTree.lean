import Verif.FibTreeProof
import Verif.Props.MsgTree
import Verif.Props.FiberReq

/-!
The fibers a scheduler owns, with the red-black tree they are kept in (C81). `Verif.Props.FiberReq` takes the tree to be
a sorted list from which nothing is removed. Missing from the theorems with the suffix `_partial`: uses of the tree
outside `Tame`, and what `Lawful` leaves out; for each of these there is an execution that violates the claim.
-/
namespace Rcpr.FibTree

open Rcpr Fiber
open Rcpr.MsgTree (Log Ans Use Tame tame_safe finish okX)

/-- Every call of `fiber_scheduler_add`, of `disciplined_fiber_scheduler_remove_fiber` and of the rest is defined, and the
tree counts the fibers that are owned. -/
theorem fibers_known_partial {P : Use} (hP : Tame P) {main idle N : Nat} {w : World} {tr : List Seen}
    (h : HistF P Lawful main idle N w tr) :
    (∃ l : List Nat, l.Pairwise (· < ·) ∧ (∀ f, f ∈ l ↔ Owned f tr) ∧ w.fibs.tree.count = l.length) ∧
      ∀ a x, Lawful w tr a x → Fresh w a x → Keeps P w a x → ∃ w' s, stepF w a x = some (w', s) := by
  obtain ⟨G, S⟩ := tame_safe hP
  obtain ⟨v, k⟩ := h.keep S
  refine ⟨⟨v.items, ascending S k.tree k.nodup, k.owned, S.count k.tree⟩, fun a x h1 h2 h3 => ?_⟩
  obtain ⟨w', s, -, e, -⟩ := step_ok S k h1 h2 h3
  exact ⟨w', s, e⟩

/-- Adding a fiber fails if there is no memory for its tree node or its place in the run queue, and else succeeds. -/
theorem add_owns_partial {P : Use} (hP : Tame P) {main idle N : Nat} {w : World} {tr : List Seen}
    (h : HistF P Lawful main idle N w tr) {f : Nat} {x : Ans} (hl : Lawful w tr (.call (.add f)) x) (hf : Fresh w (.call (.add f)) x)
    (hk : Keeps P w (.call (.add f)) x) :
    ∃ w' s, stepF w (.call (.add f)) x = some (w', s) ∧ (Owned f (tr ++ [s]) ↔ x.o.a 0 = SUCCESS ∧ x.o.q 0 = SUCCESS) ∧
      ∀ g, g ≠ f → (Owned g (tr ++ [s]) ↔ Owned g tr) := by
  obtain ⟨G, S⟩ := tame_safe hP
  obtain ⟨v, k⟩ := h.keep S
  have hn : f ∉ v.items := fun h => hl.2.1 ((k.owned f).1 h)
  obtain ⟨w1, st, v', e1, -, -, -, e5, e6, e7⟩ := addF_ok (y := w.sys.cur) S k.tree k.nodup hl.1 hn (hf f rfl) hk hl.2.2
  refine ⟨{ w1 with sys := (finish w.sys.cur (.add f) (w1.sys, st)).1 }, .call (finish w.sys.cur (.add f) (w1.sys, st)).2,
    by simp only [stepF, handlerF, e1, Option.map_some], ?_, fun g hg => ?_⟩
  · rw [owned_append, ← e7]
    constructor
    · rintro (⟨_, e, hc, hx⟩ | ⟨ho, -⟩)
      · cases e
        exact Classical.byContradiction fun hst => hx _ (finish_fail (r := (w1.sys, st)) hst)
      · exact absurd ho hl.2.1
    · rintro rfl
      exact .inl ⟨_, rfl, finish_item _ _ _, finish_go rfl (e6 rfl)⟩
  · rw [owned_append]
    have : ¬ Gains g (.call (finish w.sys.cur (.add f) (w1.sys, st)).2) :=
      not_gains_call (by rw [finish_item]; intro h; cases h; exact hg rfl)
    simp [this]

/-- When a fiber has been added, it is the last in the run queue. If a fiber waits for management events, it goes on at
once and is told which fiber was added, with the caller next in the run queue; else the caller goes on. After that no
fiber waits for management events: nothing is told twice. -/
theorem add_announced {w w' : World} {f : Nat} {x : Ans} {it : Item} (h : stepF w (.call (.add f)) x = some (w', .call it))
    (hn : ∀ st, it.next ≠ .fail st) :
    w'.sys.mgmt = 0 ∧
      (w.sys.mgmt ≠ 0 → w'.sys.cur = w.sys.mgmt ∧ w'.sys.ev w.sys.mgmt = ⟨.mgmt, MGMT_FIBER_ADD, f⟩ ∧
        w'.sys.runq = w.sys.cur :: (w.sys.runq ++ [f])) ∧
      (w.sys.mgmt = 0 → w'.sys.cur = w.sys.cur ∧ w'.sys.ev w.sys.cur = ⟨.internal, RESUME_ADD_FIBER, 0⟩ ∧
        w'.sys.runq = w.sys.runq ++ [f]) ∧
      (f ≠ w.sys.cur → f ≠ w.sys.mgmt → w'.sys.ev f = ⟨.internal, RESUME_ADD_FIBER, 0⟩) := by
  simp only [stepF, handlerF, addF, Option.map_eq_some_iff, Option.bind_eq_some_iff] at h
  obtain ⟨⟨w1, st⟩, ⟨⟨out, w2⟩, -, h1⟩, h2⟩ := h
  by_cases hst : st = SUCCESS
  · subst hst
    by_cases h0 : out.1 = SUCCESS
    · simp only [h0, ne_eq, not_true_eq_false, if_false] at h1
      by_cases h3 : x.o.q 0 = SUCCESS
      · by_cases h4 : x.o.q 1 = SUCCESS
        · by_cases hm : w.sys.mgmt = 0
          · simp [back, announce, front, setEv, h3, h4, hm] at h1
            subst h1
            simp only [finish, setCall, switch, setEv] at h2
            simp at h2
            obtain ⟨rfl, -⟩ := h2
            simp +contextual [hm]
          · by_cases h5 : x.o.q 2 = SUCCESS
            · simp [back, announce, front, setEv, h3, h4, h5, hm] at h1
              subst h1
              simp only [finish, setCall, switch, setEv] at h2
              by_cases hc : w.sys.mgmt = w.sys.cur
              · simp [hc] at h2
                obtain ⟨rfl, -⟩ := h2
                have hm' : w.sys.cur ≠ 0 := hc ▸ hm
                simp +contextual [hm', hc]
              · cases hcc : w.sys.call w.sys.mgmt <;> simp [hc, hcc] at h2 <;> obtain ⟨rfl, -⟩ := h2 <;>
                  simp +contextual [hm, hc]
            · simp [back, announce, front, setEv, h3, h4, h5, hm] at h1
        · simp [back, announce, front, setEv, h3, h4] at h1
      · exfalso
        have hb : (back w.sys f ⟨.internal, RESUME_ADD_FIBER, 0⟩ (x.o.q 0)).2 = x.o.q 0 := by simp [back, h3]
        rw [hb, if_pos h3] at h1
        obtain ⟨d, -, h1⟩ := Option.map_eq_some_iff.1 h1
        have h5 := (Prod.mk.inj h1).2
        split at h5
        · next h => exact h h5
        · exact h3 h5
    · simp [h0] at h1
  · simp only [finish, ne_eq, hst, not_false_eq_true, if_true, Prod.mk.injEq, Seen.call.injEq] at h2
    obtain ⟨-, rfl⟩ := h2
    exact absurd rfl (hn st)

/-- A fiber is removed if it is owned, else this is an error. Nothing else happens. -/
theorem remove_owned_partial {P : Use} (hP : Tame P) {main idle N : Nat} {w : World} {tr : List Seen}
    (h : HistF P Lawful main idle N w tr) {f : Nat} {x : Ans} (hl : Lawful w tr (.remove f) x) (hk : Keeps P w (.remove f) x) :
    ∃ w' st, stepF w (.remove f) x = some (w', .remove f st) ∧ w'.sys = w.sys ∧ (Owned f tr → st = SUCCESS) ∧
      (¬ Owned f tr → st = ERROR_RBTREE_NOT_FOUND) ∧ ¬ Owned f (tr ++ [.remove f st]) ∧
      ∀ g, g ≠ f → (Owned g (tr ++ [.remove f st]) ↔ Owned g tr) := by
  obtain ⟨G, S⟩ := tame_safe hP
  obtain ⟨v, k⟩ := h.keep S
  obtain ⟨out, w1, e1, e2, e3, -⟩ := ask_take S (env := x.env) k.tree k.nodup hk
  refine ⟨w1, out.1, by simp only [stepF, e1, Option.map_some], e2, fun ho => ?_, fun hn => ?_, fun ho => ?_, fun g hg => ?_⟩
  · rcases e3 with ⟨-, a, rfl⟩ | ⟨h1, -⟩
    · exact hl a
    · exact absurd ((k.owned f).2 ho) h1
  · rcases e3 with ⟨h1, -⟩ | ⟨-, rfl⟩
    · exact absurd ((k.owned f).1 h1) hn
    · rfl
  · rw [owned_append] at ho
    rcases ho with ho | ⟨h1, h2⟩
    · exact not_gains_remove ho
    · rcases e3 with ⟨-, a, rfl⟩ | ⟨h3, -⟩
      · exact h2 (by rw [hl a])
      · exact h3 ((k.owned f).2 h1)
  · rw [owned_append]
    simp [not_gains_remove, Ne.symm hg]

/-- A request to all puts every fiber that is owned and alive, other than the caller and the one that waits for
management events, into the run queue once with the request, in the order of their addresses; then the caller with a
success result. No other fiber is affected. -/
theorem request_reaches_owned_partial {P : Use} (hP : Tame P) {main idle N : Nat} {w : World} {tr : List Seen}
    (h : HistF P Lawful main idle N w tr) {c : Call} {code : Nat} (hc : RequestsAll c code) {x : Ans} (ho : ∀ k, x.o.q k = SUCCESS) :
    ∃ w' it l, stepF w (.call c) x = some (w', .call it) ∧ l.Pairwise (· < ·) ∧
      (∀ g, g ∈ l ↔ Owned g tr ∧ alive main g (items tr) ∧ g ≠ w.sys.cur ∧ g ≠ w.sys.mgmt) ∧
      w'.sys.cur :: w'.sys.runq = w.sys.runq ++ l ++ [w.sys.cur] ∧
      (∀ g ∈ l, w'.sys.ev g = ⟨.mgmt, code, 0⟩) ∧ result c (w'.sys.ev w.sys.cur) = (SUCCESS, none) ∧
      ∀ g, g ∉ l → g ≠ w.sys.cur → w'.sys.ev g = w.sys.ev g := by
  obtain ⟨G, S⟩ := tame_safe hP
  obtain ⟨v, k⟩ := h.keep S
  obtain ⟨n, hl⟩ := requestLoop_ok (code := code) (y := w.sys.cur) ho v.items 0 w.sys
  have hh : handlerF w c x =
      some ({ w with sys := (bk (rqs code w.sys (targets w.sys w.sys.cur v.items)) w.sys.cur ⟨.mgmt, MGMT_REQUEST_RESULT, SUCCESS.toNat⟩) }, SUCCESS) := by
    rcases hc with ⟨rfl, rfl⟩ | ⟨rfl, rfl⟩ <;>
      simp only [handlerF, all_walk S k.tree, allOf, hl, back_ok (ho n)] <;> rw [if_neg (by simp)]
  have mem : ∀ g, g ∈ targets w.sys w.sys.cur v.items ↔ g ∈ v.items ∧ w.sys.cur ≠ g ∧ w.sys.mgmt ≠ g ∧ w.sys.state g = .running := by
    intro g; simp [targets]
  obtain ⟨r1, r2, r3, r4, r5, r6, r7⟩ := rqs_fields code (targets w.sys w.sys.cur v.items) w.sys
  have hq : (bk (rqs code w.sys (targets w.sys w.sys.cur v.items)) w.sys.cur ⟨.mgmt, MGMT_REQUEST_RESULT, SUCCESS.toNat⟩).runq
      = w.sys.runq ++ targets w.sys w.sys.cur v.items ++ [w.sys.cur] := by simp [bk, r1]
  obtain ⟨y, q, hx⟩ : ∃ y q, w.sys.runq ++ targets w.sys w.sys.cur v.items ++ [w.sys.cur] = y :: q := by
    cases hh : w.sys.runq ++ targets w.sys w.sys.cur v.items with
    | nil => exact ⟨_, _, rfl⟩
    | cons y q => exact ⟨_, _, rfl⟩
  generalize hb : bk (rqs code w.sys (targets w.sys w.sys.cur v.items)) w.sys.cur ⟨.mgmt, MGMT_REQUEST_RESULT, SUCCESS.toNat⟩ = b at hh hq
  have hfin : (finish w.sys.cur c (b, SUCCESS)).1.cur = y ∧ (finish w.sys.cur c (b, SUCCESS)).1.runq = q ∧
      ∀ g, (finish w.sys.cur c (b, SUCCESS)).1.ev g = b.ev g := by
    simp only [finish, hq.trans hx, ne_eq, not_true_eq_false, if_false]
    unfold switch
    split
    · refine ⟨rfl, rfl, fun g => ?_⟩
      simp only [setEv, setCall]; split
      · next e => rw [e]
      · rfl
    · refine ⟨rfl, rfl, fun g => ?_⟩
      simp only [setEv, setCall]; split
      · next e => rw [e]
      · rfl
  obtain ⟨p1, p2, hev⟩ := hfin
  refine ⟨{ w with sys := (finish w.sys.cur c (b, SUCCESS)).1 }, (finish w.sys.cur c (b, SUCCESS)).2, targets w.sys w.sys.cur v.items,
    by simp only [stepF, hh, Option.map_some], (ascending S k.tree k.nodup).sublist List.filter_sublist, fun g => ?_, ?_, fun g hg => ?_, ?_,
    fun g hg hgc => ?_⟩
  · rw [mem, k.owned, k.running]
    exact ⟨fun ⟨h1, h2, h3, h4⟩ => ⟨h1, h4, Ne.symm h2, Ne.symm h3⟩, fun ⟨h1, h2, h3, h4⟩ => ⟨h1, Ne.symm h3, Ne.symm h4, h2⟩⟩
  · show _ :: _ = _
    rw [p1, p2, hx]
  · show (finish w.sys.cur c (b, SUCCESS)).1.ev g = _
    have : g ≠ w.sys.cur := Ne.symm ((mem g).1 hg).2.1
    rw [hev, ← hb]; simp [bk, setEv, this, r2, hg]
  · show result c ((finish w.sys.cur c (b, SUCCESS)).1.ev _) = _
    rw [hev, ← hb]
    rcases hc with ⟨rfl, rfl⟩ | ⟨rfl, rfl⟩ <;> simp [bk, setEv, result, MGMT_REQUEST_RESULT, statusOf, SUCCESS]
  · show (finish w.sys.cur c (b, SUCCESS)).1.ev g = _
    rw [hev, ← hb]; simp [bk, setEv, hgc, r2, hg]

/-! ### Executions -/

private def ownsB (f : Nat) (b : Bool) : Seen → Bool
  | .call it => b || (it.call == .add f && match it.next with | .fail _ => false | _ => true)
  | .remove g st => b && !(g == f && st == SUCCESS)

/-- `Owned`, computed -/
def ownedB (f : Nat) (tr : List Seen) : Bool := tr.foldl (ownsB f) false

theorem ownedB_iff {f : Nat} (tr : List Seen) : ownedB f tr = true ↔ Owned f tr := by
  generalize hn : tr.length = n
  induction n generalizing tr with
  | zero =>
    obtain rfl := List.length_eq_zero_iff.1 hn
    simp only [ownedB, List.foldl_nil, Bool.false_eq_true, false_iff]
    rintro ⟨A, s, B, e, -⟩
    simp at e
  | succ n ih =>
    rcases List.eq_nil_or_concat tr with rfl | ⟨tr', s, rfl⟩
    · simp at hn
    · rw [List.concat_eq_append] at hn ⊢
      have ih := ih tr' (by simpa using hn)
      rw [owned_append, ← ih]
      have : ownedB f (tr' ++ [s]) = ownsB f (ownedB f tr') s := by simp [ownedB, List.foldl_append]
      rw [this]
      cases s with
      | remove g st =>
        simp only [ownsB, not_gains_remove, false_or, Bool.and_eq_true, Bool.not_eq_true', ne_eq, Seen.remove.injEq]
        refine and_congr_right fun _ => ?_
        rw [← Bool.not_eq_true, Bool.and_eq_true, beq_iff_eq, beq_iff_eq]
      | call it =>
        have hg : Gains f (.call it) ↔ (it.call == .add f && match it.next with | .fail _ => false | _ => true) = true := by
          constructor
          · rintro ⟨_, e, h1, h2⟩
            cases e
            rw [h1]
            cases hx : it.next with
            | fail st => exact absurd hx (h2 st)
            | ret => simp
            | start => simp
          · intro h
            rw [Bool.and_eq_true, beq_iff_eq] at h
            refine ⟨it, rfl, h.1, fun st hx => ?_⟩
            rw [hx] at h
            simp at h
        rw [hg]
        simp only [ownsB, Bool.or_eq_true, ne_eq, reduceCtorEq, not_false_eq_true, and_true]
        exact or_comm

theorem not_owned {f : Nat} {tr : List Seen} (h : ownedB f tr = false) : ¬ Owned f tr := fun ho => by
  rw [(ownedB_iff tr).2 ho] at h; cases h

private def fewB (m : Nat) (w : World) : Act → Bool
  | .call (.add _) => w.fibs.tree.count < m
  | _ => true

private def lawfulB (tr : List Seen) : Act → Bool
  | .call (.add f) => f != 0 && !ownedB f tr
  | _ => true

/-- acts with new nodes at `n`, `n + 1`, … -/
def okF : Nat → List Act → List (Act × Ans)
  | _, [] => []
  | n, a :: as => (a, okX n) :: okF (n + 1) as

private def goodsB (m : Nat) : World → List Seen → Nat → List Act → Bool
  | _, _, _, [] => true
  | w, tr, n, a :: as => lawfulB tr a && fewB m w a && (w.fibs.heap n).isNone && match stepF w a (okX n) with
    | none => false
    | some r => goodsB m r.1 (tr ++ [r.2]) (n + 1) as

private theorem keepsB {m : Nat} {w : World} {a : Act} {x : Ans} (h : fewB m w a = true) : Keeps (RB.AtMost m) w a x := by
  cases a with
  | remove f => intro u b h; cases h
  | call c =>
    cases c
    case add f =>
      refine ⟨fun {u b} _ => by simpa [fewB] using h, fun r _ _ _ u b h => by cases h⟩
    all_goals trivial

private theorem histF_exec {m main idle N : Nat} : ∀ {as : List Act} {n : Nat} {w : World} {tr : List Seen},
    HistF (RB.AtMost m) Lawful main idle N w tr → goodsB m w tr n as = true →
    ∃ r, execF w (okF n as) = some r ∧ HistF (RB.AtMost m) Lawful main idle N r.1 (tr ++ r.2)
  | [], n, w, tr, h, _ => ⟨(w, []), rfl, by simpa using h⟩
  | a :: as, n, w, tr, h, hg => by
    simp only [goodsB, Bool.and_eq_true] at hg
    obtain ⟨⟨⟨h1, h2⟩, h3⟩, hr⟩ := hg
    cases hs : stepF w a (okX n) with
    | none => simp [hs] at hr
    | some r =>
      simp only [hs] at hr
      obtain ⟨w', s⟩ := r
      have hl : Lawful w tr a (okX n) := by
        cases a with
        | remove f => exact fun _ => rfl
        | call c =>
          cases c
          case add f =>
            simp only [lawfulB, Bool.and_eq_true, bne_iff_ne, Bool.not_eq_true'] at h1
            exact ⟨h1.1, not_owned h1.2, fun _ => ⟨rfl, rfl⟩⟩
          all_goals trivial
      obtain ⟨q, e1, e2⟩ := histF_exec (.step a (okX n) h hl (fun _ _ _ => Option.isNone_iff_eq_none.1 h3) (keepsB h2) hs) hr
      exact ⟨(q.1, s :: q.2), by simp [execF, okF, hs, e1], by simpa using e2⟩

private theorem histF_from {m main idle N n : Nat} {as : List Act} (h0 : main ≠ 0) (hi : main ≠ idle)
    (h : goodsB m (initF main idle N) [] n as = true) :
    ∃ r, execF (initF main idle N) (okF n as) = some r ∧ HistF (RB.AtMost m) Lawful main idle N r.1 r.2 := by
  simpa using histF_exec (tr := []) (.init h0 hi) h

/-- Fiber `f` is added and comes to its end, while fiber 11 and the main fiber take turns. -/
def brief (f : Nat) : List Act := [.call (.add f), .call .run, .call .run, .call .stop]

/-- Four fibers at most at a time. -/
def fourFibers : List Act := [.call (.add 11), .call .run, .call .run] ++ brief 12 ++ brief 13 ++
  [.remove 13, .call (.add 10), .call .run, .call .run, .call .run, .remove 12, .call .mgmtReceive, .call .run]

/-- After that, fiber 10 adds fiber 12 while fiber 1 waits for management events. -/
example : ((execF (initF 1 9 0) (okF 100 fourFibers)).bind fun r => (stepF r.1 (.call (.add 12)) (okX 500)).map fun q =>
      (r.1.sys.mgmt, q.2, q.1.sys.cur, q.1.sys.mgmt, q.1.sys.runq.take 1)) =
    some (1, .call ⟨10, .add 12, .ret 1 .mgmtReceive ⟨.mgmt, MGMT_FIBER_ADD, 12⟩⟩, 1, 0, [10]) := by
  decide +kernel

example : ∃ w tr, HistF (RB.AtMost 4) Lawful 1 9 0 w tr ∧ Owned 10 tr ∧ Owned 11 tr ∧ ¬ Owned 12 tr ∧ ¬ Owned 13 tr ∧
    alive 1 10 (items tr) ∧ alive 1 11 (items tr) ∧ w.sys.cur = 10 ∧ w.sys.mgmt = 1 ∧
    ∀ a, a = .call (.add 12) ∨ a = .remove 11 ∨ a = .remove 12 →
      Lawful w tr a (okX 500) ∧ Fresh w a (okX 500) ∧ Keeps (RB.AtMost 4) w a (okX 500) := by
  obtain ⟨r, e, h⟩ := histF_from (m := 4) (main := 1) (idle := 9) (N := 0) (n := 100) (as := fourFibers) (by decide) (by decide)
    (by decide +kernel)
  have hc : (execF (initF 1 9 0) (okF 100 fourFibers)).map (fun r => ([ownedB 10 r.2, ownedB 11 r.2, ownedB 12 r.2, ownedB 13 r.2],
      [r.1.sys.cur, r.1.sys.mgmt, r.1.fibs.tree.count], [r.1.sys.state 10, r.1.sys.state 11], (r.1.fibs.heap 500).isNone)) =
      some ([true, true, false, false], [10, 1, 2], [.running, .running], true) := by
    decide +kernel
  rw [e] at hc
  simp only [Option.map_some, Option.some.injEq, Prod.mk.injEq, List.cons.injEq, and_true] at hc
  obtain ⟨⟨c1, c2, c3, c4⟩, ⟨c5, c6, c9⟩, ⟨c7, c8⟩, c10⟩ := hc
  obtain ⟨G, S⟩ := tame_safe (.inr (.inr (.inl rfl)))
  obtain ⟨v, k⟩ := h.keep S
  refine ⟨r.1, r.2, h, (ownedB_iff _).1 c1, (ownedB_iff _).1 c2, not_owned c3, not_owned c4, (k.running _).1 c7, (k.running _).1 c8, c5, c6,
    fun a ha => ⟨?_, fun _ _ _ => Option.isNone_iff_eq_none.1 c10, keepsB ?_⟩⟩
  · rcases ha with rfl | rfl | rfl
    · exact ⟨by decide, not_owned c3, fun _ => ⟨rfl, rfl⟩⟩
    · exact fun _ => rfl
    · exact fun _ => rfl
  · rcases ha with rfl | rfl | rfl
    · simp [fewB, c9]
    · rfl
    · rfl

private def aliveB (f : Nat) (tr : List Item) : Bool :=
  tr.any (fun it => match it.next with | .start g _ => g == f | _ => false) && tr.all fun it => !(it.who == f && it.call == .stop)

private theorem aliveB_ok {main f : Nat} {tr : List Item} (h : aliveB f tr = true) : alive main f tr := by
  simp only [aliveB, Bool.and_eq_true, List.any_eq_true, List.all_eq_true, Bool.not_eq_true'] at h
  obtain ⟨⟨it, h1, h2⟩, h3⟩ := h
  refine ⟨.inr ⟨it, h1, ?_⟩, ?_⟩
  · cases hn : it.next with
    | start g e => rw [hn] at h2; exact ⟨e, by rw [beq_iff_eq.1 h2]⟩
    | ret => rw [hn] at h2; cases h2
    | fail => rw [hn] at h2; cases h2
  · rintro ⟨i, hi, hw, hc⟩
    have := h3 i hi
    rw [hw, hc] at this
    simp at this

/-- Seven fibers, at most five at a time; 11 and 17 stay. -/
def fiveFibers : List Act := [.call (.add 11), .call .run, .call .run] ++ brief 12 ++ brief 13 ++ brief 14 ++ [.remove 14, .remove 12] ++
  brief 15 ++ brief 16 ++ [.call (.add 17), .call .run, .call .run, .call .run, .remove 13, .remove 16, .remove 15]

/-- C81 (violated): with up to five fibers, everything successful, two fibers that are owned, alive and not waiting for management events
are not reached by a request to all, which succeeds; and they cannot be removed. -/
theorem request_reaches_owned_violated : ∃ w tr, HistF (RB.AtMost 5) Lawful 1 9 0 w tr ∧ w.sys.cur = 1 ∧ w.sys.mgmt = 0 ∧ w.sys.runq = [11, 17] ∧
    ∀ f, f = 11 ∨ f = 17 → Owned f tr ∧ alive 1 f (items tr) ∧
      (∀ c code, RequestsAll c code → ∃ w' s, stepF w (.call c) (okX 500) = some (w', s) ∧ w'.sys.cur :: w'.sys.runq = [11, 17, 1] ∧
        w'.sys.ev f = w.sys.ev f) ∧
      ∃ w', stepF w (.remove f) (okX 500) = some (w', .remove f ERROR_RBTREE_NOT_FOUND) := by
  obtain ⟨r, e, h⟩ := histF_from (m := 5) (main := 1) (idle := 9) (N := 0) (n := 100) (as := fiveFibers) (by decide) (by decide)
    (by decide +kernel)
  have hc : (execF (initF 1 9 0) (okF 100 fiveFibers)).map (fun r => (r.1.sys.cur, r.1.sys.mgmt, r.1.sys.runq,
      [11, 17].all fun f => ownedB f r.2 && aliveB f (items r.2) &&
        [Call.quiesceAll, .terminateAll].all (fun c => match stepF r.1 (.call c) (okX 500) with
          | none => false
          | some q => (q.1.sys.cur :: q.1.sys.runq) == [11, 17, 1] && q.1.sys.ev f == r.1.sys.ev f) &&
        (match stepF r.1 (.remove f) (okX 500) with
          | none => false
          | some q => q.2 == .remove f ERROR_RBTREE_NOT_FOUND))) = some (1, 0, [11, 17], true) := by decide +kernel
  rw [e] at hc
  simp only [Option.map_some, Option.some.injEq, Prod.mk.injEq, List.all_eq_true, Bool.and_eq_true] at hc
  obtain ⟨c1, c2, c3, c4⟩ := hc
  refine ⟨r.1, r.2, h, c1, c2, c3, fun f hf => ?_⟩
  obtain ⟨⟨⟨d1, d2⟩, d3⟩, d4⟩ := c4 f (by simpa using hf)
  refine ⟨(ownedB_iff _).1 d1, aliveB_ok d2, fun c code hc => ?_, ?_⟩
  · have d3 := d3 c (by rcases hc with ⟨rfl, -⟩ | ⟨rfl, -⟩ <;> simp)
    cases hs : stepF r.1 (.call c) (okX 500) with
    | none => rw [hs] at d3; cases d3
    | some q =>
      rw [hs] at d3
      simp only [Bool.and_eq_true, beq_iff_eq] at d3
      exact ⟨q.1, q.2, rfl, d3.1, d3.2⟩
  · cases hs : stepF r.1 (.remove f) (okX 500) with
    | none => rw [hs] at d4; cases d4
    | some q => rw [hs] at d4; exact ⟨q.1, by rw [← beq_iff_eq.1 d4]⟩

/-! Outside `Lawful` -/

/-- Any act at all. -/
def anyAct (_ : World) (_ : List Seen) (_ : Act) (_ : Ans) : Prop := True

private def goesB (m : Nat) : World → List (Act × Ans) → Bool
  | _, [] => true
  | w, (a, x) :: as => fewB m w a && (w.fibs.heap x.node).isNone && match stepF w a x with
    | none => false
    | some r => goesB m r.1 as

private theorem histF_any {m main idle N : Nat} : ∀ {as : List (Act × Ans)} {w : World} {tr : List Seen},
    HistF (RB.AtMost m) anyAct main idle N w tr → goesB m w as = true →
    ∃ r, execF w as = some r ∧ HistF (RB.AtMost m) anyAct main idle N r.1 (tr ++ r.2)
  | [], w, tr, h, _ => ⟨(w, []), rfl, by simpa using h⟩
  | (a, x) :: as, w, tr, h, hg => by
    simp only [goesB, Bool.and_eq_true] at hg
    obtain ⟨⟨h2, h3⟩, hr⟩ := hg
    cases hs : stepF w a x with
    | none => simp [hs] at hr
    | some r =>
      simp only [hs] at hr
      obtain ⟨q, e1, e2⟩ := histF_any (.step a x h trivial (fun _ _ _ => Option.isNone_iff_eq_none.1 h3) (keepsB h2) hs) hr
      exact ⟨(q.1, r.2 :: q.2), by simp [execF, hs, e1], by simpa using e2⟩

/-- the answers are good, but reclaiming a tree node fails -/
def leakX (node : Nat) : Ans := ⟨okO, node, ⟨fun _ => SUCCESS, fun _ => ERROR_GENERAL_OUT_OF_MEMORY⟩⟩

/-- there is no memory for the second node of the run queue -/
def lateX (node : Nat) : Ans := ⟨⟨fun k => if k = 1 then ERROR_GENERAL_OUT_OF_MEMORY else SUCCESS, fun _ => SUCCESS⟩, node, ⟨fun _ => SUCCESS, fun _ => SUCCESS⟩⟩

/-- C81 (violated): removing a fiber fails, and yet the scheduler does not have it any more. -/
theorem failed_remove_forgets_violated : ∃ w tr, HistF (RB.AtMost 4) anyAct 1 9 0 w tr ∧
    Seen.remove 11 ERROR_GENERAL_OUT_OF_MEMORY ∈ tr ∧ Owned 11 tr ∧ w.fibs.tree.count = 0 ∧
    ∃ w', stepF w (.remove 11) (okX 500) = some (w', .remove 11 ERROR_RBTREE_NOT_FOUND) := by
  obtain ⟨r, e, h⟩ := histF_any (m := 4) (as := [(.call (.add 11), okX 100), (.remove 11, leakX 101)]) (.init (main := 1) (idle := 9) (N := 0)
    (by decide) (by decide)) (by decide +kernel)
  have hc : (execF (initF 1 9 0) [(.call (.add 11), okX 100), (.remove 11, leakX 101)]).map (fun r =>
      (r.2.any (· == .remove 11 ERROR_GENERAL_OUT_OF_MEMORY), ownedB 11 r.2, r.1.fibs.tree.count, (stepF r.1 (.remove 11) (okX 500)).map (·.2))) =
      some (true, true, 0, some (.remove 11 ERROR_RBTREE_NOT_FOUND)) := by decide +kernel
  rw [e] at hc
  simp only [Option.map_some, Option.some.injEq, Prod.mk.injEq, List.any_beq', List.contains_iff_mem] at hc
  obtain ⟨c1, c2, c3, c4⟩ := hc
  obtain ⟨q, d1, d2⟩ := Option.map_eq_some_iff.1 c4
  exact ⟨r.1, r.2, by simpa using h, by simpa using c1, (ownedB_iff _).1 c2, c3, q.1, by rw [d1, ← d2]⟩

/-- C81 (violated): adding a fiber fails, so the caller keeps it; the scheduler has it nevertheless, will run it, and hands it
out again. -/
theorem failed_add_keeps_violated : ∃ w tr, HistF (RB.AtMost 4) anyAct 1 9 0 w tr ∧
    tr = [.call ⟨1, .add 11, .fail ERROR_GENERAL_OUT_OF_MEMORY⟩] ∧ ¬ Owned 11 tr ∧ w.sys.runq = [11] ∧
    ∃ w', stepF w (.remove 11) (okX 500) = some (w', .remove 11 SUCCESS) := by
  obtain ⟨r, e, h⟩ := histF_any (m := 4) (as := [(.call (.add 11), lateX 100)]) (.init (main := 1) (idle := 9) (N := 0)
    (by decide) (by decide)) (by decide +kernel)
  have hc : (execF (initF 1 9 0) [(.call (.add 11), lateX 100)]).map (fun r =>
      (r.2, ownedB 11 r.2, r.1.sys.runq, (stepF r.1 (.remove 11) (okX 500)).map (·.2))) =
      some ([.call ⟨1, .add 11, .fail ERROR_GENERAL_OUT_OF_MEMORY⟩], false, [11], some (.remove 11 SUCCESS)) := by decide +kernel
  rw [e] at hc
  simp only [Option.map_some, Option.some.injEq, Prod.mk.injEq] at hc
  obtain ⟨c1, c2, c3, c4⟩ := hc
  obtain ⟨q, d1, d2⟩ := Option.map_eq_some_iff.1 c4
  exact ⟨r.1, r.2, by simpa using h, c1, not_owned c2, c3, q.1, by rw [d1, ← d2]⟩

end Rcpr.FibTree
