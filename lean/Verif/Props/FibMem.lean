import Verif.FibMemHist

/-! C87, C88: the scheduler, the mailboxes and the conditions over queues in memory. -/
namespace Rcpr.FibMem

open Rcpr Fiber
open Rcpr.SList (Addr okEnv Unused)

variable {main idle : Nat} {q l : Addr} {cs : List (Call × Ans)}

/-- C87: over queues in memory no call touches memory that is not allocated and every loop ends, whatever is called and
whatever the allocator refuses, and the fibers see what they see over lists. -/
theorem queues_in_memory (hm : main ≠ 0) (hl : l ≠ 0) (hc : ∀ p ∈ cs, p.2.Fair ∧ Args p.1) :
    ∃ w tr, execQ (initQ main idle q l) cs = some (w, tr) ∧
      (exec (init main idle) (oracles (initQ main idle q l) cs)).2 = tr ∧
      (oracles (initQ main idle q l) cs).map Prod.fst = cs.map Prod.fst ∧
      ∀ p ∈ oracles (initQ main idle q l) cs, ∀ k, p.2.q k = SUCCESS ∨ p.2.q k = ERROR_GENERAL_OUT_OF_MEMORY := by
  obtain ⟨w, R, B, K, tr, h1, h2, _, _, h5, h6⟩ := exec_sim cs _ _ _ _ (init_rel (idle := idle) (q := q) hm hl) hc
  refine ⟨w, tr, h1, ?_, h5, h6⟩
  have h2' : exec (init main idle) (oracles (initQ main idle q l) cs) = _ := h2
  rw [h2']

/-- C87: a fiber is refused a place in the run queue only if the allocator has no node for it. -/
theorem refused_without_node {w : World} {tr : List Item} (hm : main ≠ 0) (hl : l ≠ 0) (hc : ∀ p ∈ cs, p.2.Fair ∧ Args p.1)
    (he : execQ (initQ main idle q l) cs = some (w, tr)) {x : Ans} (hx : x.Fair) {f : Nat} (hf : f ≠ 0) (e : Ev) :
    (∃ w' st, backQ w f e x = some (w', st) ∧ (st = SUCCESS ↔ x.q w.log.length w.mem ≠ none)) ∧
    ∃ w' st, frontQ w f e x = some (w', st) ∧ (st = SUCCESS ↔ x.q w.log.length w.mem ≠ none) := by
  obtain ⟨w1, R, B, K, tr1, h1, _, h, _⟩ := exec_sim cs _ _ _ _ (init_rel (idle := idle) (q := q) hm hl) hc
  rw [h1] at he
  cases he
  constructor
  · rcases h.mir.qappend (o := .run) (q := w.runq) (cs := R) rfl rfl hf (hx.q w.log.length w.mem) with ⟨h0, e1⟩ | ⟨m', h0, e1, _⟩
    · exact ⟨_, _, by unfold backQ; rw [e1]; rfl, fun h => absurd h (show ERROR_GENERAL_OUT_OF_MEMORY ≠ SUCCESS by decide), fun h => absurd h0 h⟩
    · exact ⟨_, _, by unfold backQ; rw [e1]; rfl, fun _ => h0, fun _ => rfl⟩
  · rcases h.mir.qinsert (o := .run) (q := w.runq) (cs := R) rfl rfl hf (hx.q w.log.length w.mem) with ⟨h0, e1⟩ | ⟨m', h0, e1, _⟩
    · exact ⟨_, _, by unfold frontQ; rw [e1]; rfl, fun h => absurd h (show ERROR_GENERAL_OUT_OF_MEMORY ≠ SUCCESS by decide), fun h => absurd h0 h⟩
    · exact ⟨_, _, by unfold frontQ; rw [e1]; rfl, fun _ => h0, fun _ => rfl⟩

/-- C87: after every history the release of the scheduler succeeds and leaves no node, list or queue allocated; what it
releases besides comes after what was released before. -/
theorem teardown_leaves_nothing {w : World} {tr : List Item} (hm : main ≠ 0) (hl : l ≠ 0) (hc : ∀ p ∈ cs, p.2.Fair ∧ Args p.1)
    (he : execQ (initQ main idle q l) cs = some (w, tr)) {as hs : List Nat} (ha : as.Nodup) (hh : hs.Nodup)
    (ha' : ∀ a, a ∈ as ↔ w.boxes a ≠ none) (hh' : ∀ a, a ∈ hs ↔ w.conds a ≠ none) (x : Ans) :
    ∃ m, teardownQ w as hs x = some (SUCCESS, m) ∧ (∀ a, m.sl.nodes a = none) ∧ (∀ a, m.sl.lists a = none) ∧ (∀ a, m.queues a = none) ∧
      w.mem.sl.released <+: m.sl.released := by
  obtain ⟨w1, R, B, K, tr1, h1, _, h, _⟩ := exec_sim cs _ _ _ _ (init_rel (idle := idle) (q := q) hm hl) hc
  rw [h1] at he
  cases he
  obtain ⟨m, e1, e2, e3, e4, e5⟩ := teardown_sim (x := x) h ha hh ha' hh'
  exact ⟨m, e1, e3, e4, e5, e2 ▸ List.prefix_append _ _⟩

theorem init_even : Even (init main idle) [] := fun m n _ => by
  have : ∀ n, total (inBox (init main idle).boxes m) n = 0 := fun n => by
    rw [show inBox (init main idle).boxes m = fun _ => 0 from rfl, total_zero]
  simp [dropped, this]

theorem tame_hist {w : World} {tr : List Item} (hl : l ≠ 0) (hc : ∀ p ∈ cs, p.2.Fair ∧ Args p.1)
    (ht : Tame main idle cs tr) (hg : Granted (initQ main idle q l) cs) (he : execQ (initQ main idle q l) cs = some (w, tr)) :
    ∃ R B K, Rel w R B K ∧ Hist main idle (over w.fib R B K) tr ∧ w.mem.sl.released = dropped [] tr ∧ Even (over w.fib R B K) tr := by
  have h0 : (initQ main idle q l).mem.sl.released = [] := by
    simp [initQ, Queue.create, SList.create, SList.Mem.empty, Queue.Mem.empty]
  have := exec_hist ht.idle0 cs _ _ _ _ [] (init_rel (idle := idle) (q := q) ht.main0 hl) (Hist.init ht.main0 ht.ne) h0 init_even hc hg
    ht.request ht.once (fun f hf => ⟨(ht.new f hf).1, (ht.new f hf).2, fun i hi => by cases hi⟩) w tr he ht.idles
  simpa using this

/-- C88 (what holds): closing a mailbox releases the messages that were sent to it and not received, in order and once, and
nothing else releases anything. -/
theorem close_releases_unread_partial {w : World} {tr : List Item} (hl : l ≠ 0) (hc : ∀ p ∈ cs, p.2.Fair ∧ Args p.1)
    (ht : Tame main idle cs tr) (hg : Granted (initQ main idle q l) cs) (he : execQ (initQ main idle q l) cs = some (w, tr)) :
    w.mem.sl.released = dropped [] tr := by
  obtain ⟨R, B, K, _, _, h, _⟩ := tame_hist hl hc ht hg he
  exact h

/-- C88 (what holds): the release of the scheduler releases the unread messages of the open mailboxes. -/
theorem teardown_releases_unread_partial {w : World} {tr : List Item} (hl : l ≠ 0) (hc : ∀ p ∈ cs, p.2.Fair ∧ Args p.1)
    (ht : Tame main idle cs tr) (hg : Granted (initQ main idle q l) cs) (he : execQ (initQ main idle q l) cs = some (w, tr))
    {as hs : List Nat} (ha : as.Nodup) (hh : hs.Nodup)
    (ha' : ∀ a, a ∈ as ↔ w.boxes a ≠ none) (hh' : ∀ a, a ∈ hs ↔ w.conds a ≠ none) (x : Ans) :
    ∃ m, teardownQ w as hs x = some (SUCCESS, m) ∧ m.sl.released = dropped [] tr ++ as.flatMap fun a => unread a tr := by
  obtain ⟨R, B, K, h, hist, hd, _⟩ := tame_hist hl hc ht hg he
  obtain ⟨m, e1, e2, _⟩ := teardown_sim (x := x) h ha hh ha' hh'
  refine ⟨m, e1, ?_⟩
  rw [e2, hd]
  congr 1
  refine flatMap_eq fun a hm => ?_
  cases hb : B a with
  | none => exact absurd ((h.box_none a).2 hb) ((ha' a).1 hm)
  | some b => unfold held; rw [hb]; exact Fiber.Hist.held hist hb

/-- C88 (what holds): once the scheduler is released, every message that was sent has been received once or released once. -/
theorem messages_accounted_partial {w : World} {tr : List Item} (hl : l ≠ 0) (hc : ∀ p ∈ cs, p.2.Fair ∧ Args p.1)
    (ht : Tame main idle cs tr) (hg : Granted (initQ main idle q l) cs) (he : execQ (initQ main idle q l) cs = some (w, tr))
    {as hs : List Nat} (ha : as.Nodup) (hh : hs.Nodup)
    (ha' : ∀ a, a ∈ as ↔ w.boxes a ≠ none) (hh' : ∀ a, a ∈ hs ↔ w.conds a ≠ none) (x : Ans) :
    ∃ m, teardownQ w as hs x = some (SUCCESS, m) ∧ (tr.filterMap sends).Perm (tr.filterMap takes ++ m.sl.released) := by
  obtain ⟨R, B, K, h, hist, hd, hev⟩ := tame_hist hl hc ht hg he
  obtain ⟨m, e1, e2, _⟩ := teardown_sim (x := x) h ha hh ha' hh'
  refine ⟨m, e1, List.perm_iff_count.2 fun k => ?_⟩
  have e3 := hev k (w.fib.mindex + 1) (Nat.lt_succ_self _)
  have e4 : total (inBox B k) (w.fib.mindex + 1) = (as.map (inBox B k)).sum :=
    total_list as _ _ ha (fun a hm => Nat.lt_succ_of_le (h.bidx a ((ha' a).1 hm))) fun a hm => by
      have : B a = none := (h.box_none a).1 (Classical.byContradiction fun hb => hm ((ha' a).2 hb))
      simp [inBox, held, this]
  have e5 : ∀ as : List Nat, (as.map (inBox B k)).sum = (as.flatMap (held B)).count k := fun as => by
    induction as with
    | nil => rfl
    | cons a as ih => simp [List.flatMap_cons, List.count_append, ih, inBox]
  have e3' : (tr.filterMap sends).count k = (tr.filterMap takes).count k + (dropped [] tr).count k + total (inBox B k) (w.fib.mindex + 1) := e3
  rw [e2, hd, List.count_append, List.count_append, ← e5, ← e4]
  omega

/-! ### Cases -/

/-- an allocator with a few nodes, queues and lists -/
def pool : Ans where
  q := fun _ m => [10, 11, 12, 13].find? fun a => (m.sl.nodes a).isNone
  node := fun m => [14, 15, 16, 17].find? fun a => (m.sl.nodes a).isNone
  alloc := SUCCESS
  qa := fun m => [20, 21].find? fun a => (m.queues a).isNone
  la := fun m => [30, 31, 32].find? fun a => (m.sl.lists a).isNone
  ins := SUCCESS
  junk := 0

theorem find_unused {β : Type} {f : Nat → Option β} {as : List Nat} {a : Nat} (h : as.find? (fun a => (f a).isNone) = some a) :
    a ∈ as ∧ f a = none :=
  ⟨List.mem_of_find?_eq_some h, by simpa using List.find?_some h⟩

theorem pool_fair : pool.Fair where
  q := fun _ m a h => by
    obtain ⟨h1, h2⟩ := find_unused h
    simp at h1
    refine ⟨?_, ?_, h2⟩ <;> rcases h1 with rfl | rfl | rfl | rfl <;> decide
  node := fun m a h => by
    obtain ⟨h1, h2⟩ := find_unused h
    simp at h1
    refine ⟨?_, ?_, h2⟩ <;> rcases h1 with rfl | rfl | rfl | rfl <;> decide
  qa := fun m a h => by
    obtain ⟨h1, h2⟩ := find_unused h
    simp at h1
    refine ⟨?_, h2⟩; rcases h1 with rfl | rfl <;> decide
  la := fun m a h => by
    obtain ⟨h1, h2⟩ := find_unused h
    simp at h1
    refine ⟨?_, h2⟩; rcases h1 with rfl | rfl | rfl <;> decide

/-- fiber 1 creates two mailboxes and a condition, sends four messages, receives one and closes the first mailbox -/
def story : List (Call × Ans) :=
  [.boxCreate, .boxCreate, .condCreate, .add 3, .send 1 50, .send 1 51, .send 2 52, .send 1 53, .receive 1, .boxClose 1].map (·, pool)

theorem story_calls : ∀ p ∈ story, p.2.Fair ∧ Args p.1 := fun p hp => by
  simp only [story, List.map_cons, List.map_nil, List.mem_cons, List.not_mem_nil, or_false] at hp
  rcases hp with rfl | rfl | rfl | rfl | rfl | rfl | rfl | rfl | rfl | rfl <;> exact ⟨pool_fair, by simp [Args]⟩

theorem of_any {α : Type} {o : Option α} {p : α → Bool} (h : o.any p = true) : ∃ r, o = some r ∧ p r = true := by
  cases o with
  | none => cases h
  | some r => exact ⟨r, rfl, h⟩

/-- `as` has the open mailboxes and `hs` the conditions: it is enough to look below the last address. -/
def lists (w : World) (as hs : List Nat) : Bool :=
  as.all (· ≤ w.fib.mindex) && (List.range (w.fib.mindex + 1)).all (fun a => as.contains a == (w.boxes a).isSome) &&
  (hs.all (· ≤ w.fib.cindex) && (List.range (w.fib.cindex + 1)).all fun a => hs.contains a == (w.conds a).isSome)

theorem lists_ok {w : World} {tr : List Item} (hm : main ≠ 0) (hl : l ≠ 0) (hc : ∀ p ∈ cs, p.2.Fair ∧ Args p.1)
    (he : execQ (initQ main idle q l) cs = some (w, tr)) {as hs : List Nat} (h : lists w as hs = true) :
    (∀ a, a ∈ as ↔ w.boxes a ≠ none) ∧ ∀ a, a ∈ hs ↔ w.conds a ≠ none := by
  obtain ⟨w1, R, B, K, tr1, h1, _, hr, _⟩ := exec_sim cs _ _ _ _ (init_rel (idle := idle) (q := q) hm hl) hc
  rw [h1] at he
  cases he
  simp only [lists, Bool.and_eq_true, List.all_eq_true, decide_eq_true_eq, List.mem_range, beq_iff_eq] at h
  have key : ∀ {α : Type} (f : Nat → Option α) (as : List Nat) (n : Nat), (∀ a, f a ≠ none → a ≤ n) → (∀ a ∈ as, a ≤ n) →
      (∀ a, a < n + 1 → as.contains a = (f a).isSome) → ∀ a, a ∈ as ↔ f a ≠ none := fun f as n h1 h2 h3 a => by
    constructor
    · intro ha
      have := h3 a (Nat.lt_succ_of_le (h2 a ha))
      intro hn
      simp [hn, ha] at this
    · intro ha
      have := h3 a (Nat.lt_succ_of_le (h1 a ha))
      rw [Option.isSome_iff_ne_none.2 ha] at this
      simpa using this
  exact ⟨key _ as _ hr.bidx h.1.1 h.1.2, key _ hs _ hr.cidx h.2.1 h.2.2⟩

/-- whether no node for the run queue was refused -/
def granted : World → List (Call × Ans) → Bool
  | _, [] => true
  | w, (c, x) :: cs =>
    match stepQ w c x with
    | none => true
    | some r => r.1.log.all (· == SUCCESS) && granted r.1 cs

theorem granted_ok : ∀ (cs : List (Call × Ans)) (w : World), granted w cs = true → Granted w cs
  | [], _, _ => trivial
  | (c, x) :: cs, w, h => by
    unfold granted at h
    unfold Granted
    cases hs : stepQ w c x with
    | none => trivial
    | some r =>
      rw [hs] at h
      simp only [Bool.and_eq_true, List.all_eq_true, beq_iff_eq] at h
      exact ⟨h.1, granted_ok cs r.1 h.2⟩

/-- the hypotheses are met, and the conclusions say something: of the messages 50, 51, 52 and 53 the first was received, the
close released 51 and 53, the release of the scheduler releases 52 -/
example : ∃ w tr, execQ (initQ 1 2 90 91) story = some (w, tr) ∧ Tame 1 2 story tr ∧ Granted (initQ 1 2 90 91) story ∧
    (∀ a, a ∈ [2] ↔ w.boxes a ≠ none) ∧ (∀ a, a ∈ [1] ↔ w.conds a ≠ none) ∧ tr.filterMap sends = [50, 51, 52, 53] ∧
    tr.filterMap takes = [50] ∧ dropped [] tr = [51, 53] ∧ unread 2 tr = [52] ∧
    (teardownQ w [2] [1] pool).map (fun r => r.2.sl.released) = some [51, 53, 52] := by
  obtain ⟨⟨w, tr⟩, h1, h2⟩ := of_any (o := execQ (initQ 1 2 90 91) story) (p := fun r => lists r.1 [2] [1] &&
    (r.2.all (fun i => i.who != 2) && (r.2.filterMap sends == [50, 51, 52, 53] && (r.2.filterMap takes == [50] &&
      (dropped [] r.2 == [51, 53] && (unread 2 r.2 == [52] &&
      (teardownQ r.1 [2] [1] pool).map (fun r => r.2.sl.released) == some [51, 53, 52])))))) (by decide +kernel)
  simp only [Bool.and_eq_true, beq_iff_eq, List.all_eq_true, bne_iff_ne] at h2
  obtain ⟨h2, h3, h4, h5, h6, h7, h8⟩ := h2
  obtain ⟨h9, h10⟩ := lists_ok (by decide) (by decide) story_calls h1 h2
  refine ⟨w, tr, h1, ⟨by decide, by decide, by decide, by decide, by decide, ?_, fun i hi e => absurd e (h3 i hi)⟩,
    granted_ok _ _ (by decide +kernel), h9, h10, h4, h5, h6, h7, h8⟩
  intro p hp
  simp only [story, List.map_cons, List.map_nil, List.mem_cons, List.not_mem_nil, or_false] at hp
  rcases hp with rfl | rfl | rfl | rfl | rfl | rfl | rfl | rfl | rfl | rfl <;> rfl

/-- an allocator with two nodes for the run queue -/
def tight : Ans := { pool with q := fun _ m => [10, 11].find? fun a => (m.sl.nodes a).isNone }

theorem tight_fair : tight.Fair where
  q := fun k m a h => by
    obtain ⟨h1, h2⟩ := find_unused h
    simp at h1
    refine ⟨?_, ?_, h2⟩ <;> rcases h1 with rfl | rfl <;> decide
  node := pool_fair.node
  qa := pool_fair.qa
  la := pool_fair.la

/-- two fibers are added, the run queue has no room for more; then 1 sends -/
def full : List (Call × Ans) := [.boxCreate, .add 3, .add 4, .send 1 50].map (·, tight)

/-- C88 (what is missing): when the run queue cannot get a node for the sender, the send fails and the message stays in the
mailbox. The caller, told that the send failed, still owns the message, and the mailbox releases it as well. -/
theorem failed_send_released_violated : (∀ p ∈ full, p.2.Fair ∧ Args p.1) ∧ ∃ w tr m, execQ (initQ 1 2 90 91) full = some (w, tr) ∧
    tr.getLast?.map Item.next = some (.fail ERROR_GENERAL_OUT_OF_MEMORY) ∧ tr.filterMap sends = [] ∧
    (∀ a, a ∈ [1] ↔ w.boxes a ≠ none) ∧ (∀ a, a ∈ [] ↔ w.conds a ≠ none) ∧
    teardownQ w [1] [] tight = some (SUCCESS, m) ∧ m.sl.released = [50] := by
  have hc : ∀ p ∈ full, p.2.Fair ∧ Args p.1 := fun p hp => by
    simp only [full, List.map_cons, List.map_nil, List.mem_cons, List.not_mem_nil, or_false] at hp
    rcases hp with rfl | rfl | rfl | rfl <;> exact ⟨tight_fair, by simp [Args]⟩
  obtain ⟨⟨w, tr⟩, h1, h2⟩ := of_any (o := execQ (initQ 1 2 90 91) full) (p := fun r => lists r.1 [1] [] &&
    (decide (r.2.getLast?.map Item.next = some (.fail ERROR_GENERAL_OUT_OF_MEMORY)) && (r.2.filterMap sends == [] &&
      (teardownQ r.1 [1] [] tight).any (fun r => r.1 == SUCCESS && r.2.sl.released == [50])))) (by decide +kernel)
  simp only [Bool.and_eq_true, beq_iff_eq, decide_eq_true_eq] at h2
  obtain ⟨h2, h3, h4, h5⟩ := h2
  obtain ⟨⟨st, m⟩, h6, h7⟩ := of_any h5
  simp only [Bool.and_eq_true, beq_iff_eq] at h7
  obtain ⟨h9, h10⟩ := lists_ok (by decide) (by decide) hc h1 h2
  exact ⟨hc, w, tr, m, h1, h3, h4, h9, h10, by rw [h6, h7.1], h7.2⟩

/-- 3 waits for a message when it is told to quiesce and goes on; then 1 sends -/
def stray : List (Call × Ans) := [.boxCreate, .add 3, .run, .receive 1, .quiesce 3, .run, .send 1 50].map (·, pool)

/-- C88 (what is missing): a receiver that was asked to quiesce still stands as the one blocked on the mailbox; a message
sent then is taken from the mailbox for it, the send succeeds, and the message is neither received nor ever released. -/
theorem message_lost_violated : (∀ p ∈ stray, p.2.Fair ∧ Args p.1) ∧ ∃ w tr m, execQ (initQ 1 2 90 91) stray = some (w, tr) ∧
    Granted (initQ 1 2 90 91) stray ∧ tr.filterMap sends = [50] ∧ tr.filterMap takes = [] ∧
    (∀ a, a ∈ [1] ↔ w.boxes a ≠ none) ∧ (∀ a, a ∈ [] ↔ w.conds a ≠ none) ∧
    teardownQ w [1] [] pool = some (SUCCESS, m) ∧ m.sl.released = [] := by
  have hc : ∀ p ∈ stray, p.2.Fair ∧ Args p.1 := fun p hp => by
    simp only [stray, List.map_cons, List.map_nil, List.mem_cons, List.not_mem_nil, or_false] at hp
    rcases hp with rfl | rfl | rfl | rfl | rfl | rfl | rfl <;> exact ⟨pool_fair, by simp [Args]⟩
  obtain ⟨⟨w, tr⟩, h1, h2⟩ := of_any (o := execQ (initQ 1 2 90 91) stray) (p := fun r => lists r.1 [1] [] &&
    (r.2.filterMap sends == [50] && (r.2.filterMap takes == [] &&
      (teardownQ r.1 [1] [] pool).any (fun r => r.1 == SUCCESS && r.2.sl.released == [])))) (by decide +kernel)
  simp only [Bool.and_eq_true, beq_iff_eq] at h2
  obtain ⟨h2, h3, h4, h5⟩ := h2
  obtain ⟨⟨st, m⟩, h6, h7⟩ := of_any h5
  simp only [Bool.and_eq_true, beq_iff_eq] at h7
  obtain ⟨h9, h10⟩ := lists_ok (by decide) (by decide) hc h1 h2
  exact ⟨hc, w, tr, m, h1, granted_ok _ _ (by decide +kernel), h3, h4, h9, h10, by rw [h6, h7.1], h7.2⟩

end Rcpr.FibMem
