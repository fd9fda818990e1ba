import Verif.MsgPay
import Verif.Props.Life

/-!
Property C94: the payload of a message is released once, by the message or by whoever took it.
-/
namespace Rcpr.Life

open Rcpr

/-- What a message has to release. -/
def Msg.parts (m : Msg) : List Nat := m.p :: m.payload.toList

/-- Everything that is held is held once: by the program, or by one of its messages, as structure or as payload. -/
structure Accounted (w : Pay) : Prop where
  once : (w.mine ++ w.msgs.flatMap Msg.parts).Nodup
  held : ∀ i, w.st.live i ≠ none ↔ i ∈ w.mine ++ w.msgs.flatMap Msg.parts

/-! ### The invariant -/

private structure Led (L : List (Nat × Kind)) (s : St) : Prop where
  ok : s.Ok
  nd : (L.map (·.1)).Nodup
  live : ∀ i k, s.live i = some k ↔ (i, k) ∈ L

private theorem Led.perm {L L' : List (Nat × Kind)} {s : St} (h : Led L s) (p : L'.Perm L) : Led L' s :=
  ⟨h.ok, (p.map _).nodup_iff.2 h.nd, fun i k => (h.live i k).trans p.mem_iff.symm⟩

private theorem led_get {L : List (Nat × Kind)} {s : St} {k : Kind} {e : Env} (h : Led L s) :
    (∃ a s', get k e s = some (.error a, s') ∧ Led L s') ∨ ∃ x s', get k e s = some (.ok x, s') ∧ Led ((x, k) :: L) s' := by
  unfold get
  by_cases ha : e.ask s.asks = SUCCESS
  · refine .inr ⟨s.next, _, by rw [if_pos ha], ?_, ?_, ?_⟩
    · intro i hi
      have hi : s.next + 1 ≤ i := hi
      show (if i = s.next then some k else s.live i) = none
      rw [if_neg (by omega)]
      exact h.ok i (by omega)
    · refine List.nodup_cons.2 ⟨fun hm => ?_, h.nd⟩
      obtain ⟨⟨x, k'⟩, hm, rfl⟩ := List.mem_map.1 hm
      have := (h.live _ _).2 hm
      rw [h.ok _ (Nat.le_refl _)] at this
      cases this
    · intro i k'
      show (if i = s.next then some k else s.live i) = some k' ↔ _
      by_cases hi : i = s.next
      · subst hi
        rw [if_pos rfl]
        constructor
        · intro hk; cases hk; exact List.mem_cons_self
        · intro hm
          rcases List.mem_cons.1 hm with hm | hm
          · cases hm; rfl
          · have := (h.live _ _).2 hm
            rw [h.ok _ (Nat.le_refl _)] at this
            cases this
      · rw [if_neg hi, h.live]
        constructor
        · exact List.mem_cons_of_mem _
        · intro hm
          rcases List.mem_cons.1 hm with hm | hm
          · cases hm; exact absurd rfl hi
          · exact hm
  · exact .inl ⟨_, { s with asks := s.asks + 1 }, by rw [if_neg ha], h.ok, h.nd, h.live⟩

private theorem led_put {L : List (Nat × Kind)} {s : St} {k : Kind} {i : Nat} {e : Env} (g : e.Good) (h : Led ((i, k) :: L) s) :
    ∃ s', put k i e s = some (SUCCESS, s') ∧ Led L s' := by
  have hl : s.live i = some k := (h.live i k).2 List.mem_cons_self
  have hn := List.nodup_cons.1 h.nd
  refine ⟨_, by unfold put; rw [if_pos hl, if_pos (g _)], ?_, hn.2, ?_⟩
  · intro j hj
    show (if j = i then none else s.live j) = none
    by_cases hji : j = i
    · rw [if_pos hji]
    · rw [if_neg hji]; exact h.ok j hj
  · intro j k'
    show (if j = i then none else s.live j) = some k' ↔ _
    by_cases hji : j = i
    · subst hji
      rw [if_pos rfl]
      refine ⟨nofun, fun hm => absurd (List.mem_map.2 ⟨_, hm, rfl⟩) hn.1⟩
    · rw [if_neg hji, h.live]
      refine ⟨fun hm => ?_, List.mem_cons_of_mem _⟩
      rcases List.mem_cons.1 hm with hm | hm
      · cases hm; exact absurd rfl hji
      · exact hm

private theorem led_use {L : List (Nat × Kind)} {s : St} {i : Nat} {e : Env} (h : Led L s) (hm : (i, Kind.mem) ∈ L) :
    use i e s = some ((), s) := by
  unfold use; rw [if_pos ((h.live _ _).2 hm)]

private def Msg.owes (m : Msg) : List (Nat × Kind) := (m.p, .mem) :: m.payload.toList.map (·, .given)

private def owes (mine : List Nat) (msgs : List Msg) : List (Nat × Kind) := mine.map (·, .given) ++ msgs.flatMap Msg.owes

private theorem perm_eraseIdx {α : Type} : ∀ {l : List α} {k : Nat} {x : α}, l[k]? = some x → l.Perm (x :: l.eraseIdx k)
  | [], _, _, h => by simp at h
  | y :: l, 0, x, h => by simp at h; subst h; exact List.Perm.refl _
  | y :: l, k + 1, x, h => by
    have := perm_eraseIdx (l := l) (k := k) (x := x) (by simpa using h)
    exact (List.Perm.cons y this).trans (List.Perm.swap _ _ _)

private theorem perm_set {α : Type} : ∀ {l : List α} {k : Nat} {x : α} (y : α), l[k]? = some x → (l.set k y).Perm (y :: l.eraseIdx k)
  | [], _, _, _, h => by simp at h
  | z :: l, 0, x, y, h => by simp
  | z :: l, k + 1, x, y, h => by
    have := perm_set (l := l) (k := k) (x := x) y (by simpa using h)
    exact (List.Perm.cons z this).trans (List.Perm.swap _ _ _)

/-- One of the messages first. -/
private theorem owes_msg {mine : List Nat} {l l' : List Msg} {m : Msg} (p : l.Perm (m :: l')) :
    (owes mine l).Perm (m.owes ++ owes mine l') := by
  unfold owes
  refine (List.Perm.append_left _ (p.flatMap_right _)).trans ?_
  rw [List.flatMap_cons, ← List.append_assoc, ← List.append_assoc]
  exact List.Perm.append_right _ List.perm_append_comm

/-- One of the program's own first. -/
private theorem owes_mine {l l' : List Nat} {x : Nat} {msgs : List Msg} (p : l.Perm (x :: l')) :
    (owes l msgs).Perm ((x, .given) :: owes l' msgs) :=
  List.Perm.append_right _ (p.map _)

private theorem step_inv {e : Env} (g : e.Good) {w : Pay} (i : Led (owes w.mine w.msgs) w.st) (a : PayAct) :
    ∃ x w', payStep e w a = some (x, w') ∧ Led (owes w'.mine w'.msgs) w'.st := by
  cases a with
  | acquire =>
    rcases led_get (k := .given) (e := e) i with ⟨a, s', h1, h2⟩ | ⟨x, s', h1, h2⟩
    · exact ⟨none, _, by simp only [payStep, h1]; rfl, h2⟩
    · refine ⟨none, _, by simp only [payStep, h1]; rfl, h2.perm (owes_mine ?_)⟩
      exact List.perm_append_comm (l₂ := [x])
  | wrap k =>
    cases hk : w.mine[k]? with
    | none => exact ⟨none, w, by simp only [payStep, hk], i⟩
    | some x =>
      rcases led_get (k := .mem) (e := e) i with ⟨a, s', h1, h2⟩ | ⟨p, s', h1, h2⟩
      · refine ⟨none, { w with st := s' }, ?_, h2⟩
        have : messageCreate (some x) e w.st = some ((a, .untouched), s') := by
          unfold messageCreate; simp only [bind, h1]; rfl
        simp only [payStep, hk, this]; rfl
      · refine ⟨none, ⟨s', w.mine.eraseIdx k, w.msgs ++ [⟨p, some x⟩]⟩, ?_, h2.perm ?_⟩
        · have : messageCreate (some x) e w.st = some ((SUCCESS, .set ⟨p, some x⟩), s') := by
            unfold messageCreate; simp only [bind, h1]; rfl
          simp only [payStep, hk, this]; rfl
        · refine (owes_msg (List.perm_append_comm (l₂ := [_]))).trans (List.Perm.cons _ ?_)
          exact (owes_mine (perm_eraseIdx hk)).symm
  | blank =>
    rcases led_get (k := .mem) (e := e) i with ⟨a, s', h1, h2⟩ | ⟨p, s', h1, h2⟩
    · refine ⟨none, { w with st := s' }, ?_, h2⟩
      have : messageCreate none e w.st = some ((a, .untouched), s') := by
        unfold messageCreate; simp only [bind, h1]; rfl
      simp only [payStep, this]; rfl
    · refine ⟨none, ⟨s', w.mine, w.msgs ++ [⟨p, none⟩]⟩, ?_, h2.perm ?_⟩
      · have : messageCreate none e w.st = some ((SUCCESS, .set ⟨p, none⟩), s') := by
          unfold messageCreate; simp only [bind, h1]; rfl
        simp only [payStep, this]; rfl
      · exact owes_msg (List.perm_append_comm (l₂ := [_]))
  | look k =>
    cases hk : w.msgs[k]? with
    | none => exact ⟨none, w, by simp only [payStep, hk], i⟩
    | some m =>
      have hp := owes_msg (mine := w.mine) (perm_eraseIdx hk)
      have hu : use m.p e w.st = some ((), w.st) := led_use i (hp.mem_iff.2 (by simp [Msg.owes]))
      refine ⟨m.payload, ⟨w.st, w.mine, w.msgs.set k m⟩, ?_, i.perm ((owes_msg (perm_set m hk)).trans hp.symm)⟩
      simp only [payStep, hk, messagePayload, bind, hu]; rfl
  | take k =>
    cases hk : w.msgs[k]? with
    | none => exact ⟨none, w, by simp only [payStep, hk], i⟩
    | some m =>
      have hp := owes_msg (mine := w.mine) (perm_eraseIdx hk)
      have hu : use m.p e w.st = some ((), w.st) := led_use i (hp.mem_iff.2 (by simp [Msg.owes]))
      refine ⟨m.payload, ⟨w.st, w.mine ++ m.payload.toList, w.msgs.set k { m with payload := none }⟩, ?_, i.perm ?_⟩
      · simp only [payStep, hk, messagePayload, bind, hu]; rfl
      · refine (owes_msg (perm_set _ hk)).trans (List.Perm.trans ?_ hp.symm)
        cases hx : m.payload with
        | none => simp [Msg.owes, hx]
        | some x =>
          simp only [Msg.owes, hx, Option.toList, List.map_cons, List.map_nil, List.cons_append, List.nil_append]
          exact List.Perm.cons _ (owes_mine (List.perm_append_comm (l₂ := [x])))
  | release k =>
    cases hk : w.msgs[k]? with
    | none => exact ⟨none, w, by simp only [payStep, hk], i⟩
    | some m =>
      have hp := owes_msg (mine := w.mine) (perm_eraseIdx hk)
      have i' := i.perm hp.symm
      have hu : use m.p e w.st = some ((), w.st) := led_use i' (by simp [Msg.owes])
      cases hx : m.payload with
      | none =>
        rw [Msg.owes, hx] at i'
        obtain ⟨s', h1, h2⟩ := led_put g i'
        refine ⟨none, ⟨s', w.mine, w.msgs.eraseIdx k⟩, ?_, h2⟩
        simp only [payStep, hk, messageRelease, bind, hu, hx, pure, h1]; rfl
      | some x =>
        rw [Msg.owes, hx] at i'
        obtain ⟨s1, h1, h2⟩ := led_put g (i'.perm (List.Perm.swap _ _ _) :
          Led ((x, .given) :: (m.p, .mem) :: owes w.mine (w.msgs.eraseIdx k)) w.st)
        obtain ⟨s', h3, h4⟩ := led_put g h2
        refine ⟨none, ⟨s', w.mine, w.msgs.eraseIdx k⟩, ?_, h4⟩
        simp only [payStep, hk, messageRelease, bind, hu, hx, pure, h1, h3]; rfl
  | discard k =>
    cases hk : w.mine[k]? with
    | none => exact ⟨none, w, by simp only [payStep, hk], i⟩
    | some x =>
      obtain ⟨s', h1, h2⟩ := led_put g (i.perm (owes_mine (perm_eraseIdx hk)).symm)
      refine ⟨none, ⟨s', w.mine.eraseIdx k, w.msgs⟩, ?_, h2⟩
      simp only [payStep, hk, h1]; rfl

private theorem run_inv {e : Env} (g : e.Good) : ∀ (as : List PayAct) {w : Pay}, Led (owes w.mine w.msgs) w.st →
    ∃ w', payRun e w as = some w' ∧ Led (owes w'.mine w'.msgs) w'.st
  | [], w, i => ⟨w, rfl, i⟩
  | a :: as, w, i => by
    obtain ⟨x, w1, h1, h2⟩ := step_inv g i a
    obtain ⟨w', h3, h4⟩ := run_inv g as h2
    exact ⟨w', by simp only [payRun, h1]; exact h3, h4⟩

private theorem owes_fst (mine : List Nat) (msgs : List Msg) :
    (owes mine msgs).map (·.1) = mine ++ msgs.flatMap Msg.parts := by
  unfold owes
  rw [List.map_append, List.map_map, List.map_flatMap]
  congr 1
  · exact List.map_id _
  · congr 1
    funext m
    cases hx : m.payload <;> simp [Msg.owes, Msg.parts, hx]

private theorem accounted {w : Pay} (i : Led (owes w.mine w.msgs) w.st) : Accounted w := by
  have hf := owes_fst w.mine w.msgs
  refine ⟨hf ▸ i.nd, fun j => ?_⟩
  rw [← hf]
  constructor
  · intro hn
    cases hj : w.st.live j with
    | none => exact absurd hj hn
    | some k => exact List.mem_map.2 ⟨_, (i.live _ _).1 hj, rfl⟩
  · intro hm
    obtain ⟨⟨x, k⟩, hm', rfl⟩ := List.mem_map.1 hm
    rw [show w.st.live (x, k).1 = some k from (i.live _ _).2 hm']
    nofun

/-- The beginning: nothing is held. -/
def payStart : Pay := ⟨empty, [], []⟩

private theorem start_inv : Led (owes payStart.mine payStart.msgs) payStart.st :=
  ⟨fun _ _ => rfl, List.nodup_nil, fun _ _ => ⟨nofun, nofun⟩⟩

/-! ### The property -/

/-- C94: whatever a program does with messages, in any order and whatever cannot be allocated: nothing is released
twice or used after it was released, and everything is owned once, by the program or by one of its messages. -/
theorem payload_owned_once {e : Env} (g : e.Good) (as : List PayAct) : ∃ w, payRun e payStart as = some w ∧ Accounted w := by
  obtain ⟨w, h1, h2⟩ := run_inv g as start_inv
  exact ⟨w, h1, accounted h2⟩

/-- C94: so nothing is left when the program has released its messages and what it took out of them. -/
theorem payload_nothing_left {e : Env} (g : e.Good) {as : List PayAct} {w : Pay} (h : payRun e payStart as = some w)
    (h1 : w.mine = []) (h2 : w.msgs = []) : ∀ i, w.st.live i = none := by
  obtain ⟨w', h3, h4⟩ := payload_owned_once g as
  rw [h] at h3
  cases h3
  intro i
  have := h4.held i
  rw [h1, h2] at this
  exact Classical.byContradiction fun hn => nomatch this.1 hn

/-- C94: the payload that a message was made with is what is seen, however often one looks; it is handed over once:
after that the message has none, and releasing it leaves the payload alone. -/
theorem payload_handed_over {e : Env} (g : e.Good) (as : List PayAct) {w : Pay} (h : payRun e payStart as = some w) {k : Nat} {m : Msg}
    (hm : w.msgs[k]? = some m) :
    payStep e w (.look k) = some (m.payload, w) ∧
    ∃ w1, payStep e w (.take k) = some (m.payload, w1) ∧ w1.mine = w.mine ++ m.payload.toList ∧
      (∃ w2, payStep e w1 (.take k) = some (none, w2) ∧ w2.mine = w1.mine) ∧
      ∃ w2, payStep e w1 (.release k) = some (none, w2) ∧ w2.st.live m.p = none ∧ ∀ i, i ≠ m.p → w2.st.live i = w.st.live i := by
  obtain ⟨w', h1, i⟩ := run_inv g as start_inv
  rw [h] at h1
  cases h1
  have hp := owes_msg (mine := w.mine) (perm_eraseIdx hm)
  have hu : use m.p e w.st = some ((), w.st) := led_use i (hp.mem_iff.2 (by simp [Msg.owes]))
  have hl : w.st.live m.p = some .mem := (i.live _ _).2 (hp.mem_iff.2 (by simp [Msg.owes]))
  have hlt : k < w.msgs.length := (List.getElem?_eq_some_iff.1 hm).1
  have hset : w.msgs.set k m = w.msgs := by
    obtain ⟨_, rfl⟩ := List.getElem?_eq_some_iff.1 hm
    exact List.set_getElem_self _
  refine ⟨?_, ⟨w.st, w.mine ++ m.payload.toList, w.msgs.set k { m with payload := none }⟩, ?_, rfl, ?_, ?_⟩
  · simp only [payStep, hm, messagePayload, bind, hu]
    show some (m.payload, (⟨w.st, w.mine, w.msgs.set k m⟩ : Pay)) = _
    rw [hset]
  · simp only [payStep, hm, messagePayload, bind, hu]; rfl
  · have h2 : (w.msgs.set k { m with payload := none })[k]? = some { m with payload := none } := by
      simp [hlt]
    refine ⟨⟨w.st, (w.mine ++ m.payload.toList) ++ [], (w.msgs.set k { m with payload := none }).set k { m with payload := none }⟩, ?_,
      List.append_nil _⟩
    simp only [payStep, h2, messagePayload, bind, hu]; rfl
  · have h2 : (w.msgs.set k { m with payload := none })[k]? = some { m with payload := none } := by
      simp [hlt]
    have h3 : put .mem m.p e w.st = some (SUCCESS, ⟨fun j => if j = m.p then none else w.st.live j, w.st.next, w.st.asks, w.st.puts + 1⟩) := by
      unfold put; rw [if_pos hl, if_pos (g _)]
    refine ⟨⟨⟨fun j => if j = m.p then none else w.st.live j, w.st.next, w.st.asks, w.st.puts + 1⟩, w.mine ++ m.payload.toList,
      (w.msgs.set k { m with payload := none }).eraseIdx k⟩, ?_, if_pos rfl, fun j hj => if_neg hj⟩
    simp only [payStep, h2, messageRelease, bind, hu, pure, h3]; rfl

-- A resource is sent, looked at twice, taken, and released after its message; a second one is released with its message.
example : ((payRun smooth payStart [.acquire, .acquire, .wrap 0, .wrap 0, .look 0, .look 0, .take 0, .release 0]).map
    fun w => (w.mine, w.msgs, (List.range 4).map w.st.live)) =
      some ([0], [⟨3, some 1⟩], [some .given, some .given, none, some .mem]) ∧
    ((payRun smooth payStart [.acquire, .acquire, .wrap 0, .wrap 0, .look 0, .look 0, .take 0, .release 0, .discard 0, .release 0]).map
    fun w => (w.mine, w.msgs, (List.range 4).map w.st.live)) = some ([], [], [none, none, none, none]) := by decide

-- The second acquisition is refused: the resource stays with the program.
example : ((payRun (failing 1 ERROR_GENERAL_OUT_OF_MEMORY) payStart [.acquire, .wrap 0]).map
    fun w => (w.mine, w.msgs, (List.range 4).map w.st.live)) = some ([0], [], [some .given, none, none, none]) := by decide

end Rcpr.Life
