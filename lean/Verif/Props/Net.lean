import Verif.NetRun

/-! Property C83: what fibers see over async psocks does not depend on the scheduling. -/
namespace Rcpr.Net

open Rcpr Epoll Io

variable {S : Setup} {P : Plan}

/-- **C83**: no call fails, and no fiber is run after it ended; what is read is what was written to the other end, in order, the rest being
in the kernel. -/
theorem net_reliable (L : Legal S P) {n : Nat} {s : Net} (h : Run S n s) :
    s.bad = false ∧ ∀ p, recv S P s.log p ++ s.buf p = sent S P s.log p ∧ (s.buf p).length ≤ S.cap p := by
  obtain ⟨tr, g⟩ := h.good L
  exact ⟨g.bad, fun p => ⟨g.pipes.fifo p, g.pipes.cap p⟩⟩

theorem carried_same {S S' : Setup} (h : S'.prog = S.prog) : carried S' = carried S := by
  funext f sd p l
  unfold carried
  have : scanStep S' f sd p = scanStep S f sd p := by
    funext t a
    unfold scanStep
    rw [h]
  rw [this]

/-- With larger buffers nothing is missed. -/
theorem Sees.wider {S S' : Setup} {P : Plan} (e : Same S S') (hc : ∀ p, S.cap p ≤ S'.cap p) {A : Seen} (h : Sees S P A) : Sees S' P A := by
  induction h with
  | nil => exact .nil
  | @snoc A f x h m ih =>
    refine .snoc f x ih ⟨?_, ?_⟩
    · obtain ⟨m, -⟩ := m
      unfold Live Spawned at m ⊢
      rw [e.main, e.prog]
      exact m
    · obtain ⟨-, m⟩ := m
      rw [e.prog]
      cases ho : S.prog f (results (A f)) with
      | none => rw [ho] at m; exact m
      | some op =>
        rw [ho] at m
        cases op with
        | read p n =>
          unfold offers sent recv at m ⊢
          simp only at m ⊢
          rw [carried_same e.prog, e.peer]
          exact m
        | write p d =>
          unfold offers sent recv at m ⊢
          simp only at m ⊢
          rw [carried_same e.prog, e.peer]
          split
          · next hn =>
            rw [if_pos hn] at m
            obtain ⟨b, h1, h2, h3⟩ := m
            exact ⟨b, h1, h2, Nat.lt_of_lt_of_le h3 (Nat.add_le_add_left (hc _) _)⟩
          · next hn => rwa [if_neg hn] at m
        | spawn g => exact m
        | pause => exact m

/-- **C83**: whatever the kernel does, with whatever buffers, what a fiber sees in one execution and in another is the same, as far as
both go. -/
theorem net_deterministic {S S' : Setup} {P : Plan} (L : Legal S P) (L' : Legal S' P) (e : Same S S') {n n' : Nat} {s s' : Net} (h : Run S n s)
    (h' : Run S' n' s') (f : Nat) : s.log f <+: s'.log f ∨ s'.log f <+: s.log f := by
  obtain ⟨tr, g⟩ := h.good L
  obtain ⟨tr', g'⟩ := h'.good L'
  let T : Setup := { S with cap := fun p => max (S.cap p) (S'.cap p), low := fun _ => 0 }
  have LT : Legal T P := ⟨L.main, L.idle, L.read, L.write, L.spawn, L.peer, fun _ => Nat.zero_le _⟩
  have e1 : Same S T := ⟨rfl, rfl, rfl, rfl⟩
  have e2 : Same S' T := ⟨e.main.symm, e.idle.symm, e.prog.symm, e.peer.symm⟩
  exact (g.sees.wider e1 fun p => Nat.le_max_left _ _).cmp LT (g'.sees.wider e2 fun p => Nat.le_max_right _ _) f

theorem noted_reported {s : Net} {sd : Side} {p : Nat} {m : Mask} (hm : s.sys.io.armed p = some m) (hb : has m sd.bit = true)
    (hr : Reported S s.buf sd p) : reportable S s [(p, sd.bit)] = true := by
  have h1 : sd.bit &&& ~~~m = 0#32 := by
    cases sd
    · show EPOLLIN &&& ~~~m = 0#32
      have hb : m &&& EPOLLIN ≠ 0#32 := by simpa [has, Side.bit] using hb
      have e : EPOLLIN = BitVec.twoPow 32 0 := by decide
      rw [e] at hb ⊢
      rw [BitVec.and_twoPow] at hb
      rw [BitVec.twoPow_and, BitVec.getLsbD_not]
      cases hx : m.getLsbD 0
      · rw [hx] at hb; simp at hb
      · simp
    · show EPOLLOUT &&& ~~~m = 0#32
      have hb : m &&& EPOLLOUT ≠ 0#32 := by simpa [has, Side.bit] using hb
      have e : EPOLLOUT = BitVec.twoPow 32 2 := by decide
      rw [e] at hb ⊢
      rw [BitVec.and_twoPow] at hb
      rw [BitVec.twoPow_and, BitVec.getLsbD_not]
      cases hx : m.getLsbD 2
      · rw [hx] at hb; simp at hb
      · simp
  unfold reportable
  simp only [List.all_cons, List.all_nil, hm, h1]
  cases sd
  · have hr : s.buf p ≠ [] := hr
    have : (s.buf p).isEmpty = false := by simpa using hr
    have e1 : has EPOLLIN EPOLLOUT = false := by decide
    have e2 : EPOLLIN &&& ~~~(EPOLLIN ||| EPOLLOUT) = 0#32 := by decide
    have e3 : (EPOLLIN != 0#32) = true := by decide
    simp [Side.bit, this, e1, e2, e3]
  · have hr : (s.buf (S.peer p)).length < S.low (S.peer p) := hr
    have e1 : has EPOLLOUT EPOLLIN = false := by decide
    have e2 : EPOLLOUT &&& ~~~(EPOLLIN ||| EPOLLOUT) = 0#32 := by decide
    have e3 : (EPOLLOUT != 0#32) = true := by decide
    simp [Side.bit, hr, e1, e2, e3]

/-- **C83**: nothing can happen any more only when every fiber that was added ended, or waits for a socket that is not ready; and then
nothing can. -/
theorem net_stuck (L : Legal S P) {n : Nat} {s : Net} (h : Run S n s) :
    Stuck S s ↔ s.sys.cur = S.idle ∧ ∀ f, Live S s.log f → Ended S s.log f ∨ ∃ sd p, Waits S s.log f sd p ∧ ¬ Reported S s.buf sd p := by
  obtain ⟨tr, g⟩ := h.good L
  have k := g.core
  have iv := g.hist.inv
  constructor
  · intro hst
    have hcur : s.sys.cur = s.sys.idle := by
      apply Classical.byContradiction
      intro hne
      have h1 := hst 1 []
      unfold move at h1
      rw [k.todo] at h1
      simp only [if_neg hne] at h1
      have hcap := g.pipes.cap
      cases ho : S.prog s.sys.cur (results (s.log s.sys.cur)) with
      | none => rw [ho] at h1; cases h1
      | some op =>
        rw [ho] at h1
        cases op with
        | read p m =>
          simp only at h1
          split at h1
          · split at h1
            · cases h1
            · next hb =>
              split at h1
              · cases h1
              · next h2 =>
                have := List.length_pos_iff.2 hb
                omega
          · cases h1
        | write p d =>
          simp only at h1
          split at h1
          · split at h1
            · cases h1
            · split at h1
              · cases h1
              · omega
          · cases h1
        | spawn g => cases h1
        | pause => cases h1
    refine ⟨hcur.trans k.idle, fun f hl => ?_⟩
    have ha : acts s.sys = [] := if_pos hcur
    have hq := iv.idleq hcur
    rcases k.rest f hl (by rw [ha]; simp) with h1 | ⟨sd, p, h1⟩
    · rcases k.call f _ h1 with ⟨-, _, h2⟩ | ⟨-, -, h2⟩
      · cases h2
      · exact .inl h2.2
    · rcases k.call f _ h1 with ⟨-, _, h2⟩ | ⟨-, -, h2⟩
      · cases h2
      · refine .inr ⟨sd, p, h2, fun hr => ?_⟩
        rcases (g.hist.wt fun _ _ _ h => h).wait f sd p h1 with h3 | ⟨-, -, m, h3, h4⟩
        · rw [hq] at h3; cases h3
        · have h5 := hst 0 [(p, sd.bit)]
          unfold move at h5
          rw [k.todo] at h5
          simp only [if_pos hcur, noted_reported h3 h4 hr, if_true] at h5
          cases h5
  · rintro ⟨hcur, hall⟩ n evs
    have hcur : s.sys.cur = s.sys.idle := hcur.trans k.idle.symm
    unfold move
    rw [k.todo]
    simp only [if_pos hcur]
    apply if_neg
    intro hr
    obtain ⟨r1, -, r3⟩ := reportable_spec hr
    obtain ⟨e, he⟩ := List.exists_mem_of_ne_nil _ r1
    obtain ⟨a, b, ⟨m, c, d⟩, x, y⟩ := r3 e he
    obtain ⟨sd, hsd⟩ := mask_cases a b
    have hreg := iv.reg sd e.1 (k.armed e.1 m sd c (mask_sub d hsd))
    rcases k.call _ _ hreg with ⟨-, _, h2⟩ | ⟨-, h1, h2⟩
    · cases h2
    · have h2 : Waits S s.log _ sd e.1 := h2
      have hrep : Reported S s.buf sd e.1 := by
        cases sd
        · exact x hsd
        · exact y hsd
      rcases hall _ h1 with h3 | ⟨sd', p', h3, h4⟩
      · have h3 : S.prog _ _ = none := h3
        cases sd <;> obtain ⟨_, h2, -⟩ := h2 <;> rw [h3] at h2 <;> cases h2
      · have : sd' = sd ∧ p' = e.1 := by
          cases sd <;> cases sd' <;> obtain ⟨_, h2, -⟩ := h2 <;> obtain ⟨_, h3, -⟩ := h3 <;> rw [h3] at h2 <;> cases h2 <;> exact ⟨rfl, rfl⟩
        obtain ⟨rfl, rfl⟩ := this
        exact h4 hrep

/-- If every socket with room is reported writable, then where nothing can happen nothing is left to be seen. -/
theorem stuck_top (L : Legal S P) (hlow : ∀ p, S.low p = S.cap p) {n : Nat} {s : Net} (h : Run S n s) (hs : Stuck S s) (f : Nat) (x : Atom) : ¬ May S P s.log f x := by
  obtain ⟨-, hall⟩ := (net_stuck L h).1 hs
  obtain ⟨-, hp⟩ := net_reliable L h
  rintro ⟨hl, ho⟩
  rcases hall f hl with h1 | ⟨sd, p, h1, h2⟩
  · have h1 : S.prog _ _ = none := h1
    rw [h1] at ho; exact ho
  · cases sd with
    | rd =>
      obtain ⟨n, h1, h3⟩ := h1
      rw [h1] at ho
      simp only [offers, if_pos h3] at ho
      obtain ⟨b, -, hb⟩ := ho
      have : s.buf p = [] := Classical.byContradiction h2
      rw [← (hp p).1, this] at hb
      simp at hb
    | wr =>
      obtain ⟨d, h1, h3⟩ := h1
      rw [h1] at ho
      simp only [offers, if_pos h3] at ho
      obtain ⟨b, -, -, hb⟩ := ho
      have h2 : ¬ (s.buf (S.peer p)).length < S.low (S.peer p) := h2
      rw [← (hp (S.peer p)).1, List.length_append] at hb
      have := hlow (S.peer p)
      omega

/-- **C83**: if sockets with room are reported writable: when one execution comes to an end, no other sees more, and all that come to an
end have seen the same and left the same in the kernel. -/
theorem net_same_end (L : Legal S P) (hlow : ∀ p, S.low p = S.cap p) {n n' : Nat} {s s' : Net} (h : Run S n s) (hs : Stuck S s) (h' : Run S n' s') :
    (∀ f, s'.log f <+: s.log f) ∧ (Stuck S s' → s'.log = s.log ∧ s'.buf = s.buf) := by
  obtain ⟨tr, g⟩ := h.good L
  obtain ⟨tr', g'⟩ := h'.good L
  have h1 := g'.sees.top L g.sees (stuck_top L hlow h hs)
  refine ⟨h1, fun hs' => ?_⟩
  have h2 := g.sees.top L g'.sees (stuck_top L hlow h' hs')
  have e : s'.log = s.log := by
    funext f
    exact (h1 f).eq_of_length (Nat.le_antisymm (h1 f).length_le (h2 f).length_le)
  refine ⟨e, ?_⟩
  funext p
  have a := g.pipes.fifo p
  have b := g'.pipes.fifo p
  rw [e, ← a] at b
  exact List.append_cancel_left b

/-- **C83**: if in one execution every fiber ended, then with no kernel, whatever its buffers, is there an execution that sees more. -/
theorem net_finished {S S' : Setup} {P : Plan} (L : Legal S P) (L' : Legal S' P) (e : Same S S') {n n' : Nat} {s s' : Net} (h : Run S n s)
    (hall : ∀ f, Live S s.log f → Ended S s.log f) (h' : Run S' n' s') (f : Nat) : s'.log f <+: s.log f := by
  obtain ⟨tr, g⟩ := h.good L
  obtain ⟨tr', g'⟩ := h'.good L'
  let T : Setup := { S with cap := fun p => max (S.cap p) (S'.cap p), low := fun _ => 0 }
  have LT : Legal T P := ⟨L.main, L.idle, L.read, L.write, L.spawn, L.peer, fun _ => Nat.zero_le _⟩
  have e1 : Same S T := ⟨rfl, rfl, rfl, rfl⟩
  have e2 : Same S' T := ⟨e.main.symm, e.idle.symm, e.prog.symm, e.peer.symm⟩
  refine (g'.sees.wider e2 fun p => Nat.le_max_right _ _).top LT (g.sees.wider e1 fun p => Nat.le_max_left _ _) (fun f x m => ?_) f
  have h1 : S.prog f (results (s.log f)) = none := hall f m.1
  have h2 : offers T P s.log (s.log f) x (S.prog f (results (s.log f))) := m.2
  rw [h1] at h2
  exact h2

/-! ### No spinning -/

theorem Among.live {all : List Nat} (hA : Among S all) {A : Seen} {f : Nat} (h : Live S A f) : f ∈ all := by
  rcases h with h | ⟨g, i, -, h⟩
  · exact h ▸ hA.main
  · exact hA.spawn _ _ _ h

theorem total_push {A : Seen} {f : Nat} {l : List Atom} : ∀ {all : List Nat}, f ∈ all → total A all + l.length ≤ total (push A f l) all
  | g :: all, h => by
    have hle : total A all ≤ total (push A f l) all := by
      clear h
      induction all with
      | nil => exact Nat.le_refl _
      | cons x all ih =>
        have := (push_le A f l x).length_le
        simp only [total, List.map_cons, List.sum_cons] at ih ⊢
        omega
    by_cases hg : f = g
    · subst hg
      simp only [total, List.map_cons, List.sum_cons, push_same, List.length_append] at hle ⊢
      omega
    · have := total_push (A := A) (l := l) ((List.mem_cons.1 h).resolve_left hg)
      have h2 := (push_le A f l g).length_le
      simp only [total, List.map_cons, List.sum_cons] at this ⊢
      omega

open Classical in
/-- How many moves until something is seen. -/
noncomputable def phase (S : Setup) (s : Net) : Nat := if s.sys.cur = S.idle then 1 else if Hot S s then 0 else s.sys.runq.length + 2

theorem nodup_le {l l' : List Nat} (h : l.Nodup) (hs : ∀ x ∈ l, x ∈ l') : l.length ≤ l'.length := by
  induction l generalizing l' with
  | nil => exact Nat.zero_le _
  | cons a l ih =>
    rw [List.nodup_cons] at h
    have ha := hs a (List.mem_cons_self ..)
    have := ih (l' := l'.erase a) h.2 fun x hx => (List.mem_erase_of_ne (fun (e : x = a) => h.1 (e ▸ hx))).2 (hs x (List.mem_cons_of_mem _ hx))
    rw [List.length_erase_of_mem ha] at this
    have := List.length_pos_of_mem ha
    simp only [List.length_cons]
    omega

theorem phase_le {all : List Nat} (hA : Among S all) {s : Net} {tr : List Item} (g : Good S P s tr) : phase S s ≤ all.length + 1 := by
  have h1 : (acts s.sys).length ≤ all.length := nodup_le g.core.nodup fun f hf => hA.live (g.core.live f hf).2
  have h0 := List.length_pos_of_mem hA.main
  unfold phase
  split
  · omega
  · next h =>
    rw [show acts s.sys = s.sys.cur :: s.sys.runq from if_neg fun h' => h (h'.trans g.core.idle), List.length_cons] at h1
    split <;> omega

/-- **C83**: the fibers do not spin: the number of system calls and yields is bounded by the number of bytes moved and calls returned. -/
theorem net_no_spin (L : Legal S P) {all : List Nat} (hA : Among S all) {n : Nat} {s : Net} (h : Run S n s) :
    n ≤ (total s.log all + 1) * (all.length + 2) := by
  suffices h : n + phase S s ≤ total s.log all * (all.length + 2) + (all.length + 1) by
    rw [Nat.add_mul]
    omega
  induction h with
  | start =>
    have := phase_le hA (Good.init L)
    omega
  | @move n s s' k evs h hm ih =>
    obtain ⟨tr, g⟩ := h.good L
    obtain ⟨⟨tr', g'⟩, d⟩ := move_good L g hm
    have hle := phase_le hA g'
    have hi := g.core.idle
    cases d with
    | sees l h1 h2 h3 =>
      have hl : Live S s.log s.sys.cur := (g.core.live _ (by
        rw [show acts s.sys = s.sys.cur :: s.sys.runq from if_neg fun h' => h2 (h'.trans hi)]
        exact List.mem_cons_self ..)).2
      have h4 := total_push (A := s.log) (l := l) (hA.live hl)
      have h5 := List.length_pos_iff.2 h1
      rw [h3]
      have h6 : (total s.log all + 1) * (all.length + 2) ≤ total (push s.log s.sys.cur l) all * (all.length + 2) :=
        Nat.mul_le_mul_right _ (by omega)
      rw [Nat.add_mul] at h6
      omega
    | leaves h1 h2 h3 h4 =>
      rw [h1]
      have e : phase S s = s.sys.runq.length + 2 := by unfold phase; rw [if_neg h2, if_neg h3]
      have : phase S s' ≤ s.sys.runq.length + 1 := by
        unfold phase
        split
        · omega
        · next h5 =>
          have h6 : acts s'.sys = s'.sys.cur :: s'.sys.runq := if_neg fun h' => h5 (h'.trans g'.core.idle)
          rw [h6] at h4
          rw [← h4, List.length_cons]
          split <;> omega
      omega
    | wakes h1 h2 h3 h4 =>
      rw [h1]
      have e : phase S s = 1 := by unfold phase; rw [if_pos h2]
      have e' : phase S s' = 0 := by unfold phase; rw [if_neg h3, if_pos h4]
      omega

theorem total_mono {A B : Seen} (h : ∀ f, A f <+: B f) (all : List Nat) : total A all ≤ total B all := by
  induction all with
  | nil => exact Nat.le_refl _
  | cons x all ih =>
    have := (h x).length_le
    simp only [total, List.map_cons, List.sum_cons] at ih ⊢
    omega

/-- **C83**: if one execution comes to an end, all do, after a bounded number of moves. -/
theorem net_all_end (L : Legal S P) (hlow : ∀ p, S.low p = S.cap p) {all : List Nat} (hA : Among S all) {n n' : Nat} {s s' : Net} (h : Run S n s)
    (hs : Stuck S s) (h' : Run S n' s') : n' ≤ (total s.log all + 1) * (all.length + 2) :=
  Nat.le_trans (net_no_spin L hA h') (Nat.mul_le_mul_right _ (Nat.succ_le_succ (total_mono (net_same_end L hlow h hs h').1 all)))

/-! ### Examples -/

/-- Several moves. -/
def moves (S : Setup) : List (Nat × List (Nat × Mask)) → Net → Option Net
  | [], s => some s
  | (k, evs) :: l, s => match move S s k evs with
    | some s' => moves S l s'
    | none => none

theorem moves_run {n : Nat} {s s' : Net} {l : List (Nat × List (Nat × Mask))} (h : Run S n s) (hm : moves S l s = some s') : Run S (n + l.length) s' := by
  induction l generalizing n s with
  | nil => cases hm; exact h
  | cons x l ih =>
    unfold moves at hm
    split at hm
    · next s1 h1 =>
      have := ih (.move x.1 x.2 h h1) hm
      rw [List.length_cons, show n + (l.length + 1) = n + 1 + l.length by omega]
      exact this
    · cases hm

/-- Fiber 1 sends three bytes over a pair of sockets, fiber 2 sends two of them back. -/
def pingProg : Nat → List (List Byte) → Option Op
  | 1, [] => some (.spawn 2)
  | 1, [_] => some (.write 10 [1, 2, 3])
  | 1, [_, _] => some (.read 10 2)
  | 2, [] => some (.read 11 3)
  | 2, [_] => some .pause
  | 2, [d, _] => some (.write 11 (d.drop 1))
  | _, _ => none

def pairs (p : Nat) : Nat := if p = 10 then 11 else if p = 11 then 10 else if p = 12 then 13 else if p = 13 then 12 else p

def ping : Setup := ⟨⟨fun _ => 0, fun _ => false⟩, 1, 9, pingProg, pairs, fun _ => 2, fun _ => 2⟩

def pingPlan : Plan := ⟨fun p => if p = 10 then 1 else 2, fun p => if p = 10 then 1 else 2, fun _ => (1, 0)⟩

theorem pairs_pairs (p : Nat) : pairs (pairs p) = p := by
  unfold pairs
  by_cases h1 : p = 10
  · simp [h1]
  · by_cases h2 : p = 11
    · simp [h2]
    · by_cases h3 : p = 12
      · simp [h3]
      · by_cases h4 : p = 13 <;> simp [h1, h2, h3, h4]

theorem ping_legal : Legal ping pingPlan where
  main := by decide
  idle := by decide
  read f h p n := by
    show pingProg f h = _ → _
    unfold pingProg
    split <;> intro h <;> cases h <;> rfl
  write f h p n := by
    show pingProg f h = _ → _
    unfold pingProg
    split <;> intro h <;> cases h <;> rfl
  spawn f h g := by
    show pingProg f h = _ → _
    unfold pingProg
    split <;> intro h <;> cases h
    exact ⟨rfl, by decide, by decide, by decide⟩
  peer := pairs_pairs
  low _ := Nat.le_refl _

theorem ping_among : Among ping [1, 2] where
  nodup := by decide
  main := by decide
  spawn f h g := by
    show pingProg f h = _ → _
    unfold pingProg
    split <;> intro h <;> cases h
    decide

def pingMoves : List (Nat × List (Nat × Mask)) :=
  [(0, []), (2, []), (0, []), (1, []), (1, []), (0, []), (0, [(10, EPOLLOUT)]), (1, []), (0, []), (0, []), (0, [(11, EPOLLIN)]), (1, []), (0, []), (0, []),
   (2, []), (0, []), (0, []), (0, [(10, EPOLLIN)]), (2, []), (0, []), (0, [])]

theorem ping_moves : (moves ping pingMoves (start ping)).map (fun s => (s.sys.cur, s.log 1, s.log 2)) =
    some (9, [.done, .byte 1, .byte 2, .byte 3, .done, .byte 2, .byte 3, .done], [.byte 1, .byte 2, .byte 3, .done, .done, .byte 2, .byte 3, .done]) := by
  decide +kernel

-- an execution in which everything ends: the hypotheses of the theorems above
example : ∃ n s, Run ping n s ∧ Stuck ping s ∧ (∀ f, Live ping s.log f → Ended ping s.log f) ∧
    recv ping pingPlan s.log 10 = [2, 3] ∧ sent ping pingPlan s.log 11 = [1, 2, 3] ∧ total s.log [1, 2] = 16 := by
  have h := ping_moves
  cases hm : moves ping pingMoves (start ping) with
  | none => rw [hm] at h; cases h
  | some s =>
    rw [hm] at h
    simp only [Option.map_some, Option.some.injEq, Prod.mk.injEq] at h
    obtain ⟨h1, h2, h3⟩ := h
    have hr := moves_run (.start (S := ping)) hm
    have hend : ∀ f, Live ping s.log f → Ended ping s.log f := by
      intro f hf
      have := ping_among.live hf
      simp only [List.mem_cons, List.not_mem_nil, or_false] at this
      unfold Ended
      rcases this with rfl | rfl
      · rw [h2]; decide
      · rw [h3]; decide
    refine ⟨_, s, hr, (net_stuck ping_legal hr).2 ⟨h1, fun f hf => .inl (hend f hf)⟩, hend, ?_, ?_, ?_⟩
    · show carried ping 1 .rd 10 (s.log 1) = _
      rw [h2]; decide
    · show carried ping 1 .wr 10 (s.log 1) = _
      rw [h2]; decide
    · simp [total, h2, h3]

/-- Fiber 1 sends three bytes over one pair of sockets, then one over another; fiber 2 takes one of the three, then the last, then the rest. -/
def crossProg : Nat → List (List Byte) → Option Op
  | 1, [] => some (.spawn 2)
  | 1, [_] => some (.write 10 [1, 2, 3])
  | 1, [_, _] => some (.write 12 [4])
  | 2, [] => some (.read 11 1)
  | 2, [_] => some (.read 13 1)
  | 2, [_, _] => some (.read 11 2)
  | _, _ => none

def cross (low : Nat) : Setup := ⟨⟨fun _ => 0, fun _ => false⟩, 1, 9, crossProg, pairs, fun _ => 2, fun _ => low⟩

def crossPlan : Plan := ⟨fun _ => 2, fun _ => 1, fun _ => (1, 0)⟩

theorem cross_legal {low : Nat} (h : low ≤ 2) : Legal (cross low) crossPlan where
  main := by show (1 : Nat) ≠ 0 ∧ (1 : Nat) ≠ 9; decide
  idle := by show (9 : Nat) ≠ 0; decide
  read f h p n := by
    show crossProg f h = _ → _
    unfold crossProg
    split <;> intro h <;> cases h <;> rfl
  write f h p n := by
    show crossProg f h = _ → _
    unfold crossProg
    split <;> intro h <;> cases h <;> rfl
  spawn f h g := by
    show crossProg f h = _ → _
    unfold crossProg
    split <;> intro h <;> cases h
    exact ⟨rfl, by show (2 : Nat) ≠ 1; decide, by show (2 : Nat) ≠ 9; decide, by decide⟩
  peer := pairs_pairs
  low _ := h

theorem cross_live {low : Nat} {A : Seen} {f : Nat} (h : Live (cross low) A f) : f = 1 ∨ f = 2 := by
  rcases h with h | ⟨g, i, -, h⟩
  · exact .inl h
  · right
    revert h
    show crossProg g _ = _ → _
    unfold crossProg
    split <;> intro h <;> cases h
    rfl

/-- That sockets with room are reported writable is needed: with a kernel that does so only below half of the buffer, the same programs that
come to their end otherwise wait for ever, one for a socket that has room. -/
theorem net_threshold_needed :
    (∃ n s, Run (cross 1) n s ∧ Stuck (cross 1) s ∧ Live (cross 1) s.log 1 ∧ Waits (cross 1) s.log 1 .wr 10 ∧ (s.buf 11).length < 2) ∧
    (∃ n s, Run (cross 2) n s ∧ Stuck (cross 2) s ∧ ∀ f, Live (cross 2) s.log f → Ended (cross 2) s.log f) := by
  constructor
  · have h : (moves (cross 1) [(0, []), (2, []), (0, []), (1, []), (0, []), (0, [])] (start (cross 1))).map (fun s => (s.sys.cur, s.log 1, s.log 2, s.buf 11, s.buf 13)) =
        some (9, [.done, .byte 1, .byte 2], [.byte 1, .done], [2], []) := by decide +kernel
    cases hm : moves (cross 1) [(0, []), (2, []), (0, []), (1, []), (0, []), (0, [])] (start (cross 1)) with
    | none => rw [hm] at h; cases h
    | some s =>
      rw [hm] at h
      simp only [Option.map_some, Option.some.injEq, Prod.mk.injEq] at h
      obtain ⟨h1, h2, h3, h4, h5⟩ := h
      have hr := moves_run (.start (S := cross 1)) hm
      have w1 : Waits (cross 1) s.log 1 .wr 10 := ⟨[1, 2, 3], by rw [h2]; decide, by rw [h2]; decide⟩
      refine ⟨_, s, hr, (net_stuck (cross_legal (by decide)) hr).2 ⟨h1, fun f hf => .inr ?_⟩, .inl rfl, w1, by rw [h4]; decide⟩
      rcases cross_live hf with rfl | rfl
      · refine ⟨.wr, 10, w1, ?_⟩
        show ¬ (s.buf 11).length < 1
        rw [h4]; decide
      · refine ⟨.rd, 13, ⟨1, by rw [h3]; decide, by rw [h3]; decide⟩, ?_⟩
        show ¬ s.buf 13 ≠ []
        rw [h5]; decide
  · have h : (moves (cross 2) [(0, []), (2, []), (0, []), (1, []), (0, []), (0, []), (0, [(10, EPOLLOUT)]), (1, []), (0, []), (1, []), (0, []), (0, []),
          (0, [(13, EPOLLIN)]), (1, []), (0, []), (2, []), (0, []), (0, [])] (start (cross 2))).map (fun s => (s.sys.cur, s.log 1, s.log 2)) =
        some (9, [.done, .byte 1, .byte 2, .byte 3, .done, .byte 4, .done], [.byte 1, .done, .byte 4, .done, .byte 2, .byte 3, .done]) := by decide +kernel
    generalize hl : ([(0, []), (2, []), (0, []), (1, []), (0, []), (0, []), (0, [(10, EPOLLOUT)]), (1, []), (0, []), (1, []), (0, []), (0, []),
          (0, [(13, EPOLLIN)]), (1, []), (0, []), (2, []), (0, []), (0, [])] : List (Nat × List (Nat × Mask))) = l at h
    cases hm : moves (cross 2) l (start (cross 2)) with
    | none => rw [hm] at h; cases h
    | some s =>
      rw [hm] at h
      simp only [Option.map_some, Option.some.injEq, Prod.mk.injEq] at h
      obtain ⟨h1, h2, h3⟩ := h
      have hr := moves_run (.start (S := cross 2)) hm
      have hend : ∀ f, Live (cross 2) s.log f → Ended (cross 2) s.log f := by
        intro f hf
        unfold Ended
        rcases cross_live hf with rfl | rfl
        · rw [h2]; decide
        · rw [h3]; decide
      exact ⟨_, s, hr, (net_stuck (cross_legal (by decide)) hr).2 ⟨h1, fun f hf => .inl (hend f hf)⟩, hend⟩

end Rcpr.Net
