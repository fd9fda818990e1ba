import Verif.NetKahn

/-! Fibers over sockets: the scheduler does what the programs ask, and nothing else (lemmas). -/
namespace Rcpr.Net

open Rcpr Epoll Io

variable {S : Setup} {P : Plan}

/-! ### Bytes -/

theorem carried_push (S : Setup) (A : Seen) (f g : Nat) (sd : Side) (p : Nat) (b : Byte) : carried S g sd p (push A f [.byte b] g) =
    if g = f ∧ Op.on sd p (S.prog f (results (A f))) = true then carried S g sd p (A g) ++ [b] else carried S g sd p (A g) := by
  unfold push
  by_cases h : g = f
  · subst h
    simp only [if_true, true_and]
    exact carried_byte S g sd p (A g) b
  · simp [h]

theorem carried_push_done (S : Setup) (A : Seen) (f g : Nat) (sd : Side) (p : Nat) : carried S g sd p (push A f [.done] g) = carried S g sd p (A g) := by
  unfold push
  split
  · exact carried_done S g sd p (A g)
  · rfl

/-- What was written and not yet read is in the buffer, in order. -/
structure Pipes (S : Setup) (P : Plan) (A : Seen) (buf : Nat → List Byte) : Prop where
  fifo : ∀ p, recv S P A p ++ buf p = sent S P A p
  cap : ∀ p, (buf p).length ≤ S.cap p

def upd (buf : Nat → List Byte) (p : Nat) (d : List Byte) : Nat → List Byte := fun q => if q = p then d else buf q

theorem push_push (A : Seen) (f : Nat) (l l' : List Atom) : push (push A f l) f l' = push A f (l ++ l') := by
  funext g
  unfold push
  split <;> simp

theorem push_nil (A : Seen) (f : Nat) : push A f [] = A := by
  funext g
  unfold push
  split <;> simp

theorem push_same (A : Seen) (f : Nat) (l : List Atom) : push A f l f = A f ++ l := if_pos rfl

theorem push_ne (A : Seen) {f g : Nat} (l : List Atom) (h : g ≠ f) : push A f l g = A g := if_neg h

theorem upd_upd (buf : Nat → List Byte) (p : Nat) (d d' : List Byte) : upd (upd buf p d) p d' = upd buf p d' := by
  funext g
  unfold upd
  split <;> rfl

theorem upd_same (buf : Nat → List Byte) (p : Nat) (d : List Byte) : upd buf p d p = d := if_pos rfl

theorem upd_ne (buf : Nat → List Byte) {p q : Nat} (d : List Byte) (h : q ≠ p) : upd buf p d q = buf q := if_neg h

theorem upd_self (buf : Nat → List Byte) (p : Nat) : upd buf p (buf p) = buf := by
  funext g
  unfold upd
  split
  · next h => rw [h]
  · rfl

theorem results_bytes (l : List Atom) (d : List Byte) : results (l ++ d.map .byte) = results l ∧ part (l ++ d.map .byte) = part l ++ d := by
  induction d generalizing l with
  | nil => simp
  | cons b d ih =>
    have := ih (l ++ [.byte b])
    rw [results_byte, part_byte] at this
    simpa using this

/-- A byte is read. -/
theorem read_one (L : Legal S P) {A : Seen} {buf : Nat → List Byte} (hs : Sees S P A) (hp : Pipes S P A buf) {f p n : Nat} {b : Byte} {t : List Byte}
    (hl : Live S A f) (ho : S.prog f (results (A f)) = some (.read p n)) (hn : (part (A f)).length < n) (hb : buf p = b :: t) :
    Sees S P (push A f [.byte b]) ∧ Pipes S P (push A f [.byte b]) (upd buf p t) := by
  have hr := L.read f _ p n ho
  refine ⟨.snoc f _ hs ⟨hl, ?_⟩, fun q => ?_, fun q => ?_⟩
  · rw [ho]
    simp only [offers, if_pos hn]
    refine ⟨b, rfl, ?_⟩
    rw [← hp.fifo p, hb]
    simp
  · have := hp.fifo q
    unfold recv sent at this ⊢
    rw [carried_push, carried_push, ho]
    rw [if_neg (c := P.wtr (S.peer q) = f ∧ _) (by simp [Op.on])]
    by_cases hq : q = p
    · subst hq
      rw [if_pos ⟨hr, by simp [Op.on]⟩, upd_same]
      rw [hb] at this
      simpa using this
    · rw [if_neg (by simp [Op.on, Ne.symm hq]), upd_ne _ _ hq]
      exact this
  · have := hp.cap q
    unfold upd
    split
    · next h => rw [h, hb] at this; rw [h]; simp at this; omega
    · exact this

theorem read_many (L : Legal S P) : ∀ (k : Nat) {A : Seen} {buf : Nat → List Byte}, Sees S P A → Pipes S P A buf → ∀ {f p n : Nat},
    Live S A f → S.prog f (results (A f)) = some (.read p n) → (part (A f)).length + k ≤ n → k ≤ (buf p).length →
    Sees S P (push A f (((buf p).take k).map .byte)) ∧ Pipes S P (push A f (((buf p).take k).map .byte)) (upd buf p ((buf p).drop k))
  | 0, A, buf, hs, hp, f, p, n, _, _, _, _ => by
    simp only [List.take_zero, List.map_nil, List.drop_zero, push_nil, upd_self]
    exact ⟨hs, hp⟩
  | k + 1, A, buf, hs, hp, f, p, n, hl, ho, hn, hk => by
    cases hb : buf p with
    | nil => rw [hb] at hk; simp at hk
    | cons b t =>
      obtain ⟨h1, h2⟩ := read_one L hs hp hl ho (by omega) hb
      have := read_many L k h1 h2 (f := f) (p := p) (n := n) (hl.mono (push_le A f _)) (by rw [push_same, results_byte]; exact ho)
        (by rw [push_same, part_byte]; simp; omega) (by rw [upd_same]; rw [hb] at hk; simp at hk; exact hk)
      rw [upd_same, push_push, upd_upd] at this
      exact this

/-- A byte is written. -/
theorem write_one (L : Legal S P) {A : Seen} {buf : Nat → List Byte} (hs : Sees S P A) (hp : Pipes S P A buf) {f p : Nat} {d : List Byte} {b : Byte}
    (hl : Live S A f) (ho : S.prog f (results (A f)) = some (.write p d)) (hb : d[(part (A f)).length]? = some b)
    (hc : (buf (S.peer p)).length < S.cap (S.peer p)) :
    Sees S P (push A f [.byte b]) ∧ Pipes S P (push A f [.byte b]) (upd buf (S.peer p) (buf (S.peer p) ++ [b])) := by
  have hr := L.write f _ p d ho
  have hn : (part (A f)).length < d.length := (List.getElem?_eq_some_iff.1 hb).1
  refine ⟨.snoc f _ hs ⟨hl, ?_⟩, fun q => ?_, fun q => ?_⟩
  · rw [ho]
    simp only [offers, if_pos hn]
    refine ⟨b, rfl, hb, ?_⟩
    rw [← hp.fifo, List.length_append]
    omega
  · have := hp.fifo q
    unfold recv sent at this ⊢
    rw [carried_push, carried_push, ho]
    rw [if_neg (c := P.rdr q = f ∧ _) (by simp [Op.on])]
    by_cases hq : q = S.peer p
    · subst hq
      rw [L.peer] at this ⊢
      rw [if_pos ⟨hr, by simp [Op.on]⟩, upd_same, ← List.append_assoc, this]
    · have : p ≠ S.peer q := fun h => hq (by rw [h, L.peer])
      rw [if_neg (by simp [Op.on, this]), upd_ne _ _ hq]
      assumption
  · have := hp.cap q
    unfold upd
    split
    · next h => rw [h]; simp; omega
    · exact this

theorem write_many (L : Legal S P) : ∀ (k : Nat) {A : Seen} {buf : Nat → List Byte}, Sees S P A → Pipes S P A buf → ∀ {f p : Nat} {d : List Byte},
    Live S A f → S.prog f (results (A f)) = some (.write p d) → (part (A f)).length + k ≤ d.length → (buf (S.peer p)).length + k ≤ S.cap (S.peer p) →
    Sees S P (push A f (((d.drop (part (A f)).length).take k).map .byte)) ∧ Pipes S P (push A f (((d.drop (part (A f)).length).take k).map .byte))
      (upd buf (S.peer p) (buf (S.peer p) ++ (d.drop (part (A f)).length).take k))
  | 0, A, buf, hs, hp, f, p, d, _, _, _, _ => by
    simp only [List.take_zero, List.map_nil, List.append_nil, push_nil, upd_self]
    exact ⟨hs, hp⟩
  | k + 1, A, buf, hs, hp, f, p, d, hl, ho, hn, hk => by
    have hi : (part (A f)).length < d.length := by omega
    obtain ⟨h1, h2⟩ := write_one L hs hp hl ho (List.getElem?_eq_getElem hi) (by omega)
    have := write_many L k h1 h2 (f := f) (p := p) (d := d) (hl.mono (push_le A f _)) (by rw [push_same, results_byte]; exact ho)
      (by rw [push_same, part_byte]; simp; omega) (by rw [upd_same]; simp; omega)
    rw [upd_same, push_push, upd_upd, push_same, part_byte, List.length_append, List.length_singleton] at this
    have e : (d.drop (part (A f)).length).take (k + 1) = d[(part (A f)).length] :: (d.drop ((part (A f)).length + 1)).take k := by
      rw [List.drop_eq_getElem_cons hi]; rfl
    rw [e]
    simpa using this

/-- A call returns. -/
theorem done_one {A : Seen} {buf : Nat → List Byte} (hs : Sees S P A) (hp : Pipes S P A buf) {f : Nat} (hm : May S P A f .done) :
    Sees S P (push A f [.done]) ∧ Pipes S P (push A f [.done]) buf := by
  refine ⟨.snoc f _ hs hm, fun q => ?_, hp.cap⟩
  have := hp.fifo q
  unfold recv sent at this ⊢
  rw [carried_push_done, carried_push_done]
  exact this

theorem live_bytes {A : Seen} {f g : Nat} {d : List Byte} (h : Live S (push A f (d.map .byte)) g) : Live S A g := by
  refine h.imp id fun ⟨x, i, h1, h2⟩ => ⟨x, i, ?_⟩
  by_cases hx : x = f
  · subst hx
    rw [push_same, (results_bytes _ _).1] at h1 h2
    exact ⟨h1, h2⟩
  · rw [push_ne _ _ hx] at h1 h2
    exact ⟨h1, h2⟩

theorem live_done {A : Seen} {f g : Nat} : Live S (push A f [.done]) g ↔ Live S A g ∨ S.prog f (results (A f)) = some (.spawn g) := by
  constructor
  · rintro (h | ⟨x, i, h1, h2⟩)
    · exact .inl (.inl h)
    · by_cases hx : x = f
      · subst hx
        rw [push_same, results_done] at h1 h2
        rw [List.length_append, List.length_singleton] at h1
        rw [List.take_append_of_le_length (by omega)] at h2
        by_cases hi : i < (results (A x)).length
        · exact .inl (.inr ⟨x, i, hi, h2⟩)
        · rw [List.take_of_length_le (by omega)] at h2
          exact .inr h2
      · rw [push_ne _ _ hx] at h1 h2
        exact .inl (.inr ⟨x, i, h1, h2⟩)
  · rintro (h | h)
    · exact h.mono (push_le A f _)
    · refine .inr ⟨f, (results (A f)).length, ?_, ?_⟩
      · rw [push_same, results_done]; simp
      · rw [push_same, results_done, List.take_left]; exact h

/-- A fiber is added once. -/
theorem fresh (L : Legal S P) {A : Seen} {f g : Nat} (h : S.prog f (results (A f)) = some (.spawn g)) : ¬ Live S A g := by
  obtain ⟨h1, h2, -⟩ := L.spawn f _ g h
  rintro (h3 | ⟨x, i, h3, h4⟩)
  · exact h2 h3
  · obtain ⟨h5, -⟩ := L.spawn x _ g h4
    rw [h1] at h5
    injection h5 with h5 h6
    subst h5
    rw [List.length_take] at h6
    omega

/-! ### The scheduler -/

/-- The socket can be read from, or written to. -/
def Ready (S : Setup) (buf : Nat → List Byte) : Side → Nat → Prop
  | .rd, p => buf p ≠ []
  | .wr, p => (buf (S.peer p)).length < S.cap (S.peer p)

theorem Waits.one (L : Legal S P) {A B : Seen} {f g : Nat} {sd : Side} {p : Nat} (h : Waits S A f sd p) (h' : Waits S B g sd p) : f = g := by
  cases sd with
  | rd =>
    obtain ⟨n, h, -⟩ := h
    obtain ⟨n', h', -⟩ := h'
    exact (L.read _ _ _ _ h).symm.trans (L.read _ _ _ _ h')
  | wr =>
    obtain ⟨n, h, -⟩ := h
    obtain ⟨n', h', -⟩ := h'
    exact (L.write _ _ _ _ h).symm.trans (L.write _ _ _ _ h')

/-- The call a fiber that does not run is inside of. -/
def Inside (S : Setup) (A : Seen) (act : List Nat) (f : Nat) : Call → Prop
  | .run => f ∈ act
  | .add _ => f ∈ act
  | .block sd p => Waits S A f sd p
  | .stop => f ∉ act ∧ S.prog f (results (A f)) = none
  | _ => False

/-- `act` are the fibers, other than the idle one, that run or are about to, `lv` those that were added. -/
structure Core (S : Setup) (w : Io.Sys) (buf : Nat → List Byte) (A : Seen) (lv : Nat → Prop) (act : List Nat) : Prop where
  idle : w.idle = S.idle
  todo : w.todo = none
  nodup : act.Nodup
  live : ∀ f ∈ act, f ≠ S.idle ∧ lv f
  ev : ∀ f ∈ act, ∀ sd p, w.call f = some (.block sd p) → (w.ev f).disc = .psock ∧ Ready S buf sd p ∧ (w.io.socks p).reg sd = 0
  call : ∀ f c, w.call f = some c → (f = S.idle ∧ ∃ evs, c = .poll evs) ∨ (f ≠ S.idle ∧ lv f ∧ Inside S A act f c)
  rest : ∀ f, lv f → f ∉ act → w.call f = some .stop ∨ ∃ sd p, w.call f = some (.block sd p)
  armed : ∀ p m sd, w.io.armed p = some m → has m sd.bit = true → (w.io.socks p).reg sd ≠ 0

def acts (w : Io.Sys) : List Nat := if w.cur = w.idle then [] else w.cur :: w.runq

/-- The running fiber saw something, and buffers changed. -/
theorem Core.push {w : Io.Sys} {buf buf' : Nat → List Byte} {A : Seen} {lv : Nat → Prop} {act : List Nat} (k : Core S w buf A lv act) {f : Nat}
    (hc : w.call f = none) (l : List Atom) (hr : ∀ g sd p, g ≠ f → Waits S A g sd p → Ready S buf sd p → Ready S buf' sd p) :
    Core S w buf' (push A f l) lv act where
  idle := k.idle
  todo := k.todo
  nodup := k.nodup
  live := k.live
  ev g hg sd p h := by
    obtain ⟨h1, h2, h3⟩ := k.ev g hg sd p h
    have hne : g ≠ f := fun e => by rw [e, hc] at h; cases h
    rcases k.call g _ h with ⟨-, _, h4⟩ | ⟨-, -, h4⟩
    · cases h4
    · exact ⟨h1, hr g sd p hne h4 h2, h3⟩
  call g c h := by
    have hne : g ≠ f := fun e => by rw [e, hc] at h; cases h
    refine (k.call g c h).imp id fun ⟨h1, h2, h3⟩ => ⟨h1, h2, ?_⟩
    cases c with
    | block sd p =>
      have h3 : Waits S A g sd p := h3
      show Waits S _ g sd p
      cases sd <;> (unfold Waits at h3 ⊢; rw [push_ne _ _ hne]; exact h3)
    | stop =>
      show _ ∧ _
      rw [push_ne _ _ hne]
      exact h3
    | _ => exact h3
  rest := k.rest
  armed := k.armed

/-- The running fiber ends, or waits. -/
theorem Core.leaves {w w1 : Io.Sys} {buf : Nat → List Byte} {A : Seen} {lv : Nat → Prop} {q : List Nat} {c : Call} (k : Core S w buf A lv (w.cur :: q))
    (hi : w1.idle = w.idle) (ht : w1.todo = none) (hcall : w1.call = w.call) (hev : w1.ev = w.ev)
    (hreg : ∀ f ∈ q, ∀ sd p, w.call f = some (.block sd p) → (w1.io.socks p).reg sd = 0)
    (harm : ∀ p m sd, w1.io.armed p = some m → has m sd.bit = true → (w1.io.socks p).reg sd ≠ 0)
    (hc : c = .stop ∧ S.prog w.cur (results (A w.cur)) = none ∨ ∃ sd p, c = .block sd p ∧ Waits S A w.cur sd p) :
    Core S (setCall w1 w.cur c) buf A lv q where
  idle := hi.trans k.idle
  todo := ht
  nodup := (List.nodup_cons.1 k.nodup).2
  live f hf := k.live f (List.mem_cons_of_mem _ hf)
  ev f hf sd p h := by
    have hne : f ≠ w.cur := fun e => (List.nodup_cons.1 k.nodup).1 (e ▸ hf)
    change (if f = w.cur then some c else w1.call f) = _ at h
    rw [if_neg hne, hcall] at h
    obtain ⟨h1, h2, h3⟩ := k.ev f (List.mem_cons_of_mem _ hf) sd p h
    exact ⟨by show (w1.ev f).disc = _; rw [hev]; exact h1, h2, hreg f hf sd p h⟩
  call f d h := by
    change (if f = w.cur then some c else w1.call f) = _ at h
    split at h
    · next hf =>
      cases h
      subst hf
      have := k.live w.cur (List.mem_cons_self ..)
      refine .inr ⟨this.1, this.2, ?_⟩
      rcases hc with ⟨rfl, hc⟩ | ⟨sd, p, rfl, hc⟩
      · exact ⟨(List.nodup_cons.1 k.nodup).1, hc⟩
      · exact hc
    · next hf =>
      rw [hcall] at h
      refine (k.call f d h).imp id fun ⟨h1, h2, h3⟩ => ⟨h1, h2, ?_⟩
      cases d with
      | run => exact (List.mem_cons.1 h3).resolve_left hf
      | add g => exact (List.mem_cons.1 h3).resolve_left hf
      | stop => exact ⟨fun h4 => h3.1 (List.mem_cons_of_mem _ h4), h3.2⟩
      | _ => exact h3
  rest f hl hf := by
    show (if f = w.cur then some c else w1.call f) = _ ∨ ∃ sd p, (if f = w.cur then some c else w1.call f) = _
    split
    · rcases hc with ⟨rfl, -⟩ | ⟨sd, p, rfl, -⟩
      · exact .inl rfl
      · exact .inr ⟨sd, p, rfl⟩
    · next hne =>
      rw [hcall]
      exact k.rest f hl fun h => (List.mem_cons.1 h).elim hne hf
  armed := harm

/-- The running fiber yields and will run again; perhaps it adds a fiber. -/
theorem Core.yields {w w1 : Io.Sys} {buf : Nat → List Byte} {A : Seen} {lv lv' : Nat → Prop} {q q' : List Nat} {c : Call} (k : Core S w buf A lv (w.cur :: q))
    (hi : w1.idle = w.idle) (ht : w1.todo = none) (hcall : w1.call = w.call) (hio : w1.io = w.io) (hev : ∀ f, f ∈ q → w1.ev f = w.ev f)
    (hnd : q'.Nodup) (hlv : ∀ f, lv' f ↔ lv f ∨ (f ∈ q' ∧ f ≠ S.idle ∧ w.call f = none)) (hq : ∀ f, f ∈ q' ↔ f = w.cur ∨ f ∈ q ∨ (f ∈ q' ∧ f ≠ S.idle ∧ w.call f = none ∧ ¬ lv f))
    (hc : c = .run ∨ ∃ g, c = .add g) :
    Core S (setCall w1 w.cur c) buf A lv' q' where
  idle := hi.trans k.idle
  todo := ht
  nodup := hnd
  live f hf := by
    rcases (hq f).1 hf with h | h | ⟨-, h, h', -⟩
    · have := k.live f (h ▸ List.mem_cons_self ..)
      exact ⟨this.1, (hlv f).2 (.inl this.2)⟩
    · have := k.live f (List.mem_cons_of_mem _ h)
      exact ⟨this.1, (hlv f).2 (.inl this.2)⟩
    · exact ⟨h, (hlv f).2 (.inr ⟨hf, h, h'⟩)⟩
  ev f hf sd p h := by
    change (if f = w.cur then some c else w1.call f) = _ at h
    split at h
    · cases h
      rcases hc with hc | ⟨_, hc⟩ <;> cases hc
    · next hne =>
      rw [hcall] at h
      rcases (hq f).1 hf with h1 | h1 | ⟨-, -, h1, -⟩
      · exact absurd h1 hne
      · have := k.ev f (List.mem_cons_of_mem _ h1) sd p h
        show (w1.ev f).disc = _ ∧ _ ∧ (w1.io.socks p).reg sd = 0
        rw [hev f h1, hio]
        exact this
      · rw [h1] at h; cases h
  call f d h := by
    change (if f = w.cur then some c else w1.call f) = _ at h
    have hcur : w.cur ∈ q' := (hq _).2 (.inl rfl)
    split at h
    · next hf =>
      cases h
      subst hf
      have := k.live w.cur (List.mem_cons_self ..)
      refine .inr ⟨this.1, (hlv _).2 (.inl this.2), ?_⟩
      rcases hc with rfl | ⟨g, rfl⟩ <;> exact hcur
    · next hf =>
      rw [hcall] at h
      refine (k.call f d h).imp id fun ⟨h1, h2, h3⟩ => ⟨h1, (hlv f).2 (.inl h2), ?_⟩
      cases d with
      | run => exact (hq f).2 (.inr (.inl ((List.mem_cons.1 h3).resolve_left hf)))
      | add g => exact (hq f).2 (.inr (.inl ((List.mem_cons.1 h3).resolve_left hf)))
      | stop =>
        refine ⟨fun h4 => ?_, h3.2⟩
        rcases (hq f).1 h4 with h5 | h5 | ⟨-, -, h5, -⟩
        · exact hf h5
        · exact h3.1 (List.mem_cons_of_mem _ h5)
        · rw [h5] at h; cases h
      | _ => exact h3
  rest f hl hf := by
    have hne : f ≠ w.cur := fun h => hf ((hq f).2 (.inl h))
    show (if f = w.cur then some c else w1.call f) = _ ∨ ∃ sd p, (if f = w.cur then some c else w1.call f) = _
    rw [if_neg hne, hcall]
    rcases (hlv f).1 hl with h | h
    · exact k.rest f h fun h' => (List.mem_cons.1 h').elim hne fun h'' => hf ((hq f).2 (.inr (.inl h'')))
    · exact absurd h.1 hf
  armed := by
    show ∀ p m sd, w1.io.armed p = some m → has m sd.bit = true → (w1.io.socks p).reg sd ≠ 0
    rw [hio]
    exact k.armed

/-- The next fiber runs. -/
theorem Core.land {cfg : Cfg} {w w1 : Io.Sys} {buf : Nat → List Byte} {A : Seen} {lv : Nat → Prop} {c : Call} (hb : busy { w with todo := none } c = false)
    (hh : handler { w with todo := none } c plenty = (w1, SUCCESS)) (k : Core S (setCall w1 w.cur c) buf A lv w1.runq) (hz : S.idle ≠ 0) :
    Core S (Io.step cfg w c plenty).1 buf A lv (acts (Io.step cfg w c plenty).1) ∧ errs (Io.step cfg w c plenty).2 = false ∧
    acts (Io.step cfg w c plenty).1 = w1.runq ∧
    ((Io.step cfg w c plenty).1.cur = S.idle ↔ w1.runq = []) := by
  have hidle : w1.idle = S.idle := k.idle
  unfold Io.step
  simp only [hb, hh]
  rw [if_neg (by simp), if_neg (by simp)]
  cases hq : w1.runq with
  | cons f q =>
    simp only
    have hf := k.live f (hq ▸ List.mem_cons_self ..)
    have base : ∀ (w2 : Io.Sys), w2.idle = w1.idle → w2.todo = w1.todo → w2.cur = f → w2.runq = q → w2.ev = (fun g => if g = f then w1.ev f else w1.ev g) →
        w2.call = (fun g => if g = f then none else (setCall w1 w.cur c).call g) →
        (w2.io = w1.io ∨ ∃ sd p, (setCall w1 w.cur c).call f = some (.block sd p) ∧ w2.io = Epoll.resume w1.io ⟨f, p, sd⟩) →
        Core S w2 buf A lv (acts w2) ∧ acts w2 = f :: q ∧ (w2.cur = S.idle ↔ f :: q = []) := by
      intro w2 h1 h2 h3 h4 h5 h6 h7
      have ha : acts w2 = f :: q := by
        unfold acts
        rw [h3, h4, h1, hidle, if_neg hf.1]
      have hc : ∀ g d, w2.call g = some d → g ≠ f ∧ (setCall w1 w.cur c).call g = some d := by
        intro g d h
        rw [h6] at h
        simp only at h
        split at h
        · cases h
        · next hg => exact ⟨hg, h⟩
      have hreg : w2.io.armed = w1.io.armed ∧ ∀ p sd, (w2.io.socks p).reg sd = (w1.io.socks p).reg sd := by
        rcases h7 with h7 | ⟨sd, p, h7, h8⟩
        · rw [h7]; exact ⟨rfl, fun _ _ => rfl⟩
        · rw [h8]
          refine ⟨(resume_reg w1.io ⟨f, p, sd⟩ 0 .rd).2, fun p' sd' => ?_⟩
          rw [resume_reg']
          split
          · next h9 =>
            obtain ⟨rfl, rfl⟩ := h9
            exact (k.ev f (hq ▸ List.mem_cons_self ..) _ _ h7).2.2.symm
          · rfl
      refine ⟨?_, ha, ?_⟩
      · rw [ha, ← hq]
        refine ⟨h1.trans hidle, h2.trans k.todo, k.nodup, k.live, fun g hg sd p h => ?_, fun g d h => k.call g d (hc g d h).2, fun g hl hg => ?_, ?_⟩
        · obtain ⟨hne, h⟩ := hc g _ h
          obtain ⟨e1, e2, e3⟩ := k.ev g hg sd p h
          refine ⟨?_, e2, ?_⟩
          · rw [h5]; simp only [if_neg hne]; exact e1
          · rw [hreg.2]; exact e3
        · have hne : g ≠ f := fun e => hg (by rw [e, hq]; exact List.mem_cons_self ..)
          rw [h6]
          simp only [if_neg hne]
          exact k.rest g hl hg
        · intro p m sd
          rw [hreg.1, hreg.2]
          exact k.armed p m sd
      · rw [h3]; simp [hf.1]
    unfold arrive
    have hev : ∀ g, (if g = f then w1.ev f else w1.ev g) = w1.ev g := fun g => by split <;> simp_all
    cases hd : (setCall w1 w.cur c).call f with
    | none =>
      simp only
      have := base { setEv { setCall w1 w.cur c with runq := q } f (w1.ev f) with cur := f, state := fun g => if g = f then .running else w1.state g }
        rfl rfl rfl rfl rfl (by
          funext g
          show (setCall w1 w.cur c).call g = _
          split
          · next h => rw [h, hd]
          · rfl) (.inl rfl)
      exact ⟨this.1, rfl, this.2⟩
    | some d =>
      simp only
      have hin := (k.call f d hd).resolve_left fun h => hf.1 h.1
      cases d with
      | block sd p =>
        obtain ⟨e1, -⟩ := k.ev f (hq ▸ List.mem_cons_self ..) sd p hd
        have e1 : (w1.ev f).disc = .psock := e1
        simp only [if_pos e1]
        have := base (leave { setEv { setCall w1 w.cur c with runq := q } f (w1.ev f) with cur := f, call := fun g => if g = f then none else (setCall w1 w.cur c).call g } f sd p)
          rfl rfl rfl rfl rfl rfl (.inr ⟨sd, p, hd, rfl⟩)
        exact ⟨this.1, rfl, this.2⟩
      | stop => exact absurd (hq ▸ List.mem_cons_self ..) hin.2.2.1
      | _ =>
        have := base { setEv { setCall w1 w.cur c with runq := q } f (w1.ev f) with cur := f, call := fun g => if g = f then none else (setCall w1 w.cur c).call g }
          rfl rfl rfl rfl rfl rfl (.inl rfl)
        exact ⟨this.1, rfl, this.2⟩
  | nil =>
    simp only
    rw [if_pos (by rw [hidle]; exact hz)]
    rw [hidle]
    have base : ∀ (w2 : Io.Sys), w2.idle = w1.idle → w2.todo = w1.todo → w2.cur = S.idle →
        w2.call = (fun g => if g = S.idle then none else (setCall w1 w.cur c).call g) → w2.io = w1.io →
        Core S w2 buf A lv (acts w2) ∧ acts w2 = [] ∧ (w2.cur = S.idle ↔ ([] : List Nat) = []) := by
      intro w2 h1 h2 h3 h6 h7
      have ha : acts w2 = [] := by
        unfold acts
        rw [h3, h1, hidle, if_pos rfl]
      have hc : ∀ g d, w2.call g = some d → g ≠ S.idle ∧ (setCall w1 w.cur c).call g = some d := by
        intro g d h
        rw [h6] at h
        simp only at h
        split at h
        · cases h
        · next hg => exact ⟨hg, h⟩
      refine ⟨?_, ha, by simp [h3]⟩
      · rw [ha, ← hq]
        refine ⟨h1.trans hidle, h2.trans k.todo, k.nodup, k.live, fun g hg => ?_, fun g d h => k.call g d (hc g d h).2, fun g hl hg => ?_, ?_⟩
        · rw [hq] at hg; cases hg
        · have h := k.rest g hl hg
          have hne : g ≠ S.idle := by
            rintro rfl
            rcases h with h | ⟨sd, p, h⟩ <;> rcases k.call _ _ h with ⟨-, _, h'⟩ | ⟨h', -⟩
            · cases h'
            · exact h' rfl
            · cases h'
            · exact h' rfl
          rw [h6]
          simp only [if_neg hne]
          exact h
        · rw [h7]
          exact k.armed
    unfold arrive
    cases hd : (setCall w1 w.cur c).call S.idle with
    | none =>
      simp only
      have := base { setEv (setCall w1 w.cur c) S.idle ⟨.internal, Fiber.RESUME_IDLE, 0⟩ with cur := S.idle, state := fun g => if g = S.idle then .running else w1.state g }
        rfl rfl rfl (by
          funext g
          show (setCall w1 w.cur c).call g = _
          split
          · next h => rw [h, hd]
          · rfl) rfl
      exact ⟨this.1, rfl, this.2.1, trivial⟩
    | some d =>
      simp only
      rcases k.call _ _ hd with ⟨-, evs, rfl⟩ | ⟨h, -⟩
      · have := base { setEv (setCall w1 w.cur c) S.idle ⟨.internal, Fiber.RESUME_IDLE, 0⟩ with cur := S.idle, call := fun g => if g = S.idle then none else (setCall w1 w.cur c).call g }
          rfl rfl rfl rfl rfl
        exact ⟨this.1, rfl, this.2.1, ⟨fun _ => trivial, fun _ => rfl⟩⟩
      · exact absurd rfl h

end Rcpr.Net
