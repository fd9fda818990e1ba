import Verif.NetTalkProof
import Verif.Props.Net

/-! Lemmas: fibers that make a conversation are always somewhere in it, and come to its end. -/
namespace Rcpr.Net

open Rcpr Psock Epoll Io

variable {S : Setup} {P : Plan}

/-- The call and the bytes belong together. -/
def Fits : Piece → Prop
  | (.read _ n, d) => n = d.length
  | (.write _ d', d) => d' = d
  | (.spawn _, d) => d = []
  | (.pause, d) => d = []

theorem calls_fit (l : List Act) : ∀ c ∈ calls l, Fits c := by
  intro c hc
  obtain ⟨a, -, ha⟩ := List.mem_flatMap.1 hc
  cases a with
  | send p v =>
    obtain ⟨d, -, rfl⟩ := List.mem_map.1 ha
    rfl
  | recv p v =>
    obtain ⟨d, -, rfl⟩ := List.mem_map.1 ha
    rfl
  | add g => cases List.mem_singleton.1 ha; rfl
  | pause => cases List.mem_singleton.1 ha; rfl

/-- Fiber `f` made the first `i` of the calls `l`, and is in the next. -/
structure At (S : Setup) (l : List Piece) (f : Nat) (A : Seen) (i : Nat) : Prop where
  le : i ≤ l.length
  res : results (A f) = (l.take i).map Prod.snd
  part : ∀ c, l[i]? = some c → part (A f) <+: c.2
  rest : l[i]? = none → Net.part (A f) = []
  moved : ∀ sd p, carried S f sd p (A f) = Net.moved sd p (l.take i) ++ if Op.on sd p (l[i]?.map Prod.fst) then Net.part (A f) else []

theorem At.byte {l : List Piece} {f : Nat} {A B : Seen} {i : Nat} (a : At S l f A i) (hp : S.prog f ((l.take i).map Prod.snd) = l[i]?.map Prod.fst)
    {b : Byte} (hb : B f = A f ++ [.byte b]) {c : Piece} (hc : l[i]? = some c) (hpre : Net.part (A f) ++ [b] <+: c.2) : At S l f B i where
  le := a.le
  res := by rw [hb, results_byte, a.res]
  part c' hc' := by
    rw [hc] at hc'
    cases hc'
    rw [hb, part_byte]
    exact hpre
  rest h := by rw [h] at hc; cases hc
  moved sd p := by
    rw [hb, carried_byte, part_byte, a.moved, a.res, hp]
    split
    · rw [List.append_assoc]
    · rfl

theorem At.done {l : List Piece} {f : Nat} {A B : Seen} {i : Nat} (a : At S l f A i)
    (hb : B f = A f ++ [.done]) {c : Piece} (hc : l[i]? = some c) (hall : Net.part (A f) = c.2) : At S l f B (i + 1) := by
  obtain ⟨hi, hc'⟩ := List.getElem?_eq_some_iff.1 hc
  have ht : l.take (i + 1) = l.take i ++ [c] := by rw [List.take_add_one, hc]; rfl
  refine ⟨hi, ?_, fun c' _ => ?_, fun _ => ?_, fun sd p => ?_⟩
  · rw [hb, results_done, ht, List.map_append, a.res, hall]; rfl
  · rw [hb, part_done]; exact List.nil_prefix
  · rw [hb, part_done]
  · rw [hb, carried_done, part_done, a.moved, ht, moved_append, hc, hall]
    simp [Net.moved]

theorem At.other {l : List Piece} {f : Nat} {A B : Seen} {i : Nat} (a : At S l f A i) (h : B f = A f) : At S l f B i := by
  refine ⟨a.le, ?_, ?_, ?_, ?_⟩ <;> rw [h]
  · exact a.res
  · exact a.part
  · exact a.rest
  · exact a.moved

theorem cast_ok {e : Endian} {code : Nat → Sess} {C : List Ev} (K : Cast S P e code C) (f : Nat) : ∀ a ∈ lines S P f C, a.ok := by
  intro a ha
  obtain ⟨x, hx, ha⟩ := List.mem_flatMap.1 ha
  cases x with
  | msg p v =>
    simp only [Ev.part] at ha
    have hv := K.valid p v hx
    split at ha
    · cases List.mem_singleton.1 ha; exact hv
    · split at ha
      · cases List.mem_singleton.1 ha; exact hv
      · cases ha
  | add g h =>
    simp only [Ev.part] at ha
    split at ha
    · cases List.mem_singleton.1 ha; trivial
    · cases ha
  | pause g =>
    simp only [Ev.part] at ha
    split at ha
    · cases List.mem_singleton.1 ha; trivial
    · cases ha

theorem cast_prog {e : Endian} {code : Nat → Sess} {C : List Ev} (K : Cast S P e code C) (f : Nat) {i : Nat} (hi : i ≤ (calls (lines S P f C)).length) :
    S.prog f (((calls (lines S P f C)).take i).map Prod.snd) = (calls (lines S P f C))[i]?.map Prod.fst := by
  rw [K.prog]
  exact prog_at e (K.plays f) (cast_ok K f) i hi

theorem moved_le {sd : Side} {p : Nat} {l : List Piece} {f : Nat} {A : Seen} {i : Nat} (a : At S l f A i) :
    carried S f sd p (A f) <+: moved sd p l := by
  rw [a.moved]
  cases hc : l[i]? with
  | none =>
    have : l.take i = l := List.take_of_length_le (List.getElem?_eq_none_iff.1 hc)
    rw [this]
    simp [Op.on]
  | some c =>
    obtain ⟨hi, hc'⟩ := List.getElem?_eq_some_iff.1 hc
    have ht : l = l.take i ++ (c :: l.drop (i + 1)) := by
      rw [← hc', ← List.drop_eq_getElem_cons hi, List.take_append_drop]
    conv => rhs; rw [ht]
    rw [moved_append]
    apply List.prefix_append_right_inj _ |>.2
    show _ <+: (if Op.on sd p (some c.1) then c.2 else []) ++ moved sd p (l.drop (i + 1))
    rw [Option.map_some]
    split
    · exact (a.part c hc).trans (List.prefix_append _ _)
    · exact List.nil_prefix

/-- The next byte of a read is the next byte of the conversation. -/
theorem next_byte {s r part c t : List Byte} (hr : r = s ++ part) {b : Byte} {w : List Byte} (hw : w <+: s ++ (c ++ t)) (hb : w[r.length]? = some b)
    (hp : part <+: c) (hlt : part.length < c.length) : part ++ [b] <+: c := by
  have h1 : (s ++ (c ++ t))[r.length]? = some b := get_prefix hw hb
  rw [hr, List.length_append, List.getElem?_append_right (Nat.le_add_right _ _), Nat.add_sub_cancel_left, List.getElem?_append_left hlt] at h1
  obtain ⟨u, rfl⟩ := hp
  cases u with
  | nil => simp at hlt
  | cons x u =>
    simp at h1
    subst h1
    exact ⟨u, by simp⟩

theorem prefix_full {a b : List Byte} (h : a <+: b) (hl : ¬ a.length < b.length) : a = b :=
  h.eq_of_length (Nat.le_antisymm h.length_le (Nat.le_of_not_lt hl))

theorem at_all (L : Legal S P) {e : Endian} {code : Nat → Sess} {C : List Ev} (K : Cast S P e code C) {A : Seen} (h : Sees S P A) (f : Nat) :
    ∃ i, At S (calls (lines S P f C)) f A i := by
  induction h generalizing f with
  | nil =>
    refine ⟨0, Nat.zero_le _, rfl, fun _ _ => List.nil_prefix, fun _ => rfl, fun sd p => ?_⟩
    show [] = [] ++ _
    split <;> rfl
  | @snoc A g x h m ih =>
    by_cases hf : f = g
    · subst hf
      obtain ⟨i, a⟩ := ih f
      have hb : push A f [x] f = A f ++ [x] := if_pos rfl
      have hpr := cast_prog K f a.le
      have ho := m.2
      generalize hL : calls (lines S P f C) = l at a hpr
      rw [a.res, hpr] at ho
      cases hc : l[i]? with
      | none => rw [hc] at ho; cases ho
      | some c =>
        have hfit : Fits c := calls_fit _ c (hL ▸ List.mem_of_getElem? hc)
        have hpt := a.part c hc
        obtain ⟨hi, hc'⟩ := List.getElem?_eq_some_iff.1 hc
        have ht : l = l.take i ++ (c :: l.drop (i + 1)) := by
          rw [← hc', ← List.drop_eq_getElem_cons hi, List.take_append_drop]
        rw [hc] at ho
        obtain ⟨op, d⟩ := c
        cases op with
        | read p n =>
          have hn : n = d.length := hfit
          subst hn
          simp only [Option.map_some, offers] at ho
          split at ho
          · next hlt =>
            obtain ⟨b, rfl, hbb⟩ := ho
            refine ⟨i, a.byte hpr hb hc ?_⟩
            have hrd : P.rdr p = f := L.read f _ p _ (by rw [hpr, hc]; rfl)
            obtain ⟨j, w⟩ := ih (P.wtr (S.peer p))
            have hw : sent S P A p <+: spoken (S.peer p) C := by
              unfold sent
              rw [← moved_wr (S.peer p) C K.apart]
              exact moved_le w
            have hr : recv S P A p = moved .rd p (l.take i) ++ part (A f) := by
              unfold recv
              rw [hrd, a.moved, hc]
              simp [Op.on]
            have hall : spoken (S.peer p) C = moved .rd p (l.take i) ++ (d ++ moved .rd p (l.drop (i + 1))) := by
              rw [← moved_rd p C L.peer K.apart, hrd, hL]
              conv => lhs; rw [ht]
              rw [moved_append]
              congr 1
              show (if Op.on .rd p (some (.read p d.length)) then d else []) ++ _ = _
              rw [if_pos (by simp [Op.on])]
              rfl
            rw [hall] at hw
            exact next_byte hr hw hbb hpt hlt
          · next hlt =>
            subst ho
            exact ⟨i + 1, a.done hb hc (prefix_full hpt hlt)⟩
        | write p d' =>
          have hn : d' = d := hfit
          subst hn
          simp only [Option.map_some, offers] at ho
          split at ho
          · next hlt =>
            obtain ⟨b, rfl, hbb, -⟩ := ho
            refine ⟨i, a.byte hpr hb hc ?_⟩
            exact next_byte (s := []) (t := []) (r := part (A f)) rfl (w := d') (by simp) hbb hpt hlt
          · next hlt =>
            subst ho
            exact ⟨i + 1, a.done hb hc (prefix_full hpt hlt)⟩
        | spawn g =>
          have hn : d = [] := hfit
          subst hn
          have ho : x = .done := ho
          subst ho
          exact ⟨i + 1, a.done hb hc (List.prefix_nil.1 hpt)⟩
        | pause =>
          have hn : d = [] := hfit
          subst hn
          have ho : x = .done := ho
          subst ho
          exact ⟨i + 1, a.done hb hc (List.prefix_nil.1 hpt)⟩
    · obtain ⟨i, a⟩ := ih f
      exact ⟨i, a.other (if_neg hf)⟩

/-! ### The end -/

theorem At.index {l : List Piece} {f : Nat} {A : Seen} {i : Nat} (a : At S l f A i) : i = (results (A f)).length := by
  rw [a.res, List.length_map, List.length_take, Nat.min_eq_left a.le]

theorem past_len {X Y Z : List Piece} {f : Nat} {A : Seen} {i : Nat} (a : At S (X ++ (Y ++ Z)) f A i) (h : X.length + Y.length ≤ i) (sd : Side) (p : Nat) :
    (moved sd p X).length + (moved sd p Y).length ≤ (carried S f sd p (A f)).length := by
  have : (X ++ (Y ++ Z)).take i = X ++ (Y ++ Z.take (i - X.length - Y.length)) := by
    rw [take_over _ _ (by omega), take_over _ _ (by omega)]
  rw [a.moved, this, moved_append, moved_append]
  simp only [List.length_append]
  omega

theorem in_len {X Y Z : List Piece} {f : Nat} {A : Seen} {i : Nat} (a : At S (X ++ (Y ++ Z)) f A i) (h : X.length ≤ i) (h' : i < X.length + Y.length)
    {sd : Side} {p : Nat} (hon : ∀ c ∈ Y, Op.on sd p (some c.1) = true) {c : Piece} (hc : (X ++ (Y ++ Z))[i]? = some c)
    (hlt : (Net.part (A f)).length < c.2.length) : (carried S f sd p (A f)).length < (moved sd p X).length + (moved sd p Y).length := by
  have h1 : (X ++ (Y ++ Z)).take i = X ++ Y.take (i - X.length) := by
    rw [take_over _ _ h, List.take_append_of_le_length (by omega)]
  have hm := a.moved sd p
  rw [h1, moved_append, hc, Option.map_some] at hm
  rw [List.getElem?_append_right h, List.getElem?_append_left (by omega)] at hc
  rw [if_pos (hon c (List.mem_of_getElem? hc))] at hm
  obtain ⟨hj, hc'⟩ := List.getElem?_eq_some_iff.1 hc
  have h2 : Y = Y.take (i - X.length) ++ (c :: Y.drop (i - X.length + 1)) := by
    rw [← hc', ← List.drop_eq_getElem_cons hj, List.take_append_drop]
  have h3 : moved sd p Y = moved sd p (Y.take (i - X.length)) ++ (c.2 ++ moved sd p (Y.drop (i - X.length + 1))) := by
    conv => lhs; rw [h2]
    rw [moved_append]
    congr 1
    show (if Op.on sd p (some c.1) then c.2 else []) ++ _ = _
    rw [if_pos (hon c (List.mem_of_getElem? hc))]
    rfl
  rw [hm, h3]
  simp only [List.length_append]
  omega

/-- Where nothing can happen, a fiber that is in a call waits for its socket. -/
theorem wants (L : Legal S P) {e : Endian} {code : Nat → Sess} {C : List Ev} (K : Cast S P e code C) {n : Nat} {s : Net} (h : Run S n s) (hst : Stuck S s)
    {f i : Nat} (a : At S (calls (lines S P f C)) f s.log i) (hl : Live S s.log f) {c : Piece} (hc : (calls (lines S P f C))[i]? = some c) :
    (part (s.log f)).length < c.2.length ∧ ((∃ p n, c.1 = .read p n ∧ s.buf p = []) ∨ (∃ p d, c.1 = .write p d ∧ S.low (S.peer p) ≤ (s.buf (S.peer p)).length)) := by
  have hpr := cast_prog K f a.le
  rw [← a.res, hc] at hpr
  have hfit : Fits c := calls_fit _ c (List.mem_of_getElem? hc)
  rcases ((net_stuck L h).1 hst).2 f hl with h1 | ⟨sd, p, h1, h2⟩
  · have h1 : S.prog _ _ = none := h1
    rw [h1] at hpr
    cases hpr
  · obtain ⟨op, d⟩ := c
    cases sd with
    | rd =>
      obtain ⟨m, h1, h3⟩ := h1
      rw [h1] at hpr
      cases hpr
      have hfit : m = d.length := hfit
      exact ⟨hfit ▸ h3, .inl ⟨p, m, rfl, Classical.byContradiction h2⟩⟩
    | wr =>
      obtain ⟨d', h1, h3⟩ := h1
      rw [h1] at hpr
      cases hpr
      have hfit : d' = d := hfit
      exact ⟨hfit ▸ h3, .inr ⟨p, d', rfl, Nat.le_of_not_lt h2⟩⟩

theorem calls_split (f : Nat) (C₁ C₂ : List Ev) (x : Ev) : calls (lines S P f (C₁ ++ x :: C₂)) =
    calls (lines S P f C₁) ++ (calls (x.part S P f) ++ calls (lines S P f C₂)) := by
  rw [lines_append, lines_cons, calls_append, calls_append]

/-- Where nothing can happen, every fiber is past every part of the conversation. -/
theorem all_past (L : Legal S P) {e : Endian} {code : Nat → Sess} {C : List Ev} (K : Cast S P e code C) (hlow : ∀ p, 0 < S.low p) {n : Nat} {s : Net}
    (h : Run S n s) (hst : Stuck S s) : ∀ (m : Nat) (C₁ C₂ : List Ev), C₁.length = m → C = C₁ ++ C₂ → ∀ f, (calls (lines S P f C₁)).length ≤ (results (s.log f)).length := by
  obtain ⟨tr, g⟩ := h.good L
  intro m
  induction m with
  | zero =>
    intro C₁ C₂ hC1 hC f
    cases List.length_eq_zero_iff.1 hC1
    exact Nat.zero_le _
  | succ m ih =>
    intro D C₂ hD hC
    obtain ⟨C₁, x, rfl⟩ : ∃ C₁ x, D = C₁ ++ [x] := by
      rcases List.eq_nil_or_concat D with rfl | ⟨l, b, rfl⟩
      · simp at hD
      · exact ⟨l, b, by simp⟩
    have hm : C₁.length = m := by simpa using hD
    have hC : C = C₁ ++ x :: C₂ := by rw [hC]; simp
    have ih := ih C₁ (x :: C₂) hm hC
    have hin : ∀ y, y ∈ C₁ → y ∈ C := fun y hy => by rw [hC]; exact List.mem_append_left _ hy
    have live : ∀ f ∈ x.who S P, Live S s.log f := by
      intro f hf
      rcases K.born C₁ x C₂ hC f hf with h1 | ⟨g', h1⟩
      · exact .inl h1
      · refine .inr ⟨g', ?_⟩
        obtain ⟨i, a⟩ := at_all L K g.sees g'
        have h2 : (Op.spawn f, []) ∈ calls (lines S P g' C₁) := by
          refine List.mem_flatMap.2 ⟨.add f, List.mem_flatMap.2 ⟨_, h1, ?_⟩, List.mem_singleton.2 rfl⟩
          simp [Ev.part]
        obtain ⟨k, hk, he⟩ := List.getElem_of_mem h2
        have hi := a.index
        have hk' : k < (results (s.log g')).length := Nat.lt_of_lt_of_le hk (ih g')
        refine ⟨k, hk', ?_⟩
        have hle : k ≤ (calls (lines S P g' C)).length := by have := a.le; omega
        rw [a.res, ← List.map_take, List.take_take, Nat.min_eq_left (by omega), cast_prog K g' hle]
        rw [hC, calls_split, List.getElem?_append_left hk, List.getElem?_eq_getElem hk, he]
        rfl
    -- a fiber that is not past `x` is in one of its calls
    have inside : ∀ f, f ∈ x.who S P → ∃ i, i = (results (s.log f)).length ∧
        At S (calls (lines S P f C₁) ++ (calls (x.part S P f) ++ calls (lines S P f C₂))) f s.log i ∧
        ((calls (lines S P f C₁)).length + (calls (x.part S P f)).length ≤ i ∨
          (calls (lines S P f C₁)).length ≤ i ∧ i < (calls (lines S P f C₁)).length + (calls (x.part S P f)).length ∧
          ∃ c, (calls (lines S P f C₁) ++ (calls (x.part S P f) ++ calls (lines S P f C₂)))[i]? = some c ∧ c ∈ calls (x.part S P f) ∧
            (part (s.log f)).length < c.2.length ∧ ((∃ p n, c.1 = .read p n ∧ s.buf p = []) ∨
              (∃ p d, c.1 = .write p d ∧ S.low (S.peer p) ≤ (s.buf (S.peer p)).length))) := by
      intro f hf
      obtain ⟨i, a⟩ := at_all L K g.sees f
      have hi := a.index
      have h1 := ih f
      have w := @wants S P L e code C K n s h hst f i a (live f hf)
      rw [hC, calls_split] at a w
      refine ⟨i, hi, a, ?_⟩
      by_cases hlt : i < (calls (lines S P f C₁)).length + (calls (x.part S P f)).length
      · refine .inr ⟨by omega, hlt, ?_⟩
        have hle : (calls (lines S P f C₁)).length ≤ i := by omega
        have hj : i - (calls (lines S P f C₁)).length < (calls (x.part S P f)).length := by omega
        have hc : (calls (lines S P f C₁) ++ (calls (x.part S P f) ++ calls (lines S P f C₂)))[i]? =
            some (calls (x.part S P f))[i - (calls (lines S P f C₁)).length] := by
          rw [List.getElem?_append_right hle, List.getElem?_append_left hj, List.getElem?_eq_getElem hj]
        exact ⟨_, hc, List.getElem_mem _, w hc⟩
      · exact .inl (by omega)
    intro f
    rw [lines_append, calls_append, List.length_append, show lines S P f [x] = x.part S P f by simp [lines]]
    by_cases hf : f ∈ x.who S P
    · cases x with
      | add f' g' =>
        cases List.mem_singleton.1 hf
        obtain ⟨i, hi, a, h1 | ⟨-, -, c, -, hc, -, h2⟩⟩ := inside f hf
        · omega
        · rw [show (Ev.add f g').part S P f = [.add g'] by simp [Ev.part], calls_one] at hc
          cases List.mem_singleton.1 hc
          rcases h2 with ⟨_, _, h2, -⟩ | ⟨_, _, h2, -⟩ <;> cases h2
      | pause f' =>
        cases List.mem_singleton.1 hf
        obtain ⟨i, hi, a, h1 | ⟨-, -, c, -, hc, -, h2⟩⟩ := inside f hf
        · omega
        · rw [show (Ev.pause f).part S P f = [.pause] by simp [Ev.part], calls_one] at hc
          cases List.mem_singleton.1 hc
          rcases h2 with ⟨_, _, h2, -⟩ | ⟨_, _, h2, -⟩ <;> cases h2
      | msg p v =>
        have hap : P.wtr p ≠ P.rdr (S.peer p) := K.apart p v (by rw [hC]; simp)
        obtain ⟨i, hi, a, ha⟩ := inside (P.wtr p) (List.mem_cons_self ..)
        obtain ⟨j, hj, b, hb⟩ := inside (P.rdr (S.peer p)) (List.mem_cons_of_mem _ (List.mem_singleton.2 rfl))
        have ew : (Ev.msg p v).part S P (P.wtr p) = [.send p v] := by simp [Ev.part]
        have er : (Ev.msg p v).part S P (P.rdr (S.peer p)) = [.recv (S.peer p) v] := by simp [Ev.part, Ne.symm hap]
        rw [ew] at a ha
        rw [er] at b hb
        have mw : (moved .wr p (calls (lines S P (P.wtr p) C₁))) = spoken p C₁ := moved_wr p C₁ fun q u hq => K.apart q u (hin _ hq)
        have mr : (moved .rd (S.peer p) (calls (lines S P (P.rdr (S.peer p)) C₁))) = spoken p C₁ := by
          rw [moved_rd (S.peer p) C₁ L.peer fun q u hq => K.apart q u (hin _ hq), L.peer]
        have vw : moved .wr p (calls [.send p v]) = encode v := by rw [calls_one, moved_send]; simp
        have vr : moved .rd (S.peer p) (calls [.recv (S.peer p) v]) = encode v := by rw [calls_one, moved_recv]; simp
        have fifo := congrArg List.length (g.pipes.fifo (S.peer p))
        unfold recv sent at fifo
        rw [L.peer, List.length_append] at fifo
        have hl := hlow (S.peer p)
        have onw : ∀ c ∈ calls [.send p v], Op.on .wr p (some c.1) = true := by
          intro c hc
          rw [calls_one] at hc
          obtain ⟨d, -, rfl⟩ := List.mem_map.1 hc
          simp [Op.on]
        have onr : ∀ c ∈ calls [.recv (S.peer p) v], Op.on .rd (S.peer p) (some c.1) = true := by
          intro c hc
          rw [calls_one] at hc
          obtain ⟨d, -, rfl⟩ := List.mem_map.1 hc
          simp [Op.on]
        have key : (calls (lines S P (P.wtr p) C₁)).length + (calls [.send p v]).length ≤ i ∧
            (calls (lines S P (P.rdr (S.peer p)) C₁)).length + (calls [.recv (S.peer p) v]).length ≤ j := by
          rcases ha with ha | ⟨a1, a2, c, hc, hcm, hlt, hw⟩
          · rcases hb with hb | ⟨b1, b2, c, hc, hcm, hlt, hw⟩
            · exact ⟨ha, hb⟩
            · have l1 := past_len a ha .wr p
              have l2 := in_len b b1 b2 onr hc hlt
              rw [mw, vw] at l1
              rw [mr, vr] at l2
              have hbuf : s.buf (S.peer p) = [] := by
                rw [calls_one] at hcm
                obtain ⟨d, -, rfl⟩ := List.mem_map.1 hcm
                rcases hw with ⟨_, _, e1, e2⟩ | ⟨_, _, e1, -⟩
                · cases e1; exact e2
                · cases e1
              rw [hbuf, List.length_nil] at fifo
              omega
          · have hbuf : S.low (S.peer p) ≤ (s.buf (S.peer p)).length := by
              have hcm' := hcm
              rw [calls_one] at hcm'
              obtain ⟨d, -, rfl⟩ := List.mem_map.1 hcm'
              rcases hw with ⟨_, _, e1, e2⟩ | ⟨_, _, e1, e2⟩
              · cases e1
              · cases e1; exact e2
            have l1 := in_len a a1 a2 onw hc hlt
            rw [mw, vw] at l1
            rcases hb with hb | ⟨b1, b2, c', hc', hcm', hlt', hw'⟩
            · have l2 := past_len b hb .rd (S.peer p)
              rw [mr, vr] at l2
              omega
            · have hbuf' : s.buf (S.peer p) = [] := by
                rw [calls_one] at hcm'
                obtain ⟨d, -, rfl⟩ := List.mem_map.1 hcm'
                rcases hw' with ⟨_, _, e1, e2⟩ | ⟨_, _, e1, -⟩
                · cases e1; exact e2
                · cases e1
              rw [hbuf', List.length_nil] at hbuf
              omega
        simp only [Ev.who, List.mem_cons, List.not_mem_nil, or_false] at hf
        rcases hf with rfl | rfl
        · rw [ew]; omega
        · rw [er]; omega
    · have : x.part S P f = [] := by
        cases x with
        | msg p v =>
          simp only [Ev.who, List.mem_cons, List.not_mem_nil, or_false, not_or] at hf
          simp [Ev.part, hf.1, hf.2]
        | add f' g' => simp only [Ev.who, List.mem_singleton] at hf; simp [Ev.part, hf]
        | pause f' => simp only [Ev.who, List.mem_singleton] at hf; simp [Ev.part, hf]
      rw [this]
      exact ih f

end Rcpr.Net
