import Verif.NetTalkRun
import Verif.NetTalkUse

/-! Property C91: fibers that talk in boxed values over async psocks. -/
namespace Rcpr.Net

open Rcpr Psock Epoll Io

variable {S : Setup} {P : Plan} {e : Endian} {code : Nat → Sess} {C : List Ev}

/-- **C91**: in every execution, at any time, what a fiber did and received is what is in the conversation, as far as it got; it got to the end of its part, or it is in
a call that has not returned; no call failed. -/
theorem talk_safe (L : Legal S P) (K : Cast S P e code C) {n : Nat} {s : Net} (h : Run S n s) (f : Nat) :
    ∃ k st m, (code f).run e ⟨results (s.log f), none⟩ = some (k, st, m) ∧ m <+: lines S P f C ∧
      (st = SUCCESS ∧ m = lines S P f C ∧ k.want = none ∨ st = WAITING ∧ k.want ≠ none) := by
  obtain ⟨tr, g⟩ := h.good L
  obtain ⟨i, a⟩ := at_all L K g.sees f
  obtain ⟨k, st, m, h1, h2, h3, h4, h5, h6⟩ := run_at e (K.plays f) (cast_ok K f) i a.le
  rw [← a.res] at h1
  refine ⟨k, st, m, h1, h2, ?_⟩
  rcases h6 with h6 | h6
  · refine .inl ⟨h6, h3 h6, ?_⟩
    rw [h4, h5.1 h6]
    simp
  · refine .inr ⟨h6, ?_⟩
    rw [h4]
    have : i ≠ (calls (lines S P f C)).length := fun h => waiting_ne (h6 ▸ h5.2 h)
    have hlt : i < (calls (lines S P f C)).length := Nat.lt_of_le_of_ne a.le this
    rw [List.getElem?_eq_getElem hlt]
    nofun

/-- **C91**: where nothing can happen any more, every fiber has had all of its part, with success, and nothing is left in the kernel. So no conversation
comes to a halt before its end, whatever the sizes of the buffers. -/
theorem talk_ends (L : Legal S P) (K : Cast S P e code C) (hlow : ∀ p, 0 < S.low p) {n : Nat} {s : Net} (h : Run S n s) (hst : Stuck S s) :
    (∀ f, Ended S s.log f ∧ ∃ k, (code f).run e ⟨results (s.log f), none⟩ = some (k, SUCCESS, lines S P f C)) ∧ ∀ p, s.buf p = [] := by
  obtain ⟨tr, g⟩ := h.good L
  have hpos : ∀ f, At S (calls (lines S P f C)) f s.log (calls (lines S P f C)).length := by
    intro f
    obtain ⟨i, a⟩ := at_all L K g.sees f
    have h1 := all_past L K hlow h hst C.length C [] rfl (by simp) f
    have h2 := a.index
    have h3 := a.le
    have : i = (calls (lines S P f C)).length := by omega
    exact this ▸ a
  refine ⟨fun f => ⟨?_, ?_⟩, fun p => ?_⟩
  · have a := hpos f
    unfold Ended
    rw [a.res, cast_prog K f a.le]
    simp
  · have a := hpos f
    obtain ⟨k, st, m, h1, -, h3, -, h5, -⟩ := run_at e (K.plays f) (cast_ok K f) _ a.le
    rw [← a.res] at h1
    have := h5.2 rfl
    subst this
    exact ⟨k, by rw [h1, h3 rfl]⟩
  · have fifo := g.pipes.fifo p
    unfold recv sent at fifo
    rw [(hpos _).moved, (hpos _).moved, List.take_of_length_le (Nat.le_refl _), List.take_of_length_le (Nat.le_refl _), moved_rd p C L.peer K.apart,
      moved_wr (S.peer p) C K.apart] at fifo
    simpa [Op.on] using fifo

/-! ### How long it takes -/

theorem tally_length (l : List Atom) : l.length = (results l).length + ((results l).map List.length).sum + (part l).length := by
  have key : ∀ m : Nat, ∀ l : List Atom, l.length = m → l.length = (results l).length + ((results l).map List.length).sum + (part l).length := by
    intro m
    induction m with
    | zero => intro l hl; cases List.length_eq_zero_iff.1 hl; rfl
    | succ m ih =>
      intro l hl
      obtain ⟨l, x, rfl⟩ : ∃ l' x, l = l' ++ [x] := by
        rcases List.eq_nil_or_concat l with rfl | ⟨l, b, rfl⟩
        · simp at hl
        · exact ⟨l, b, by simp⟩
      have := ih l (by simpa using hl)
      cases x with
      | byte b =>
        rw [results_byte, part_byte]
        simp only [List.length_append, List.length_cons, List.length_nil]
        omega
      | done =>
        rw [results_done, part_done]
        simp only [List.length_append, List.length_cons, List.length_nil, List.map_append, List.map_cons, List.map_nil, List.sum_append, List.sum_cons, List.sum_nil]
        omega
  exact key _ l rfl

/-- The bytes moved by calls, and the calls. -/
def weight (l : List Piece) : Nat := (l.map fun c => c.2.length + 1).sum

theorem weight_append (l l' : List Piece) : weight (l ++ l') = weight l + weight l' := by simp [weight]

theorem weight_eq (l : List Piece) : weight l = l.length + ((l.map Prod.snd).map List.length).sum := by
  induction l with
  | nil => rfl
  | cons c l ih =>
    simp only [weight, List.map_cons, List.sum_cons, List.length_cons] at ih ⊢
    omega

theorem At.length {l : List Piece} {f : Nat} {A : Seen} {i : Nat} (a : At S l f A i) : (A f).length ≤ weight l := by
  rw [tally_length, a.res, List.length_map]
  have h0 : weight l = weight (l.take i) + weight (l.drop i) := by rw [← weight_append, List.take_append_drop]
  have h1 := weight_eq (l.take i)
  cases hc : l[i]? with
  | none =>
    rw [a.rest hc]
    simp only [List.length_nil]
    omega
  | some c =>
    have h2 := (a.part c hc).length_le
    obtain ⟨hi, hc'⟩ := List.getElem?_eq_some_iff.1 hc
    have h3 : l.drop i = c :: l.drop (i + 1) := by rw [List.drop_eq_getElem_cons hi, hc']
    have h4 : weight (l.drop i) = (c.2.length + 1) + weight (l.drop (i + 1)) := by
      rw [h3]
      rfl
    omega

theorem weight_wire (v : Val) (g : List Byte → Op) : weight ((wire v).map fun d => (g d, d)) ≤ (encode v).length + 3 := by
  have h1 : (wire v).length ≤ 3 := by cases v <;> simp [wire]
  have h2 : ((wire v).map fun d => (g d, d)).map Prod.snd = wire v := by simp [Function.comp_def]
  rw [weight_eq, h2, ← wire_flatten, List.length_flatten, List.length_map]
  omega

theorem sum_one {all : List Nat} (h : all.Nodup) (a w : Nat) : (all.map fun f => if f = a then w else 0).sum ≤ w := by
  induction all with
  | nil => exact Nat.zero_le _
  | cons x all ih =>
    rw [List.nodup_cons] at h
    rw [List.map_cons, List.sum_cons]
    by_cases hx : x = a
    · subst hx
      have : (all.map fun f => if f = x then w else 0) = all.map fun _ => 0 := by
        apply List.map_congr_left
        intro f hf
        exact if_neg fun (e : f = x) => h.1 (e ▸ hf)
      rw [this, if_pos rfl]
      have h0 : ∀ l : List Nat, (l.map fun _ => 0).sum = 0 := by
        intro l
        induction l with
        | nil => rfl
        | cons _ l ih => rw [List.map_cons, List.sum_cons, ih]
      rw [h0]
      omega
    · rw [if_neg hx]
      have := ih h.2
      omega

theorem sum_le {all : List Nat} {g h : Nat → Nat} (H : ∀ f, g f ≤ h f) : (all.map g).sum ≤ (all.map h).sum := by
  induction all with
  | nil => exact Nat.le_refl _
  | cons x all ih =>
    have := H x
    simp only [List.map_cons, List.sum_cons]
    omega

theorem sum_add (all : List Nat) (g h : Nat → Nat) : (all.map fun f => g f + h f).sum = (all.map g).sum + (all.map h).sum := by
  induction all with
  | nil => rfl
  | cons x all ih =>
    simp only [List.map_cons, List.sum_cons]
    omega

theorem weight_lines {all : List Nat} (h : all.Nodup) (C : List Ev) : (all.map fun f => weight (calls (lines S P f C))).sum ≤ cost C := by
  induction C with
  | nil =>
    have : ∀ l : List Nat, (l.map fun f => weight (calls (lines S P f []))).sum = 0 := by
      intro l
      induction l with
      | nil => rfl
      | cons _ l ih => rw [List.map_cons, List.sum_cons, ih]; rfl
    rw [this]
    exact Nat.zero_le _
  | cons x C ih =>
    have e1 : (fun f => weight (calls (lines S P f (x :: C)))) = fun f => weight (calls (x.part S P f)) + weight (calls (lines S P f C)) := by
      funext f
      rw [lines_cons, calls_append, weight_append]
    rw [e1, sum_add]
    show _ ≤ x.cost + cost C
    refine Nat.add_le_add ?_ ih
    cases x with
    | msg p v =>
      have h1 := sum_one h (P.wtr p) ((encode v).length + 3)
      have h2 := sum_one h (P.rdr (S.peer p)) ((encode v).length + 3)
      refine Nat.le_trans (sum_le (h := fun f => (if f = P.wtr p then (encode v).length + 3 else 0) + (if f = P.rdr (S.peer p) then (encode v).length + 3 else 0))
        fun f => ?_) ?_
      · simp only [Ev.part]
        by_cases hw : f = P.wtr p
        · rw [if_pos hw, if_pos hw, calls_one]
          exact Nat.le_trans (weight_wire v fun d => .write p d) (Nat.le_add_right _ _)
        · rw [if_neg hw, if_neg hw]
          by_cases hr : f = P.rdr (S.peer p)
          · rw [if_pos hr, if_pos hr, calls_one]
            exact Nat.le_trans (weight_wire v fun d => .read (S.peer p) d.length) (Nat.le_add_left _ _)
          · rw [if_neg hr]
            exact Nat.zero_le _
      · rw [sum_add]
        show _ ≤ 2 * ((encode v).length + 3)
        omega
    | add g g' =>
      refine Nat.le_trans (sum_le (h := fun f => if f = g then 1 else 0) fun f => ?_) (sum_one h g 1)
      simp only [Ev.part]
      split
      · exact Nat.le_refl _
      · exact Nat.le_refl _
    | pause g =>
      refine Nat.le_trans (sum_le (h := fun f => if f = g then 1 else 0) fun f => ?_) (sum_one h g 1)
      simp only [Ev.part]
      split
      · exact Nat.le_refl _
      · exact Nat.le_refl _

/-- **C91**: every execution of a conversation is finite; the number of system calls and yields is bounded by its length in bytes and calls. -/
theorem talk_bounded (L : Legal S P) (K : Cast S P e code C) {all : List Nat} (hA : Among S all) {n : Nat} {s : Net} (h : Run S n s) :
    n ≤ (cost C + 1) * (all.length + 2) := by
  obtain ⟨tr, g⟩ := h.good L
  refine Nat.le_trans (net_no_spin L hA h) (Nat.mul_le_mul_right _ (Nat.succ_le_succ ?_))
  refine Nat.le_trans (sum_le fun f => ?_) (weight_lines (S := S) (P := P) hA.nodup C)
  obtain ⟨i, a⟩ := at_all L K g.sees f
  exact a.length

/-- **C91**: so every execution, if it goes on as long as it can, comes to the end. -/
theorem talk_comes_to_end (L : Legal S P) (K : Cast S P e code C) {all : List Nat} (hA : Among S all) {n : Nat} {s : Net} (h : Run S n s) :
    ∃ n' s', n ≤ n' ∧ Run S n' s' ∧ (∀ f, s.log f <+: s'.log f) ∧ Stuck S s' := by
  have key : ∀ m n s, Run S n s → (cost C + 1) * (all.length + 2) - n = m → ∃ n' s', n ≤ n' ∧ Run S n' s' ∧ (∀ f, s.log f <+: s'.log f) ∧ Stuck S s' := by
    intro m
    induction m with
    | zero =>
      intro n s h hm
      refine ⟨n, s, Nat.le_refl _, h, fun _ => List.prefix_refl _, fun k evs => ?_⟩
      cases hmv : move S s k evs with
      | none => rfl
      | some s' =>
        have := talk_bounded L K hA (.move k evs h hmv)
        omega
    | succ m ih =>
      intro n s h hm
      by_cases hst : Stuck S s
      · exact ⟨n, s, Nat.le_refl _, h, fun _ => List.prefix_refl _, hst⟩
      · obtain ⟨k, hk⟩ := Classical.not_forall.1 hst
        obtain ⟨evs, hk⟩ := Classical.not_forall.1 hk
        cases hmv : move S s k evs with
        | none => exact absurd hmv hk
        | some s' =>
          obtain ⟨n', s'', h1, h2, h3, h4⟩ := ih (n + 1) s' (.move k evs h hmv) (by omega)
          obtain ⟨tr, g⟩ := h.good L
          obtain ⟨-, d⟩ := move_good L g hmv
          have h5 : ∀ f, s.log f <+: s'.log f := by
            intro f
            cases d with
            | sees l _ _ e3 => rw [e3]; exact push_le _ _ _ _
            | leaves e1 => rw [e1]; exact List.prefix_refl _
            | wakes e1 => rw [e1]; exact List.prefix_refl _
          exact ⟨n', s'', by omega, h2, fun f => (h5 f).trans (h3 f), h4⟩
  exact key _ n s h rfl

/-- The programs keep to the plan if the codes name only the sockets they may use. -/
theorem talk_legal (hp : ∀ f, S.prog f = (code f).prog e) (hw : ∀ f, Within S P f 0 (code f)) (hm : S.main ≠ 0 ∧ S.main ≠ S.idle) (hi : S.idle ≠ 0)
    (hpeer : ∀ p, S.peer (S.peer p) = p) (hlow : ∀ p, S.low p ≤ S.cap p) : Legal S P where
  main := hm
  idle := hi
  read f h p n ho := by
    have := prog_within (e := e) (hw f) h
    rw [← hp, ho] at this
    exact this
  write f h p n ho := by
    have := prog_within (e := e) (hw f) h
    rw [← hp, ho] at this
    exact this
  spawn f h g ho := by
    have := prog_within (e := e) (hw f) h
    rw [← hp, ho] at this
    exact this
  peer := hpeer
  low := hlow

/-! ### Examples -/

/-- Fiber 1 adds fibers 2 and 3 and sends a string to 2; 2 hands it to 3, which answers with its length, which 2 hands to 1. -/
def trioCode : Nat → Sess
  | 1 => .add 2 (.add 3 (.send 10 (.string [97, 98]) (.recv 10 (.int .int32) fun _ => .stop)))
  | 2 => .recv 11 .string fun v => .send 12 v (.recv 12 (.int .int32) fun w => .send 11 w .stop)
  | 3 => .recv 13 .string fun v => match v with
    | .string s => .send 13 (.int .int32 (BitVec.ofNat _ s.length)) .stop
    | _ => .stop
  | _ => .stop

def trio : Setup := ⟨⟨fun _ => 0, fun _ => false⟩, 1, 9, fun f => (trioCode f).prog .little, pairs, fun _ => 3, fun _ => 1⟩

def trioPlan : Plan := ⟨fun p => if p = 10 then 1 else if p = 13 then 3 else 2, fun p => if p = 10 then 1 else if p = 13 then 3 else 2, fun g => if g = 2 then (1, 0) else if g = 3 then (1, 1) else (0, 0)⟩

def trioTalk : List Ev := [.add 1 2, .add 1 3, .msg 10 (.string [97, 98]), .msg 12 (.string [97, 98]), .msg 13 (.int .int32 2), .msg 11 (.int .int32 2)]

theorem trio_within (f : Nat) : Within trio trioPlan f 0 (trioCode f) := by
  unfold trioCode
  split
  · simp [Within, trioPlan, trio]
  · simp [Within, trioPlan]
  · refine ⟨rfl, fun v => ?_⟩
    cases v
    · trivial
    · trivial
    · exact ⟨rfl, trivial⟩
    · trivial
  · trivial

theorem trio_legal : Legal trio trioPlan :=
  talk_legal (code := trioCode) (e := .little) (fun _ => rfl) trio_within (by decide) (by decide) pairs_pairs fun _ => (by decide : 1 ≤ 3)

theorem trio_cast : Cast trio trioPlan .little trioCode trioTalk where
  prog _ := rfl
  plays f := by
    by_cases h1 : f = 1
    · subst h1
      exact .add 2 (.add 3 (.send 10 _ (.recv 10 (.int .int32 2) .stop)))
    by_cases h2 : f = 2
    · subst h2
      exact .recv 11 (.string [97, 98]) (.send 12 _ (.recv 12 (.int .int32 2) (.send 11 _ .stop)))
    by_cases h3 : f = 3
    · subst h3
      exact .recv 13 (.string [97, 98]) (.send 13 _ .stop)
    have e1 : trioCode f = .stop := by
      unfold trioCode
      split
      · exact absurd rfl h1
      · exact absurd rfl h2
      · exact absurd rfl h3
      · rfl
    have e2 : lines trio trioPlan f trioTalk = [] := by
      simp [lines, trioTalk, Ev.part, trioPlan, trio, pairs, h1, h2, h3]
    rw [e1, e2]
    exact .stop
  valid p v h := by
    simp only [trioTalk, List.mem_cons, List.not_mem_nil, or_false] at h
    rcases h with h | h | h | h | h | h <;> cases h
    · exact ⟨by decide, by decide⟩
    · exact ⟨by decide, by decide⟩
    · trivial
    · trivial
  apart p v h := by
    simp only [trioTalk, List.mem_cons, List.not_mem_nil, or_false] at h
    rcases h with h | h | h | h | h | h <;> cases h <;> decide
  born C₁ x C₂ h f hf := by
    unfold trioTalk at h
    match C₁, h with
    | [], h => cases h; exact .inl (List.mem_singleton.1 hf)
    | [_], h => cases h; exact .inl (List.mem_singleton.1 hf)
    | [_, _], h =>
      cases h
      have : f = 1 ∨ f = 2 := by simpa [Ev.who, trioPlan, trio, pairs] using hf
      rcases this with rfl | rfl
      · exact .inl rfl
      · exact .inr ⟨1, by simp⟩
    | [_, _, _], h =>
      cases h
      have : f = 2 ∨ f = 3 := by simpa [Ev.who, trioPlan, trio, pairs] using hf
      rcases this with rfl | rfl <;> exact .inr ⟨1, by simp⟩
    | [_, _, _, _], h =>
      cases h
      have : f = 3 ∨ f = 2 := by simpa [Ev.who, trioPlan, trio, pairs] using hf
      rcases this with rfl | rfl <;> exact .inr ⟨1, by simp⟩
    | [_, _, _, _, _], h =>
      cases h
      have : f = 2 ∨ f = 1 := by simpa [Ev.who, trioPlan, trio, pairs] using hf
      rcases this with rfl | rfl
      · exact .inr ⟨1, by simp⟩
      · exact .inl rfl
    | _ :: _ :: _ :: _ :: _ :: _ :: _, h => simp at h

theorem trio_among : Among trio [1, 2, 3] where
  nodup := by decide
  main := by decide
  spawn f h g ho := by
    obtain ⟨h1, h2, -, h4⟩ := trio_legal.spawn f h g ho
    have h3 : g = 2 ∨ g = 3 := by
      by_cases a : g = 2
      · exact .inl a
      by_cases b : g = 3
      · exact .inr b
      have e0 : trioPlan.site g = (0, 0) := by simp [trioPlan, a, b]
      rw [e0] at h1
      have hf : 0 = f := congrArg Prod.fst h1
      subst hf
      cases ho
    rcases h3 with rfl | rfl <;> decide

-- there is an execution that comes to the end: the hypotheses of the theorems above; fiber 1 receives the length of the string
example : ∃ n s, n ≤ (cost trioTalk + 1) * 5 ∧ Run trio n s ∧ Stuck trio s ∧ (∀ p, s.buf p = []) ∧
    ∃ k, (trioCode 1).run .little ⟨results (s.log 1), none⟩ = some (k, SUCCESS, [.add 2, .add 3, .send 10 (.string [97, 98]), .recv 10 (.int .int32 2)]) := by
  obtain ⟨n, s, -, h, -, hs⟩ := talk_comes_to_end trio_legal trio_cast trio_among .start
  obtain ⟨h1, h2⟩ := talk_ends trio_legal trio_cast (fun _ => (by decide : 0 < 1)) h hs
  exact ⟨n, s, talk_bounded trio_legal trio_cast trio_among h, h, hs, h2, (h1 1).2⟩

/-- Two fibers that both send first. -/
def clashCode : Nat → Sess
  | 1 => .add 2 (.send 10 (.int .int32 7) (.recv 10 (.int .int32) fun _ => .stop))
  | 2 => .send 11 (.int .int32 8) (.recv 11 (.int .int32) fun _ => .stop)
  | _ => .stop

def clash : Setup := ⟨⟨fun _ => 0, fun _ => false⟩, 1, 9, fun f => (clashCode f).prog .little, pairs, fun _ => 3, fun _ => 3⟩

def clashPlan : Plan := ⟨fun p => if p = 10 then 1 else 2, fun p => if p = 10 then 1 else 2, fun g => if g = 2 then (1, 0) else (0, 0)⟩

theorem clash_within (f : Nat) : Within clash clashPlan f 0 (clashCode f) := by
  unfold clashCode
  split
  · simp [Within, clashPlan, clash]
  · simp [Within, clashPlan]
  · trivial

theorem clash_legal : Legal clash clashPlan :=
  talk_legal (code := clashCode) (e := .little) (fun _ => rfl) clash_within (by decide) (by decide) pairs_pairs fun _ => Nat.le_refl _

/-- That there is one order for all is needed: if two fibers send first, what does not fit into the buffers makes them wait for ever. -/
theorem talk_order_needed : ∃ n s, Run clash n s ∧ Stuck clash s ∧ (Live clash s.log 1 ∧ Waits clash s.log 1 .wr 10) ∧ (Live clash s.log 2 ∧ Waits clash s.log 2 .wr 11) := by
  have h : (moves clash [(0, []), (3, []), (0, []), (3, []), (0, [])] (start clash)).map (fun s => (s.sys.cur, s.log 1, s.log 2, s.buf 10, s.buf 11)) =
      some (9, [.done, .byte 0, .byte 0, .byte 0], [.byte 0, .byte 0, .byte 0], [0, 0, 0], [0, 0, 0]) := by decide +kernel
  cases hm : moves clash [(0, []), (3, []), (0, []), (3, []), (0, [])] (start clash) with
  | none => rw [hm] at h; cases h
  | some s =>
    rw [hm] at h
    simp only [Option.map_some, Option.some.injEq, Prod.mk.injEq] at h
    obtain ⟨h1, h2, h3, h4, h5⟩ := h
    have hr := moves_run (.start (S := clash)) hm
    have w1 : Waits clash s.log 1 .wr 10 := ⟨[0, 0, 0, 18], by rw [h2]; decide +kernel, by rw [h2]; decide⟩
    have w2 : Waits clash s.log 2 .wr 11 := ⟨[0, 0, 0, 18], by rw [h3]; decide +kernel, by rw [h3]; decide⟩
    refine ⟨_, s, hr, (net_stuck clash_legal hr).2 ⟨h1, fun f hf => .inr ?_⟩, ⟨.inl rfl, w1⟩, ⟨.inr ⟨1, 0, by rw [h2]; decide, by rw [h2]; decide +kernel⟩, w2⟩⟩
    have hf : f = 1 ∨ f = 2 := by
      rcases hf with h | ⟨g, i, -, h⟩
      · exact .inl h
      · right
        obtain ⟨a, b, -, c⟩ := clash_legal.spawn g _ f h
        apply Classical.byContradiction
        intro hne
        have e0 : clashPlan.site f = (0, 0) := by simp [clashPlan, hne]
        rw [e0] at a
        have hg : 0 = g := congrArg Prod.fst a
        subst hg
        cases h
    rcases hf with rfl | rfl
    · refine ⟨.wr, 10, w1, ?_⟩
      show ¬ (s.buf 11).length < 3
      rw [h5]; decide
    · refine ⟨.wr, 11, w2, ?_⟩
      show ¬ (s.buf 10).length < 3
      rw [h4]; decide

end Rcpr.Net
