import Verif.NetTalkSpec
import Verif.NetKahn
import Verif.PsockProof

/-! Lemmas: the code of a fiber, run with the bytes of its conversation, makes the calls of the conversation. -/
namespace Rcpr.Net

open Rcpr Psock

/-- The pieces in which a value is sent. -/
def wire : Val → List (List Byte)
  | .int t v => [be 4 (Ty.int t).code.toNat, be t.width.bytes v.toNat]
  | .bool b => [be 4 Ty.bool.code.toNat, [if b then 1 else 0]]
  | .string s => [be 4 Ty.string.code.toNat, be 4 s.length, s]
  | .data d => [be 4 Ty.data.code.toNat, be 4 d.length, d]

theorem wire_flatten (v : Val) : (wire v).flatten = encode v := by
  cases v <;> simp [wire, encode]

/-- A call and the bytes it moves. -/
abbrev Piece := Op × List Byte

def Act.calls : Act → List Piece
  | .send p v => (wire v).map fun d => (.write p d, d)
  | .recv p v => (wire v).map fun d => (.read p d.length, d)
  | .add g => [(.spawn g, [])]
  | .pause => [(.pause, [])]

def calls (l : List Act) : List Piece := l.flatMap Act.calls

/-! ### One boxed write or read -/

theorem writeRawInt_back (e : Endian) (p : Nat) (w : Width) (v : BitVec (8 * w.bytes)) (r : List Byte) (l : List (List Byte)) :
    writeRawInt e (wr p) ⟨r :: l, none⟩ w v = some (⟨l, none⟩, SUCCESS) := by
  have : (memBytes e w.bytes (hton e w v)).length = w.bytes := by rw [wire_be, be_length]
  simp [writeRawInt, wr, this]

theorem writeRawInt_wait (e : Endian) (p : Nat) (w : Width) (v : BitVec (8 * w.bytes)) :
    writeRawInt e (wr p) ⟨[], none⟩ w v = some (⟨[], some (.write p (be w.bytes v.toNat))⟩, WAITING) := by
  simp only [writeRawInt, wr, wire_be]
  rfl

theorem writeRawU32_back (e : Endian) (p : Nat) (v : BitVec 32) (r : List Byte) (l : List (List Byte)) :
    writeRawU32 e (wr p) ⟨r :: l, none⟩ v = some (⟨l, none⟩, SUCCESS) := writeRawInt_back e p .w32 v r l

theorem writeRawU32_wait (e : Endian) (p : Nat) (v : BitVec 32) :
    writeRawU32 e (wr p) ⟨[], none⟩ v = some (⟨[], some (.write p (be 4 v.toNat))⟩, WAITING) := writeRawInt_wait e p .w32 v

theorem readRawInt_back (e : Endian) (p : Nat) (w : Width) (v : BitVec (8 * w.bytes)) (l : List (List Byte)) :
    readRawInt e (rd p) ⟨be w.bytes v.toNat :: l, none⟩ w = some (⟨l, none⟩, SUCCESS, some v) := by
  simp [readRawInt, rd, be_length, decode_be]

theorem readRawInt_wait (e : Endian) (p : Nat) (w : Width) :
    readRawInt e (rd p) ⟨[], none⟩ w = some (⟨[], some (.read p w.bytes)⟩, WAITING, none) := rfl

theorem readRawU32_back (e : Endian) (p : Nat) (v : BitVec 32) (l : List (List Byte)) :
    readRawU32 e (rd p) ⟨be 4 v.toNat :: l, none⟩ = some (⟨l, none⟩, SUCCESS, some v) := readRawInt_back e p .w32 v l

theorem readRawU32_wait (e : Endian) (p : Nat) :
    readRawU32 e (rd p) ⟨[], none⟩ = some (⟨[], some (.read p 4)⟩, WAITING, none) := rfl

theorem waiting_ne : WAITING ≠ SUCCESS := by decide

theorem len32 {n : Nat} (h : n < 2 ^ 32) : (BitVec.ofNat 32 n).toNat = n := by
  rw [BitVec.toNat_ofNat, Nat.mod_eq_of_lt h]

theorem takeWhile_valid {s : List Byte} (h : (0 : Byte) ∉ s) : (s ++ [0]).takeWhile (· ≠ 0) = s := by
  induction s with
  | nil => rfl
  | cons a s ih =>
    have h1 : a ≠ 0 := fun e => h (e ▸ List.mem_cons_self ..)
    have h2 := ih fun e => h (List.mem_cons_of_mem _ e)
    rw [List.cons_append, List.takeWhile_cons, if_pos (by exact decide_eq_true h1), h2]

/-- All pieces were written. -/
theorem writeBoxed_back (e : Endian) (p : Nat) {v : Val} (hv : v.Valid) (l : List (List Byte)) :
    writeBoxed e (wr p) ⟨wire v ++ l, none⟩ v = some (⟨l, none⟩, SUCCESS) := by
  cases v with
  | int t v => simp [writeBoxed, writeBoxedInt, wire, writeRawU32_back, writeRawInt_back]
  | bool b => simp [writeBoxed, writeBoxedBool, wire, writeRawU32_back, writeRawBool, wr]
  | string s =>
    have : ¬ uint32Max ≤ s.length := by have := hv.2; unfold uint32Max; omega
    simp [writeBoxed, writeBoxedString, wire, writeRawU32_back, wr, this]
  | data d => simp [writeBoxed, writeBoxedData, wire, writeRawU32_back, wr]

/-- Some pieces were not. -/
theorem writeBoxed_wait (e : Endian) (p : Nat) {v : Val} (hv : v.Valid) {i : Nat} {d : List Byte} (h : (wire v)[i]? = some d) :
    writeBoxed e (wr p) ⟨(wire v).take i, none⟩ v = some (⟨[], some (.write p d)⟩, WAITING) := by
  have w := waiting_ne
  cases v with
  | int t v =>
    match i with
    | 0 => cases h; simp [writeBoxed, writeBoxedInt, writeRawU32_wait, w]
    | 1 => cases h; simp [writeBoxed, writeBoxedInt, wire, writeRawU32_back, writeRawInt_wait]
  | bool b =>
    match i with
    | 0 => cases h; simp [writeBoxed, writeBoxedBool, writeRawU32_wait, w]
    | 1 => cases h; simp [writeBoxed, writeBoxedBool, wire, writeRawU32_back, writeRawBool, wr, w]
  | string s =>
    have h0 : ¬ uint32Max ≤ s.length := by have := hv.2; unfold uint32Max; omega
    have h1 := len32 (n := s.length) (by have := hv.2; omega)
    match i with
    | 0 => cases h; simp [writeBoxed, writeBoxedString, writeRawU32_wait, w, h0]
    | 1 => cases h; simp [writeBoxed, writeBoxedString, wire, writeRawU32_back, writeRawU32_wait, w, h0, h1]
    | 2 => cases h; simp [writeBoxed, writeBoxedString, wire, writeRawU32_back, wr, w, h0]
  | data s =>
    have h1 := len32 (n := s.length) hv
    match i with
    | 0 => cases h; simp [writeBoxed, writeBoxedData, writeRawU32_wait, w]
    | 1 => cases h; simp [writeBoxed, writeBoxedData, wire, writeRawU32_back, writeRawU32_wait, w, h1]
    | 2 => cases h; simp [writeBoxed, writeBoxedData, wire, writeRawU32_back, wr, w]

theorem readBoxed_back (e : Endian) (p : Nat) {v : Val} (hv : v.Valid) (l : List (List Byte)) :
    readBoxed e (rd p) ⟨wire v ++ l, none⟩ SUCCESS SUCCESS v.ty = some (⟨l, none⟩, SUCCESS, some v) := by
  cases v with
  | int t v => simp [readBoxed, readBoxedInt, Val.ty, wire, readRawU32_back, readRawInt_back]
  | bool b => cases b <;> simp [readBoxed, readBoxedBool, Val.ty, wire, readRawU32_back, readRawBool, rd]
  | string s =>
    have h1 := len32 (n := s.length) (by have := hv.2; omega)
    have h0 : ¬ uint32Max = s.length := by have := hv.2; unfold uint32Max; omega
    have h2 := readRawU32_back e p (BitVec.ofNat 32 s.length) (s :: l)
    rw [h1] at h2
    have h3 := takeWhile_valid hv.1
    simp only [ne_eq] at h3
    simp only [readBoxed, readBoxedString, Val.ty, wire, List.cons_append, List.nil_append, readRawU32_back, Option.pure_def, Option.bind_eq_bind, Option.bind_some,
      h2, rd, ne_eq, not_true_eq_false, if_false, h1, h0, Option.map_some, h3]
  | data s =>
    have h1 := len32 (n := s.length) hv
    have h2 := readRawU32_back e p (BitVec.ofNat 32 s.length) (s :: l)
    rw [h1] at h2
    simp only [readBoxed, readBoxedData, Val.ty, wire, List.cons_append, List.nil_append, readRawU32_back, Option.pure_def, Option.bind_eq_bind, Option.bind_some,
      h2, rd, ne_eq, not_true_eq_false, if_false, h1, Option.map_some]

theorem readBoxed_wait (e : Endian) (p : Nat) {v : Val} (hv : v.Valid) {i : Nat} {d : List Byte} (h : (wire v)[i]? = some d) :
    readBoxed e (rd p) ⟨(wire v).take i, none⟩ SUCCESS SUCCESS v.ty = some (⟨[], some (.read p d.length)⟩, WAITING, none) := by
  have w := waiting_ne
  cases v with
  | int t v =>
    match i with
    | 0 => cases h; simp [readBoxed, readBoxedInt, Val.ty, readRawU32_wait, w, be_length]
    | 1 => cases h; simp [readBoxed, readBoxedInt, Val.ty, wire, readRawU32_back, readRawInt_wait, be_length]
  | bool b =>
    match i with
    | 0 => cases h; simp [readBoxed, readBoxedBool, Val.ty, readRawU32_wait, w, be_length]
    | 1 => cases h; simp [readBoxed, readBoxedBool, Val.ty, wire, readRawU32_back, readRawBool, rd, w]
  | string s =>
    have h0 : ¬ uint32Max = s.length := by have := hv.2; unfold uint32Max; omega
    have h1 := len32 (n := s.length) (by have := hv.2; omega)
    have h2 := readRawU32_back e p (BitVec.ofNat 32 s.length) []
    rw [h1] at h2
    match i with
    | 0 => cases h; simp [readBoxed, readBoxedString, Val.ty, readRawU32_wait, w, be_length]
    | 1 => cases h; simp [readBoxed, readBoxedString, Val.ty, wire, readRawU32_back, readRawU32_wait, w, be_length]
    | 2 =>
      cases h
      simp only [readBoxed, readBoxedString, Val.ty, wire, List.take, readRawU32_back, Option.pure_def, Option.bind_eq_bind, Option.bind_some,
        h2, rd, ne_eq, not_true_eq_false, if_false, h1, h0, w, not_false_eq_true, if_true, Option.map_some, Option.map_none, false_and]
  | data s =>
    have h1 := len32 (n := s.length) hv
    have h2 := readRawU32_back e p (BitVec.ofNat 32 s.length) []
    rw [h1] at h2
    match i with
    | 0 => cases h; simp [readBoxed, readBoxedData, Val.ty, readRawU32_wait, w, be_length]
    | 1 => cases h; simp [readBoxed, readBoxedData, Val.ty, wire, readRawU32_back, readRawU32_wait, w, be_length]
    | 2 =>
      cases h
      simp only [readBoxed, readBoxedData, Val.ty, wire, List.take, readRawU32_back, Option.pure_def, Option.bind_eq_bind, Option.bind_some,
        h2, rd, ne_eq, not_true_eq_false, if_false, h1, w, not_false_eq_true, if_true, Option.map_some, Option.map_none, false_and]

/-! ### All of the code -/

theorem take_over {α : Type} (a b : List α) {i : Nat} (h : a.length ≤ i) : (a ++ b).take i = a ++ b.take (i - a.length) := by
  rw [List.take_append, List.take_of_length_le h]

theorem calls_cons (a : Act) (l : List Act) : calls (a :: l) = a.calls ++ calls l := rfl

def Act.ok : Act → Prop
  | .send _ v => v.Valid
  | .recv _ v => v.Valid
  | _ => True

theorem write_pieces (p : Nat) (v : Val) : ((Act.send p v).calls).map Prod.snd = wire v := by
  simp [Act.calls, Function.comp_def]

theorem read_pieces (p : Nat) (v : Val) : ((Act.recv p v).calls).map Prod.snd = wire v := by
  simp [Act.calls, Function.comp_def]

/-- With the bytes of the first `i` calls, the code is in call number `i`, or at its end. -/
theorem run_at (e : Endian) {k : Sess} {l : List Act} (hp : Plays k l) (hv : ∀ a ∈ l, a.ok) (i : Nat) (hi : i ≤ (calls l).length) :
    ∃ s st m, k.run e ⟨((calls l).take i).map Prod.snd, none⟩ = some (s, st, m) ∧ m <+: l ∧
      (st = SUCCESS → m = l) ∧ s.want = ((calls l)[i]?).map Prod.fst ∧ (st = SUCCESS ↔ i = (calls l).length) ∧ (st = SUCCESS ∨ st = WAITING) := by
  induction hp generalizing i with
  | stop =>
    have : i = 0 := Nat.le_zero.1 hi
    subst this
    exact ⟨⟨[], none⟩, SUCCESS, [], rfl, List.prefix_refl _, fun _ => rfl, rfl, by simp [calls], .inl rfl⟩
  | @send p v k l hp ih =>
    have hv1 : v.Valid := hv _ (List.mem_cons_self ..)
    have hl : (Act.send p v).calls.length = (wire v).length := by simp [Act.calls]
    by_cases h : i < (Act.send p v).calls.length
    · have hd : (wire v)[i]? = some (wire v)[i] := List.getElem?_eq_getElem (hl ▸ h)
      refine ⟨⟨[], some (.write p (wire v)[i])⟩, WAITING, [], ?_, List.nil_prefix, fun h => absurd h waiting_ne, ?_, ?_, .inr rfl⟩
      · rw [calls_cons, List.take_append_of_le_length (Nat.le_of_lt h), List.map_take, write_pieces]
        simp only [Sess.run, writeBoxed_wait e p hv1 hd, waiting_ne, ne_eq, not_false_eq_true, if_true]
      · rw [calls_cons, List.getElem?_append_left h]
        simp [Act.calls, hd]
      · rw [calls_cons, List.length_append]
        exact ⟨fun h => absurd h waiting_ne, fun h' => by omega⟩
    · have h : (Act.send p v).calls.length ≤ i := Nat.le_of_not_lt h
      rw [calls_cons, List.length_append] at hi
      obtain ⟨s, st, m, h1, h2, h3, h4, h5, h6⟩ := ih (fun a ha => hv a (List.mem_cons_of_mem _ ha)) (i - (Act.send p v).calls.length) (by omega)
      refine ⟨s, st, .send p v :: m, ?_, (List.cons_prefix_cons.2 ⟨rfl, h2⟩), fun h => by rw [h3 h], ?_, ?_, h6⟩
      · rw [calls_cons, take_over _ _ h, List.map_append, write_pieces]
        simp only [Sess.run, writeBoxed_back e p hv1, ne_eq, not_true_eq_false, if_false, h1, Option.map_some]
      · rw [calls_cons, List.getElem?_append_right h]; exact h4
      · rw [h5, calls_cons, List.length_append]; omega
  | @recv p v k l hp ih =>
    have hv1 : v.Valid := hv _ (List.mem_cons_self ..)
    have hl : (Act.recv p v).calls.length = (wire v).length := by simp [Act.calls]
    by_cases h : i < (Act.recv p v).calls.length
    · have hd : (wire v)[i]? = some (wire v)[i] := List.getElem?_eq_getElem (hl ▸ h)
      refine ⟨⟨[], some (.read p (wire v)[i].length)⟩, WAITING, [], ?_, List.nil_prefix, fun h => absurd h waiting_ne, ?_, ?_, .inr rfl⟩
      · rw [calls_cons, List.take_append_of_le_length (Nat.le_of_lt h), List.map_take, read_pieces]
        simp only [Sess.run, readBoxed_wait e p hv1 hd, waiting_ne, ne_eq, not_false_eq_true, if_true]
      · rw [calls_cons, List.getElem?_append_left h]
        simp [Act.calls, hd]
      · rw [calls_cons, List.length_append]
        exact ⟨fun h => absurd h waiting_ne, fun h' => by omega⟩
    · have h : (Act.recv p v).calls.length ≤ i := Nat.le_of_not_lt h
      rw [calls_cons, List.length_append] at hi
      obtain ⟨s, st, m, h1, h2, h3, h4, h5, h6⟩ := ih (fun a ha => hv a (List.mem_cons_of_mem _ ha)) (i - (Act.recv p v).calls.length) (by omega)
      refine ⟨s, st, .recv p v :: m, ?_, (List.cons_prefix_cons.2 ⟨rfl, h2⟩), fun h => by rw [h3 h], ?_, ?_, h6⟩
      · rw [calls_cons, take_over _ _ h, List.map_append, read_pieces]
        simp only [Sess.run, readBoxed_back e p hv1, ne_eq, not_true_eq_false, if_false, h1, Option.map_some]
      · rw [calls_cons, List.getElem?_append_right h]; exact h4
      · rw [h5, calls_cons, List.length_append]; omega
  | @add g k l hp ih =>
    rw [calls_cons] at hi ⊢
    cases i with
    | zero => exact ⟨⟨[], some (.spawn g)⟩, WAITING, [], rfl, List.nil_prefix, fun h => absurd h waiting_ne, rfl, ⟨fun h => absurd h waiting_ne, fun h' => by simp [Act.calls] at h'⟩, .inr rfl⟩
    | succ i =>
      obtain ⟨s, st, m, h1, h2, h3, h4, h5, h6⟩ := ih (fun a ha => hv a (List.mem_cons_of_mem _ ha)) i (by simpa [Act.calls] using hi)
      refine ⟨s, st, .add g :: m, ?_, (List.cons_prefix_cons.2 ⟨rfl, h2⟩), fun h => by rw [h3 h], ?_, ?_, h6⟩
      · simp only [Act.calls, List.cons_append, List.nil_append, List.take_succ_cons, List.map_cons, Sess.run, other, ne_eq, not_true_eq_false, if_false, h1,
          Option.map_some]
      · simpa [Act.calls] using h4
      · rw [h5]; simp [Act.calls]
  | @pause k l hp ih =>
    rw [calls_cons] at hi ⊢
    cases i with
    | zero => exact ⟨⟨[], some .pause⟩, WAITING, [], rfl, List.nil_prefix, fun h => absurd h waiting_ne, rfl, ⟨fun h => absurd h waiting_ne, fun h' => by simp [Act.calls] at h'⟩, .inr rfl⟩
    | succ i =>
      obtain ⟨s, st, m, h1, h2, h3, h4, h5, h6⟩ := ih (fun a ha => hv a (List.mem_cons_of_mem _ ha)) i (by simpa [Act.calls] using hi)
      refine ⟨s, st, .pause :: m, ?_, (List.cons_prefix_cons.2 ⟨rfl, h2⟩), fun h => by rw [h3 h], ?_, ?_, h6⟩
      · simp only [Act.calls, List.cons_append, List.nil_append, List.take_succ_cons, List.map_cons, Sess.run, other, ne_eq, not_true_eq_false, if_false, h1,
          Option.map_some]
      · simpa [Act.calls] using h4
      · rw [h5]; simp [Act.calls]

theorem prog_at (e : Endian) {k : Sess} {l : List Act} (hp : Plays k l) (hv : ∀ a ∈ l, a.ok) (i : Nat) (hi : i ≤ (calls l).length) :
    k.prog e (((calls l).take i).map Prod.snd) = ((calls l)[i]?).map Prod.fst := by
  obtain ⟨s, st, m, h1, -, -, h4, -, -⟩ := run_at e hp hv i hi
  unfold Sess.prog
  rw [h1]
  exact h4

/-! ### What is moved -/

/-- The bytes that the calls move on one side of a socket. -/
def moved (sd : Epoll.Side) (p : Nat) (l : List Piece) : List Byte := l.flatMap fun c => if Op.on sd p (some c.1) then c.2 else []

theorem moved_append (sd : Epoll.Side) (p : Nat) (l l' : List Piece) : moved sd p (l ++ l') = moved sd p l ++ moved sd p l' := List.flatMap_append

/-- The bytes on one socket. -/
def Ev.says (p : Nat) : Ev → List Byte
  | .msg q v => if q = p then encode v else []
  | _ => []

def spoken (p : Nat) (C : List Ev) : List Byte := C.flatMap (Ev.says p)

theorem moved_send (sd : Epoll.Side) (q p : Nat) (v : Val) : moved sd q (Act.send p v).calls = if sd = .wr ∧ p = q then encode v else [] := by
  rw [← wire_flatten]
  unfold moved Act.calls
  rw [List.flatMap_map]
  cases sd with
  | rd => simp [Op.on]
  | wr => by_cases h : p = q <;> simp [Op.on, h, List.flatMap_id']

theorem moved_recv (sd : Epoll.Side) (q p : Nat) (v : Val) : moved sd q (Act.recv p v).calls = if sd = .rd ∧ p = q then encode v else [] := by
  rw [← wire_flatten]
  unfold moved Act.calls
  rw [List.flatMap_map]
  cases sd with
  | wr => simp [Op.on]
  | rd => by_cases h : p = q <;> simp [Op.on, h, List.flatMap_id']

variable {S : Setup} {P : Plan}

theorem lines_cons (f : Nat) (x : Ev) (C : List Ev) : lines S P f (x :: C) = x.part S P f ++ lines S P f C := rfl
theorem lines_append (f : Nat) (C C' : List Ev) : lines S P f (C ++ C') = lines S P f C ++ lines S P f C' := List.flatMap_append
theorem calls_append (l l' : List Act) : calls (l ++ l') = calls l ++ calls l' := List.flatMap_append
theorem calls_one (a : Act) : calls [a] = a.calls := by simp [calls]

theorem moved_wr (q : Nat) (C : List Ev) (ha : ∀ p v, Ev.msg p v ∈ C → P.wtr p ≠ P.rdr (S.peer p)) :
    moved .wr q (calls (lines S P (P.wtr q) C)) = spoken q C := by
  induction C with
  | nil => rfl
  | cons x C ih =>
    rw [lines_cons, calls_append, moved_append, ih fun p v h => ha p v (List.mem_cons_of_mem _ h)]
    show _ = x.says q ++ spoken q C
    congr 1
    cases x with
    | add f g => by_cases h : P.wtr q = f <;> simp [Ev.part, Ev.says, h, calls, Act.calls, moved, Op.on]
    | pause f => by_cases h : P.wtr q = f <;> simp [Ev.part, Ev.says, h, calls, Act.calls, moved, Op.on]
    | msg p v =>
      simp only [Ev.part, Ev.says]
      by_cases hp : p = q
      · subst hp
        rw [if_pos rfl, calls_one, moved_send]
        simp
      · rw [if_neg hp]
        split
        · rw [calls_one, moved_send, if_neg fun h => hp h.2]
        · split
          · rw [calls_one, moved_recv, if_neg fun h => by cases h.1]
          · rfl

theorem moved_rd (q : Nat) (C : List Ev) (hp : ∀ p, S.peer (S.peer p) = p) (ha : ∀ p v, Ev.msg p v ∈ C → P.wtr p ≠ P.rdr (S.peer p)) :
    moved .rd q (calls (lines S P (P.rdr q) C)) = spoken (S.peer q) C := by
  induction C with
  | nil => rfl
  | cons x C ih =>
    rw [lines_cons, calls_append, moved_append, ih fun p v h => ha p v (List.mem_cons_of_mem _ h)]
    show _ = x.says (S.peer q) ++ spoken (S.peer q) C
    congr 1
    cases x with
    | add f g => by_cases h : P.rdr q = f <;> simp [Ev.part, Ev.says, h, calls, Act.calls, moved, Op.on]
    | pause f => by_cases h : P.rdr q = f <;> simp [Ev.part, Ev.says, h, calls, Act.calls, moved, Op.on]
    | msg p v =>
      simp only [Ev.part, Ev.says]
      by_cases hq : p = S.peer q
      · subst hq
        have := ha (S.peer q) v (List.mem_cons_self ..)
        rw [hp] at this
        rw [if_neg fun h => this h.symm, hp, if_pos rfl, if_pos rfl, calls_one, moved_recv]
        simp
      · rw [if_neg hq]
        have hq' : ¬ S.peer p = q := fun h => hq (by rw [← h, hp])
        split
        · rw [calls_one, moved_send, if_neg fun h => by cases h.1]
        · split
          · rw [calls_one, moved_recv, if_neg fun h => hq' h.2]
          · rfl

end Rcpr.Net
