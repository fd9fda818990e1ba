import Verif.Echo
import Verif.Props.PsockRaw

/-!
C85: the echo server sends back exactly what it receives.
-/
namespace Rcpr.Echo

open Rcpr Rcpr.Psock

variable {σ : Type}

/-! ### Specification -/

/-- A connection: a stream of bytes in and a stream of bytes out, of which neither disturbs the other.
`rd`, `wr` are the methods of the psock below the async psock, `blk` and `blkW` its waits. -/
structure Duplex (rd : Reader σ) (wr : Writer σ) (blk blkW : σ → Option (σ × Status)) (Ok : σ → Prop)
    (rest out : σ → List Byte) : Prop where
  reads : StreamReader rd Ok rest
  lossless : Lossless rd Ok
  readOut : ∀ s n b s' st d, Ok s → rd s n b = some (s', st, d) → out s' = out s
  writes : StreamWriter wr Ok out
  losslessW : LosslessW wr Ok out
  writeRest : ∀ s d s' st n, Ok s → wr s d = some (s', st, n) → rest s' = rest s
  wait : ∀ s s' st, Ok s → blk s = some (s', st) → Ok s' ∧ rest s' = rest s ∧ out s' = out s
  waitW : ∀ s s' st, Ok s → blkW s = some (s', st) → Ok s' ∧ rest s' = rest s ∧ out s' = out s

/-! ### Lemmas -/

/-- an async read takes from the stream in and leaves the stream out alone -/
theorem async_read {rd : Reader σ} {wr : Writer σ} {blk blkW : σ → Option (σ × Status)} {Ok : σ → Prop}
    {rest out : σ → List Byte} (D : Duplex rd wr blk blkW Ok rest out) {fuel : Nat} {s s' : σ} {n : Nat} {b : Bool}
    {st : Status} {d : List Byte} (hs : Ok s) (h : waRead rd blk fuel s n b = some (s', st, d)) :
    Ok s' ∧ d.length ≤ n ∧ rest s = d ++ rest s' ∧ out s' = out s := by
  have R : StreamReader rd (fun x => Ok x ∧ out x = out s) rest :=
    ⟨fun x n b hx => D.reads.total x n b hx.1, fun x n b x' st d hx h => by
      obtain ⟨h1, h2, h3⟩ := D.reads.step x n b x' st d hx.1 h
      exact ⟨⟨h1, (D.readOut x n b x' st d hx.1 h).trans hx.2⟩, h2, h3⟩⟩
  have B : WaitKeeps blk (fun x => Ok x ∧ out x = out s) rest := fun x x' st hx h => by
    obtain ⟨h1, h2, h3⟩ := D.wait x x' st hx.1 h
    exact ⟨⟨h1, h3.trans hx.2⟩, h2⟩
  obtain ⟨e, e1, e2, e3, e4, _⟩ := waLoop_sound R (fun x n b x' st d hx => D.lossless x n b x' st d hx.1) B b fuel s n []
    s' st d ⟨hs, rfl⟩ h
  rw [List.nil_append] at e1
  subst e1
  exact ⟨e4.1, e2, e3, e4.2⟩

/-- an async write adds to the stream out, from the front of its data, and leaves the stream in alone -/
theorem async_write {rd : Reader σ} {wr : Writer σ} {blk blkW : σ → Option (σ × Status)} {Ok : σ → Prop}
    {rest out : σ → List Byte} (D : Duplex rd wr blk blkW Ok rest out) {fuel : Nat} {s s' : σ} {d : List Byte}
    {st : Status} {n : Nat} (hs : Ok s) (h : waWrite wr blkW fuel s d = some (s', st, n)) :
    Ok s' ∧ rest s' = rest s ∧ ∃ k, k ≤ d.length ∧ out s' = out s ++ d.take k ∧ (st = SUCCESS → k = d.length ∧ n = k) := by
  have W : StreamWriter wr (fun x => Ok x ∧ rest x = rest s) out :=
    ⟨fun x d hx => D.writes.total x d hx.1, fun x d x' n hx h => by
      obtain ⟨h1, h2, h3⟩ := D.writes.step x d x' n hx.1 h
      exact ⟨⟨h1, (D.writeRest x d x' _ n hx.1 h).trans hx.2⟩, h2, h3⟩⟩
  have L : LosslessW wr (fun x => Ok x ∧ rest x = rest s) out := fun x d x' st n hx h hst => by
    obtain ⟨h1, h2⟩ := D.losslessW x d x' st n hx.1 h hst
    exact ⟨⟨h1, (D.writeRest x d x' st n hx.1 h).trans hx.2⟩, h2⟩
  have B : WaitKeeps blkW (fun x => Ok x ∧ rest x = rest s) out := fun x x' st hx h => by
    obtain ⟨h1, h2, h3⟩ := D.waitW x x' st hx.1 h
    exact ⟨⟨h1, h2.trans hx.2⟩, h3⟩
  obtain ⟨k, k1, k2, k3, k4, _⟩ := waWLoop_sound W L B d.length fuel s d s' st n ⟨hs, rfl⟩ h
  exact ⟨k3.1, k3.2, k, k1, k2, fun c => ⟨(k4 c).1, by rw [(k4 c).2, (k4 c).1]⟩⟩

/-- a non-blocking read that answers would-block has stored nothing -/
theorem would_block_nothing {rd : Reader σ} {blk : σ → Option (σ × Status)} : ∀ (fuel : Nat) (s : σ) (n : Nat)
    (acc : List Byte) (s' : σ) (d : List Byte),
    waLoop rd blk false fuel s n acc = some (s', ERROR_PSOCK_READ_WOULD_BLOCK, d) → d = [] := by
  have hsw : SUCCESS ≠ ERROR_PSOCK_READ_WOULD_BLOCK := by decide
  have hew : ERROR_PSOCK_READ_EOF ≠ ERROR_PSOCK_READ_WOULD_BLOCK := by decide
  intro fuel
  induction fuel with
  | zero => intro s n acc s' d h; simp [waLoop] at h
  | succ fuel ih =>
    intro s n acc s' d h
    unfold waLoop at h
    split at h
    · simp only [Option.some.injEq, Prod.mk.injEq] at h
      exact absurd h.2.1 hsw
    · split at h
      · cases h
      · rename_i s1 st e _
        rw [if_neg (by simp)] at h
        by_cases c1 : st = ERROR_PSOCK_READ_WOULD_BLOCK
        · rw [if_pos ⟨c1, rfl⟩] at h
          split at h
          · simp only [Option.some.injEq, Prod.mk.injEq] at h
            exact absurd h.2.1 hsw
          · simp only [Option.some.injEq, Prod.mk.injEq] at h
            rw [← h.2.2]
            exact List.length_eq_zero_iff.1 (by omega)
        · rw [if_neg (fun c => c1 c.1)] at h
          split at h
          · simp only [Option.some.injEq, Prod.mk.injEq] at h
            exact absurd h.2.1 c1
          · split at h
            · simp only [Option.some.injEq, Prod.mk.injEq] at h
              exact absurd h.2.1 hew
            · split at h
              · cases h
              · exact ih _ _ _ _ _ h

/-- `psock_write_raw_data` over a writer that sends from the front of its data -/
theorem writeRawData_front {wr : Writer σ} {P : σ → Prop} {out : σ → List Byte}
    (W : ∀ s d s' st n, P s → wr s d = some (s', st, n) →
      P s' ∧ ∃ k, k ≤ d.length ∧ out s' = out s ++ d.take k ∧ (st = SUCCESS → n = k))
    {s s' : σ} {d : List Byte} {st : Status} (hs : P s) (h : writeRawData wr s d = some (s', st)) :
    P s' ∧ ∃ k, k ≤ d.length ∧ out s' = out s ++ d.take k ∧ (st = SUCCESS → k = d.length) := by
  have key : ∀ (fuel : Nat) (s : σ) (d : List Byte) (s' : σ) (st : Status) (l : List Byte), P s →
      writeLoop wr fuel s d = some (s', st, l) →
      P s' ∧ ∃ k, k ≤ d.length ∧ out s' = out s ++ d.take k ∧ (st = SUCCESS → l = d.drop k) := by
    intro fuel
    induction fuel with
    | zero => intro s d s' st l _ h; simp [writeLoop] at h
    | succ fuel ih =>
      intro s d s' st l hs h
      unfold writeLoop at h
      by_cases h0 : d.length = 0
      · rw [if_pos h0] at h
        simp only [Option.some.injEq, Prod.mk.injEq] at h
        obtain ⟨rfl, rfl, rfl⟩ := h
        exact ⟨hs, 0, by omega, by simp, fun _ => rfl⟩
      · rw [if_neg h0] at h
        cases hw : wr s d with
        | none => rw [hw] at h; cases h
        | some r =>
          obtain ⟨s1, st1, n⟩ := r
          rw [hw] at h
          dsimp only at h
          obtain ⟨p1, k, p2, p3, p4⟩ := W s d s1 st1 n hs hw
          by_cases c : st1 = SUCCESS
          · rw [if_neg (fun x => x c)] at h
            have hn := p4 c
            by_cases hz : n = 0
            · rw [if_pos hz] at h
              simp only [Option.some.injEq, Prod.mk.injEq] at h
              obtain ⟨rfl, rfl, rfl⟩ := h
              refine ⟨p1, k, p2, p3, fun _ => ?_⟩
              rw [← hn, hz]; rfl
            · rw [if_neg hz] at h
              rw [if_neg (by omega)] at h
              obtain ⟨q1, j, q2, q3, q4⟩ := ih s1 (d.drop n) s' st l p1 h
              rw [List.length_drop] at q2
              refine ⟨q1, n + j, by omega, ?_, fun x => ?_⟩
              · rw [q3, p3, ← hn, List.append_assoc, List.take_add]
              · rw [q4 x, List.drop_drop]
          · rw [if_pos c] at h
            simp only [Option.some.injEq, Prod.mk.injEq] at h
            obtain ⟨rfl, rfl, rfl⟩ := h
            exact ⟨p1, k, p2, p3, fun x => absurd x c⟩
  unfold writeRawData at h
  cases hl : writeLoop wr (d.length + 1) s d with
  | none => simp [hl] at h
  | some r =>
    obtain ⟨s1, st1, l⟩ := r
    obtain ⟨k1, k, k2, k3, k4⟩ := key _ s d s1 st1 l hs hl
    simp only [hl, bind, Option.bind, pure] at h
    by_cases c : st1 = SUCCESS
    · rw [if_neg (fun x => x c)] at h
      have hld := k4 c
      by_cases hp : l.length > 0
      · rw [if_pos hp] at h
        simp only [Option.some.injEq, Prod.mk.injEq] at h
        obtain ⟨rfl, rfl⟩ := h
        exact ⟨k1, k, k2, k3, fun x => absurd x (by decide)⟩
      · rw [if_neg hp] at h
        simp only [Option.some.injEq, Prod.mk.injEq] at h
        obtain ⟨rfl, rfl⟩ := h
        refine ⟨k1, k, k2, k3, fun _ => ?_⟩
        rw [hld, List.length_drop] at hp
        omega
    · rw [if_pos c] at h
      simp only [Option.some.injEq, Prod.mk.injEq] at h
      obtain ⟨rfl, rfl⟩ := h
      exact ⟨k1, k, k2, k3, fun x => absurd x c⟩

/-! ### C85, safety -/

/-- one pass -/
theorem pass_sound {rd : Reader σ} {wr : Writer σ} {blk blkW : σ → Option (σ × Status)} {Ok : σ → Prop}
    {rest out : σ → List Byte} (D : Duplex rd wr blk blkW Ok rest out) {fuel : Nat} {s s' : σ} {data data' : List Byte}
    {x : Option Status} (hs : Ok s)
    (h : echoPass (waReadS rd blk fuel) (waWrite wr blkW fuel) blk s data = some (s', data', x)) :
    Ok s' ∧ data'.length = data.length ∧ x ≠ some SUCCESS ∧
      ∃ got sent, rest s = got ++ rest s' ∧ out s' = out s ++ sent ∧ sent <+: got ∧ (x = none → sent = got) := by
  unfold echoPass at h
  cases hr : readRaw (waReadS rd blk fuel) s data with
  | none => rw [hr] at h; cases h
  | some r =>
    rw [hr] at h
    dsimp only at h
    -- what the read did
    have hread : ∃ d, Ok r.sock ∧ rest s = d ++ rest r.sock ∧ out r.sock = out s ∧ r.buf.length = data.length ∧
        (r.st = ERROR_PSOCK_READ_WOULD_BLOCK → d = []) ∧
        (r.st = SUCCESS → r.buf.take r.size = d) := by
      unfold readRaw waReadS withSize at hr
      cases hw : waRead rd blk fuel s data.length false with
      | none => rw [hw] at hr; cases hr
      | some q =>
        obtain ⟨s1, st, d⟩ := q
        obtain ⟨a1, a2, a3, a4⟩ := async_read D hs hw
        rw [hw] at hr
        dsimp only [sizeAlways] at hr
        rw [if_neg (by omega)] at hr
        refine ⟨d, ?_⟩
        by_cases c1 : st = ERROR_PSOCK_READ_WOULD_BLOCK
        · rw [if_pos c1] at hr
          cases hr
          rw [c1] at hw
          exact ⟨a1, a3, a4, stored_length a2, fun _ => would_block_nothing _ _ _ _ _ _ hw,
            fun c => absurd c (show ERROR_PSOCK_READ_WOULD_BLOCK ≠ SUCCESS by decide)⟩
        · rw [if_neg c1] at hr
          by_cases c2 : st = SUCCESS
          · rw [if_neg (fun c => c c2)] at hr
            cases hr
            exact ⟨a1, a3, a4, stored_length a2,
              fun c => absurd c (show SUCCESS ≠ ERROR_PSOCK_READ_WOULD_BLOCK by decide), fun _ => take_stored⟩
          · rw [if_pos c2] at hr
            cases hr
            exact ⟨a1, a3, a4, stored_length a2, fun c => absurd c c1, fun c => absurd c c2⟩
    obtain ⟨d, r1, r2, r3, r4, r5, r6⟩ := hread
    by_cases c1 : r.st = ERROR_PSOCK_READ_WOULD_BLOCK
    · rw [if_pos c1] at h
      have hd := r5 c1
      subst hd
      cases hb : blk r.sock with
      | none => rw [hb] at h; cases h
      | some q =>
        obtain ⟨s2, bst⟩ := q
        rw [hb] at h
        dsimp only at h
        obtain ⟨b1, b2, b3⟩ := D.wait _ _ _ r1 hb
        by_cases c2 : bst = SUCCESS
        · rw [if_neg (fun c => c c2)] at h
          cases h
          exact ⟨b1, r4, by simp, [], [], by rw [r2, b2], by rw [b3, r3, List.append_nil], List.prefix_refl _, fun _ => rfl⟩
        · rw [if_pos c2] at h
          cases h
          exact ⟨b1, r4, fun c => c2 (by simpa using c), [], [], by rw [r2, b2], by rw [b3, r3, List.append_nil],
            List.prefix_refl _, fun _ => rfl⟩
    · rw [if_neg c1] at h
      by_cases c2 : r.st = SUCCESS
      · rw [if_neg (fun c => c c2)] at h
        split at h
        · cases h
        · rw [r6 c2] at h
          cases hw : writeRawData (waWrite wr blkW fuel) r.sock d with
          | none => rw [hw] at h; cases h
          | some q =>
            obtain ⟨s2, wst⟩ := q
            rw [hw] at h
            dsimp only at h
            obtain ⟨⟨w1, w2⟩, k, w3, w4, w5⟩ := writeRawData_front (P := fun x => Ok x ∧ rest x = rest r.sock) (out := out)
              (fun x d x' st n hx hh => by
                obtain ⟨y1, y2, k, y3, y4, y5⟩ := async_write D hx.1 hh
                exact ⟨⟨y1, y2.trans hx.2⟩, k, y3, y4, fun c => (y5 c).2⟩) ⟨r1, rfl⟩ hw
            by_cases c3 : wst = SUCCESS
            · rw [if_neg (fun c => c c3)] at h
              cases h
              refine ⟨w1, r4, by simp, d, d.take k, by rw [r2, w2], by rw [w4, r3], List.take_prefix _ _, fun _ => ?_⟩
              rw [w5 c3, List.take_length]
            · rw [if_pos c3] at h
              cases h
              exact ⟨w1, r4, fun c => c3 (by simpa using c), d, d.take k, by rw [r2, w2], by rw [w4, r3],
                List.take_prefix _ _, fun c => by cases c⟩
      · rw [if_pos c2] at h
        cases h
        exact ⟨r1, r4, fun c => c2 (by simpa using c), d, [], r2, by rw [r3, List.append_nil], List.nil_prefix,
          fun c => by cases c⟩

/-- C85, safety, over every connection and every scheduling: whatever the number of passes, what the echo
fiber has sent is the beginning of what the peer has sent, in order and without repetition. While the loop
runs, all that was taken from the connection has been sent back. The loop is left with an error only. -/
theorem echo_sends_back (rd : Reader σ) (wr : Writer σ) (blk blkW : σ → Option (σ × Status)) (Ok : σ → Prop)
    (rest out : σ → List Byte) (D : Duplex rd wr blk blkW Ok rest out) (fuel k : Nat) (s s' : σ)
    (data data' : List Byte) (x : Option Status) (hs : Ok s)
    (h : echoRun (waReadS rd blk fuel) (waWrite wr blkW fuel) blk k s data = some (s', data', x)) :
    ∃ got sent, rest s = got ++ rest s' ∧ out s' = out s ++ sent ∧ sent <+: got ∧ (x = none → sent = got) ∧
      x ≠ some SUCCESS := by
  induction k generalizing s data with
  | zero =>
    simp only [echoRun, Option.some.injEq, Prod.mk.injEq] at h
    obtain ⟨rfl, rfl, rfl⟩ := h
    exact ⟨[], [], by simp, by simp, List.prefix_refl _, fun _ => rfl, by simp⟩
  | succ k ih =>
    unfold echoRun at h
    split at h
    · cases h
    · rename_i s1 data1 st hp
      cases h
      obtain ⟨_, _, p3, got, sent, p4, p5, p6, p7⟩ := pass_sound D hs hp
      exact ⟨got, sent, p4, p5, p6, p7, p3⟩
    · rename_i s1 data1 hp
      obtain ⟨p1, _, _, got, sent, p4, p5, _, p7⟩ := pass_sound D hs hp
      have := p7 rfl; subst this
      obtain ⟨got2, sent2, i1, i2, i3, i4, i5⟩ := ih s1 data1 p1 h
      refine ⟨sent ++ got2, sent ++ sent2, by rw [p4, i1, List.append_assoc], by rw [i2, p5, List.append_assoc], ?_,
        fun c => by rw [i4 c], i5⟩
      exact List.prefix_append_right_inj _ |>.2 i3

/-! ### C85, a connection of scripted behaviour -/

/-- reading over bytes that have arrived: as many as were asked for if there are enough, else all of them
and the loop goes on with what follows -/
theorem waLoop_chunks (blk : List REv → Option (List REv × Status)) (b : Bool) (T : List REv) :
    ∀ (fuel : Nat) (ds : List (List Byte)) (n : Nat) (acc : List Byte), (∀ d ∈ ds, d ≠ []) → n < fuel →
      (n ≤ ds.flatten.length → ∃ ds' : List (List Byte), waLoop fdRead blk b fuel (ds.map .chunk ++ T) n acc =
        some (ds'.map .chunk ++ T, SUCCESS, acc ++ ds.flatten.take n) ∧ ds'.flatten = ds.flatten.drop n ∧
        ∀ d ∈ ds', d ≠ []) ∧
      (ds.flatten.length < n → ∃ more, n - ds.flatten.length < more ∧
        waLoop fdRead blk b fuel (ds.map .chunk ++ T) n acc =
        waLoop fdRead blk b more T (n - ds.flatten.length) (acc ++ ds.flatten)) := by
  have hsw : SUCCESS ≠ ERROR_PSOCK_READ_WOULD_BLOCK := by decide
  intro fuel
  induction fuel with
  | zero => intro ds n acc _ h; omega
  | succ fuel ih =>
    intro ds n acc hds hf
    by_cases h0 : n = 0
    · subst h0
      exact ⟨fun _ => ⟨ds, by simp [waLoop], by simp, hds⟩, fun h => by omega⟩
    · cases ds with
      | nil =>
        refine ⟨fun h => by simp at h; omega, fun _ => ⟨fuel + 1, by simpa using hf, by simp⟩⟩
      | cons d ds =>
        have hd := hds d List.mem_cons_self
        have hd0 : d.length ≠ 0 := fun h => hd (List.length_eq_zero_iff.1 h)
        have ht : ∀ x ∈ ds, x ≠ [] := fun x hx => hds x (List.mem_cons_of_mem _ hx)
        have hstep : waLoop fdRead blk b (fuel + 1) ((d :: ds).map .chunk ++ T) n acc =
            if d.length ≤ n then waLoop fdRead blk b fuel (ds.map .chunk ++ T) (n - d.length) (acc ++ d)
            else waLoop fdRead blk b fuel (.chunk (d.drop n) :: (ds.map .chunk ++ T)) 0 (acc ++ d.take n) := by
          conv => lhs; unfold waLoop
          rw [if_neg h0]
          simp only [List.map_cons, List.cons_append, fdRead]
          by_cases hl : d.length ≤ n
          · rw [if_pos hl, if_pos hl]
            simp only [hsw, false_and, if_false, ne_eq, not_true_eq_false]
            rw [if_neg hd0, if_neg (by omega)]
          · rw [if_neg hl, if_neg hl]
            have hlt : (d.take n).length = n := by rw [List.length_take]; omega
            simp only [hsw, false_and, if_false, ne_eq, not_true_eq_false, hlt]
            rw [if_neg h0, if_neg (by omega), Nat.sub_self]
        rw [hstep]
        by_cases hl : d.length ≤ n
        · rw [if_pos hl]
          obtain ⟨i1, i2⟩ := ih ds (n - d.length) (acc ++ d) ht (by omega)
          rw [List.flatten_cons, List.length_append]
          refine ⟨fun h => ?_, fun h => ?_⟩
          · obtain ⟨ds', j1, j2, j3⟩ := i1 (by omega)
            refine ⟨ds', ?_, ?_, j3⟩
            · rw [j1]
              simp [List.take_append, List.take_of_length_le hl]
            · rw [j2]
              simp [List.drop_append, List.drop_of_length_le hl]
          · obtain ⟨more, j1, j2⟩ := i2 (by omega)
            refine ⟨more, by omega, ?_⟩
            rw [j2, List.append_assoc, Nat.sub_sub]
        · rw [if_neg hl]
          rw [List.flatten_cons, List.length_append]
          refine ⟨fun _ => ?_, fun h => by omega⟩
          have hdn : d.drop n ≠ [] := fun c => by
            rw [List.drop_eq_nil_iff] at c
            omega
          have hnd : n - d.length = 0 := by omega
          obtain ⟨fuel, rfl⟩ : ∃ k, fuel = k + 1 := ⟨fuel - 1, by omega⟩
          refine ⟨d.drop n :: ds, ?_, ?_, ?_⟩
          · unfold waLoop
            simp [hnd, List.take_append]
          · simp [hnd, List.drop_append]
          · intro x hx
            rcases List.mem_cons.1 hx with rfl | hx
            · exact hdn
            · exact ht x hx

/-- sending over a connection whose writes neither fail nor stop -/
theorem connWrite_all (r : List REv) (w : List WEv) (out d : List Byte) (hw : ∀ e ∈ w, e ≠ .err ∧ e ≠ .take 0) :
    ∃ w', writeRawData connWrite (r, (w, out)) d = some ((r, (w', out ++ d)), SUCCESS) ∧
      ∀ e ∈ w', e ≠ .err ∧ e ≠ .take 0 := by
  unfold writeRawData writeLoop
  by_cases h0 : d.length = 0
  · have : d = [] := List.length_eq_zero_iff.1 h0
    subst this
    exact ⟨w, by simp, hw⟩
  · rw [if_neg h0]
    obtain ⟨w', h1⟩ := async_write_delivers w out d hw (d.length + wWaits w + 1) (by omega)
    have h2 : asyncWrite (w, out) d = some ((w', out ++ d), SUCCESS, d.length) := h1
    have hw' : HealthyW (w', out ++ d) := (asyncWrite_stream.step (w, out) d _ _ hw h2).1
    obtain ⟨k, hk⟩ : ∃ k, d.length = k + 1 := ⟨d.length - 1, by omega⟩
    refine ⟨w', ?_, hw'⟩
    simp only [connWrite, h2]
    rw [if_neg (fun c => c rfl), if_neg h0, if_neg (by omega)]
    rw [hk, List.drop_of_length_le (by omega)]
    simp [writeLoop]

/-- a pass over bytes that fill the array: they are sent back -/
theorem pass_full (ds : List (List Byte)) (hds : ∀ d ∈ ds, d ≠ []) (T : List REv) (w : List WEv) (out data : List Byte)
    (hw : ∀ e ∈ w, e ≠ .err ∧ e ≠ .take 0) (hl : data.length ≤ ds.flatten.length) :
    ∃ (ds' : List (List Byte)) (w' : List WEv) (data' : List Byte), echoPass connRead connWrite fdWait (ds.map .chunk ++ T, (w, out)) data =
        some ((ds'.map .chunk ++ T, (w', out ++ ds.flatten.take data.length)), data', none) ∧
      ds'.flatten = ds.flatten.drop data.length ∧ (∀ d ∈ ds', d ≠ []) ∧ (∀ e ∈ w', e ≠ .err ∧ e ≠ .take 0) ∧
      data'.length = data.length := by
  have hsw : SUCCESS ≠ ERROR_PSOCK_READ_WOULD_BLOCK := by decide
  obtain ⟨ds', h1, h2, h3⟩ := (waLoop_chunks fdWait false T
    (data.length + fdWaits (ds.map .chunk ++ T) + 1) ds data.length [] hds (by omega)).1 hl
  rw [List.nil_append] at h1
  have hr : asyncRead (ds.map .chunk ++ T) data.length false =
    some (ds'.map .chunk ++ T, SUCCESS, ds.flatten.take data.length) := h1
  obtain ⟨w', w1, w2⟩ := connWrite_all (ds'.map .chunk ++ T) w out (ds.flatten.take data.length) hw
  have hlen : (ds.flatten.take data.length).length = data.length := by rw [List.length_take]; omega
  refine ⟨ds', w', ds.flatten.take data.length ++ data.drop (ds.flatten.take data.length).length, ?_, h2, h3, w2, ?_⟩
  · unfold echoPass readRaw connRead withSize
    simp only [hr, sizeAlways]
    rw [if_neg (by omega), if_neg hsw, if_neg (fun c => c rfl)]
    simp only
    rw [if_neg hsw, if_neg (fun c => c rfl), if_neg (by rw [List.length_append]; omega), take_stored, w1]
    simp
  · exact stored_length (by omega)

/-- a pass over fewer bytes than the array holds, with no more arrived yet: they are sent back -/
theorem pass_short (ds : List (List Byte)) (hds : ∀ d ∈ ds, d ≠ []) (T : List REv) (w : List WEv) (out data : List Byte)
    (hw : ∀ e ∈ w, e ≠ .err ∧ e ≠ .take 0) (hl : ds.flatten.length < data.length) :
    ∃ w' data', echoPass connRead connWrite fdWait (ds.map .chunk ++ .again :: T, (w, out)) data =
        some ((T, (w', out ++ ds.flatten)), data', none) ∧ (∀ e ∈ w', e ≠ .err ∧ e ≠ .take 0) ∧
      data'.length = data.length := by
  have hsw : SUCCESS ≠ ERROR_PSOCK_READ_WOULD_BLOCK := by decide
  obtain ⟨more, m1, m2⟩ := (waLoop_chunks fdWait false (.again :: T)
    (data.length + fdWaits (ds.map .chunk ++ .again :: T) + 1) ds data.length [] hds (by omega)).2 hl
  rw [List.nil_append] at m2
  have hr : asyncRead (ds.map .chunk ++ .again :: T) data.length false =
      some (T, if ds.flatten = [] then ERROR_PSOCK_READ_WOULD_BLOCK else SUCCESS, ds.flatten) := by
    show waLoop _ _ _ _ _ _ _ = _
    rw [m2]
    obtain ⟨more, rfl⟩ : ∃ k, more = k + 1 := ⟨more - 1, by omega⟩
    unfold waLoop
    rw [if_neg (by omega)]
    simp only [fdRead]
    rw [if_neg (by simp), if_pos (by simp)]
    by_cases c : ds.flatten = []
    · simp [c]
    · rw [if_pos (List.length_pos_iff.2 c), if_neg c]
  by_cases c : ds.flatten = []
  · rw [if_pos c] at hr
    refine ⟨w, data, ?_, hw, rfl⟩
    unfold echoPass readRaw connRead withSize
    simp only [hr, sizeAlways, c]
    simp [fdWait]
  · rw [if_neg c] at hr
    obtain ⟨w', w1, w2⟩ := connWrite_all T w out ds.flatten hw
    refine ⟨w', ds.flatten ++ data.drop ds.flatten.length, ?_, w2, stored_length (by omega)⟩
    unfold echoPass readRaw connRead withSize
    simp only [hr, sizeAlways]
    rw [if_neg (by omega), if_neg hsw, if_neg (fun c => c rfl)]
    simp only
    rw [if_neg hsw, if_neg (fun c => c rfl), if_neg (by rw [List.length_append]; omega), take_stored, w1]
    simp

/-- a pass over fewer bytes than the array holds and the end of the stream: the loop is left and nothing is
sent -/
theorem pass_eof (ds : List (List Byte)) (hds : ∀ d ∈ ds, d ≠ []) (w : List WEv) (out data : List Byte)
    (hl : ds.flatten.length < data.length) :
    ∃ data', echoPass connRead connWrite fdWait (ds.map .chunk, (w, out)) data =
        some (([], (w, out)), data', some ERROR_PSOCK_READ_EOF) := by
  have hew : ERROR_PSOCK_READ_EOF ≠ ERROR_PSOCK_READ_WOULD_BLOCK := by decide
  have hes : ERROR_PSOCK_READ_EOF ≠ SUCCESS := by decide
  have hsw : SUCCESS ≠ ERROR_PSOCK_READ_WOULD_BLOCK := by decide
  obtain ⟨more, m1, m2⟩ := (waLoop_chunks fdWait false []
    (data.length + fdWaits (ds.map .chunk) + 1) ds data.length [] hds (by omega)).2 hl
  rw [List.nil_append, List.append_nil] at m2
  have hr : asyncRead (ds.map .chunk) data.length false = some ([], ERROR_PSOCK_READ_EOF, ds.flatten) := by
    show waLoop _ _ _ _ _ _ _ = _
    rw [m2]
    obtain ⟨more, rfl⟩ : ∃ k, more = k + 1 := ⟨more - 1, by omega⟩
    unfold waLoop
    rw [if_neg (by omega)]
    simp [fdRead, hsw]
  refine ⟨ds.flatten ++ data.drop ds.flatten.length, ?_⟩
  unfold echoPass readRaw connRead withSize
  simp only [hr, sizeAlways]
  rw [if_neg (by omega), if_neg hew, if_pos hes]
  simp only
  rw [if_neg hew, if_pos hes]

/-- the number of passes adds up -/
theorem echoRun_add {rd : SReader σ} {wr : Writer σ} {blk : σ → Option (σ × Status)} {j : Nat} {s s1 : σ}
    {data data1 : List Byte} (h : echoRun rd wr blk j s data = some (s1, data1, none)) (k : Nat) :
    echoRun rd wr blk (j + k) s data = echoRun rd wr blk k s1 data1 := by
  induction j generalizing s data with
  | zero =>
    simp only [echoRun, Option.some.injEq, Prod.mk.injEq] at h
    obtain ⟨rfl, rfl, _⟩ := h
    rw [Nat.zero_add]
  | succ j ih =>
    rw [Nat.succ_add]
    unfold echoRun at h
    conv => lhs; unfold echoRun
    split at h
    · cases h
    · cases h
    · exact ih h

theorem run_one {rd : SReader σ} {wr : Writer σ} {blk : σ → Option (σ × Status)} {s s1 : σ}
    {data data1 : List Byte} {x : Option Status} (h : echoPass rd wr blk s data = some (s1, data1, x)) :
    echoRun rd wr blk 1 s data = some (s1, data1, x) := by
  unfold echoRun
  rw [h]
  cases x <;> rfl

/-- all that has arrived in a burst is sent back, up to a remainder smaller than the array -/
theorem run_burst (T : List REv) (data : List Byte) : ∀ (m : Nat) (ds : List (List Byte)) (w : List WEv)
    (out : List Byte) (data0 : List Byte), data0.length = data.length → (∀ d ∈ ds, d ≠ []) →
    (∀ e ∈ w, e ≠ .err ∧ e ≠ .take 0) → m * data.length ≤ ds.flatten.length →
    ∃ (j : Nat) (ds' : List (List Byte)) (w' : List WEv) (data' : List Byte), echoRun connRead connWrite fdWait j (ds.map .chunk ++ T, (w, out)) data0 =
        some ((ds'.map .chunk ++ T, (w', out ++ ds.flatten.take (m * data.length))), data', none) ∧
      ds'.flatten = ds.flatten.drop (m * data.length) ∧ (∀ d ∈ ds', d ≠ []) ∧ (∀ e ∈ w', e ≠ .err ∧ e ≠ .take 0) ∧
      data'.length = data.length := by
  intro m
  induction m with
  | zero =>
    intro ds w out data0 h0 hds hw _
    exact ⟨0, ds, w, data0, by simp [echoRun], by simp, hds, hw, h0⟩
  | succ m ih =>
    intro ds w out data0 h0 hds hw hl
    rw [Nat.succ_mul] at hl
    obtain ⟨ds1, w1, data1, p1, p2, p3, p4, p5⟩ := pass_full ds hds T w out data0 hw (by omega)
    rw [h0] at p1 p2 p5
    obtain ⟨j, ds', w', data', q1, q2, q3, q4, q5⟩ := ih ds1 w1 (out ++ ds.flatten.take data.length) data1 p5 p3 p4
      (by rw [p2, List.length_drop]; omega)
    refine ⟨1 + j, ds', w', data', ?_, ?_, q3, q4, q5⟩
    · rw [echoRun_add (run_one p1), q1, p2, List.append_assoc, Nat.succ_mul, Nat.add_comm (m * data.length), List.take_add]
    · rw [q2, p2, List.drop_drop, Nat.succ_mul, Nat.add_comm]

theorem rem_lt {x c : Nat} (hc : 0 < c) : x - x / c * c < c := by
  have h1 := Nat.div_add_mod x c
  have h2 := Nat.mod_lt x hc
  rw [Nat.mul_comm] at h1
  omega

/-- What the kernel answers to `read` for a peer that sends bursts, each of some pieces, and after each of
them waits, and in the end sends `last` and closes the connection at once. -/
def peer (bursts : List (List (List Byte))) (last : List (List Byte)) : List REv :=
  (bursts.map fun ds => ds.map REv.chunk ++ [REv.again]).flatten ++ last.map REv.chunk

/-- what that peer has sent before the last burst -/
def sentBefore (bursts : List (List (List Byte))) : List Byte := (bursts.map List.flatten).flatten

/-- What the echo server does on a connection that works: it sends back all that the peer has sent before
the last burst, and of the last burst as many whole blocks of 1024 bytes as there are; then it leaves the
loop because of the end of the stream. This holds for all bursts, however they are cut into pieces, and for
every behaviour of the writes that neither fails nor stops. -/
theorem echo_exact (bursts : List (List (List Byte))) (last : List (List Byte)) (w : List WEv) (out : List Byte)
    (data : List Byte) (hb : ∀ ds ∈ bursts, ∀ d ∈ ds, d ≠ []) (hla : ∀ d ∈ last, d ≠ [])
    (hw : ∀ e ∈ w, e ≠ .err ∧ e ≠ .take 0) (hdata : data.length = dataSize) :
    ∃ k w' data', echoRun connRead connWrite fdWait k (peer bursts last, (w, out)) data =
      some (([], (w', out ++ (sentBefore bursts ++
        last.flatten.take (last.flatten.length / dataSize * dataSize)))), data', some ERROR_PSOCK_READ_EOF) := by
  have hpos : 0 < dataSize := by decide
  induction bursts generalizing w out data with
  | nil =>
    obtain ⟨j, ds', w', data', r1, r2, r3, r4, r5⟩ := run_burst [] data (last.flatten.length / dataSize) last w out data
      rfl hla hw (by rw [hdata]; exact Nat.div_mul_le_self _ _)
    rw [hdata] at r1 r2 r5
    obtain ⟨data2, e1⟩ := pass_eof ds' r3 w' (out ++ last.flatten.take (last.flatten.length / dataSize * dataSize)) data'
      (by
        rw [r2, List.length_drop, r5]
        exact rem_lt hpos)
    refine ⟨j + 1, w', data2, ?_⟩
    rw [List.append_nil, List.append_nil] at r1
    have : peer [] last = last.map .chunk := by simp [peer]
    rw [this, echoRun_add r1, run_one e1]
    simp [sentBefore]
  | cons ds bursts ih =>
    have hds := hb ds List.mem_cons_self
    obtain ⟨j, ds', w', data', r1, r2, r3, r4, r5⟩ := run_burst (.again :: peer bursts last) data
      (ds.flatten.length / dataSize) ds w out data rfl hds hw (by rw [hdata]; exact Nat.div_mul_le_self _ _)
    rw [hdata] at r1 r2 r5
    obtain ⟨w2, data2, s1, s2, s3⟩ := pass_short ds' r3 (peer bursts last) w'
      (out ++ ds.flatten.take (ds.flatten.length / dataSize * dataSize)) data' r4
      (by
        rw [r2, List.length_drop, r5]
        exact rem_lt hpos)
    rw [List.append_assoc, r2, List.take_append_drop] at s1
    obtain ⟨k, w3, data3, i1⟩ := ih w2 (out ++ ds.flatten) data2 (fun x hx => hb x (List.mem_cons_of_mem _ hx)) s2
      (by rw [s3, r5])
    refine ⟨j + (1 + k), w3, data3, ?_⟩
    have hp : peer (ds :: bursts) last = ds.map .chunk ++ .again :: peer bursts last := by
      simp [peer, List.append_assoc]
    rw [hp, echoRun_add r1, echoRun_add (run_one s1), i1]
    simp [sentBefore, List.append_assoc]

/-- C85 (part): when the peer waits before it closes the connection, all it has sent is sent back, in order.
Missing: the bytes that the peer sends right before it closes its end. -/
theorem echo_all_partial (bursts : List (List (List Byte))) (w : List WEv) (data : List Byte)
    (hb : ∀ ds ∈ bursts, ∀ d ∈ ds, d ≠ []) (hw : ∀ e ∈ w, e ≠ .err ∧ e ≠ .take 0) (hdata : data.length = dataSize) :
    ∃ k w' data', echoRun connRead connWrite fdWait k (peer bursts [], (w, [])) data =
      some (([], (w', fdRest (peer bursts []))), data', some ERROR_PSOCK_READ_EOF) := by
  obtain ⟨k, w', data', h⟩ := echo_exact bursts [] w [] data hb (by simp) hw hdata
  refine ⟨k, w', data', ?_⟩
  rw [h]
  have : ∀ es fs, fdRest (es ++ fs) = fdRest es ++ fdRest fs := by
    intro es fs
    induction es with
    | nil => rfl
    | cons e es ih => cases e <;> simp [fdRest, ih]
  have key : fdRest (peer bursts []) = sentBefore bursts := by
    unfold peer sentBefore
    rw [List.map_nil, List.append_nil]
    clear h hb
    induction bursts with
    | nil => rfl
    | cons ds bs ih =>
      rw [List.map_cons, List.flatten_cons, this, ih, List.map_cons, List.flatten_cons, this]
      congr 1
      have : ∀ ds : List (List Byte), fdRest (ds.map .chunk) = ds.flatten := by
        intro ds
        induction ds with
        | nil => rfl
        | cons d ds ih => simp [fdRest, ih]
      rw [this]; simp [fdRest]
  rw [key]; simp

/-- C85 fails: a peer that sends a message of less than 1024 bytes and closes its end gets nothing back. -/
theorem echo_violated (d : List Byte) (w : List WEv) (data : List Byte) (hd : d ≠ []) (hl : d.length < dataSize)
    (hw : ∀ e ∈ w, e ≠ .err ∧ e ≠ .take 0) (hdata : data.length = dataSize) :
    ∃ k w' data', echoRun connRead connWrite fdWait k ([.chunk d], (w, [])) data =
      some (([], (w', [])), data', some ERROR_PSOCK_READ_EOF) := by
  obtain ⟨k, w', data', h⟩ := echo_exact [] [d] w [] data (by simp) (by simpa using hd) hw hdata
  refine ⟨k, w', data', ?_⟩
  have h2 : ([d] : List (List Byte)).flatten.length / dataSize = 0 := by
    simp; exact Or.inr hl
  rw [h2] at h
  simpa [peer, sentBefore] using h

/-! ### The hypotheses are met -/

/-- the two directions of a scripted connection, below the async psock -/
example : Duplex (fun (c : Conn) n b => (fdRead c.1 n b).map fun r => ((r.1, c.2), r.2))
    (fun (c : Conn) d => (fdWrite c.2 d).map fun r => ((c.1, r.1), r.2)) fdWait fdWait
    (fun c => HealthyW c.2) (fun c => fdRest c.1) (fun c => c.2.2) := by
  refine ⟨⟨?_, ?_⟩, ?_, ?_, ⟨?_, ?_⟩, ?_, ?_, ?_, ?_⟩
  · intro s n b _
    rw [Option.isSome_map]; exact fdRead_stream.total _ _ _ trivial
  · intro s n b s' st d hs h
    obtain ⟨⟨r, x⟩, h1, h2⟩ := Option.map_eq_some_iff.1 h
    cases h2
    obtain ⟨_, h3, h4⟩ := fdRead_stream.step _ _ _ _ _ _ trivial h1
    exact ⟨hs, h3, h4⟩
  · intro s n b s' st d hs h
    obtain ⟨⟨r, x⟩, h1, h2⟩ := Option.map_eq_some_iff.1 h
    cases h2
    exact fdRead_lossless _ _ _ _ _ _ trivial h1
  · intro s n b s' st d hs h
    obtain ⟨⟨r, x⟩, h1, h2⟩ := Option.map_eq_some_iff.1 h
    cases h2; rfl
  · intro s d hs
    rw [Option.isSome_map]; exact fdWrite_ok.total _ _ hs
  · intro s d s' n hs h
    obtain ⟨⟨r, x⟩, h1, h2⟩ := Option.map_eq_some_iff.1 h
    cases h2
    exact fdWrite_ok.step _ _ _ _ hs h1
  · intro s d s' st n hs h hst
    obtain ⟨⟨r, x⟩, h1, h2⟩ := Option.map_eq_some_iff.1 h
    cases h2
    exact fdWrite_ok_lossless _ _ _ _ _ hs h1 hst
  · intro s d s' st n hs h
    obtain ⟨⟨r, x⟩, h1, h2⟩ := Option.map_eq_some_iff.1 h
    cases h2; rfl
  · intro s s' st hs h; cases h; exact ⟨hs, rfl, rfl⟩
  · intro s s' st hs h; cases h; exact ⟨hs, rfl, rfl⟩

-- two bursts, the second in two pieces, over a connection that takes three bytes at a time and then blocks
example : (echoRun connRead connWrite fdWait 9 (peer [[[1, 2, 3, 4]], [], [[5], [6, 7]]] [], ([.take 3, .again], [])) [0, 0, 0, 0, 0]).map
    (fun r => (r.1.2.2, r.2.2)) = some ([1, 2, 3, 4, 5, 6, 7], some ERROR_PSOCK_READ_EOF) := by decide
-- the same without the wait before the end: the last burst is lost
example : (echoRun connRead connWrite fdWait 9 (peer [[[1, 2, 3, 4]], []] [[5], [6, 7]], ([.take 3, .again], [])) [0, 0, 0, 0, 0]).map
    (fun r => (r.1.2.2, r.2.2)) = some ([1, 2, 3, 4], some ERROR_PSOCK_READ_EOF) := by decide

end Rcpr.Echo
