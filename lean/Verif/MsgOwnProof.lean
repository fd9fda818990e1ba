import Verif.MsgOwnSpec
import Verif.FiberRun

/-! Lemmas for `Props/MsgOwn.lean`. -/
namespace Rcpr.MsgOwn

open Rcpr Rcpr.Fiber

/-- nothing changes the event of a queued fiber that is inside a send -/
theorem ev_send {w w1 : Sys} {c : Call} {o : Oracle} (i : Inv w) (lg : Legal w c o) (h : HStep w c w1) {g a m : Nat}
    (hy : g ≠ w.cur) (hq : g ∈ w.runq) (hc : w.call g = some (.send a m)) : w1.ev g = w.ev g := by
  have hj := i.j
  have hmg : w.mgmt ≠ 0 → g ≠ w.mgmt := fun h0 h => by
    have := (hj.mgmt h0).2; rw [← h, hc] at this; cases this
  have ht : ∀ x l, w.conds x = some l → g ∉ l := fun x l hl hg => by
    have := ((hj.cond x l hl).2 g hg).2.2; rw [hc] at this; cases this
  cases h with
  | add f t hm =>
    have : g ≠ f := fun h => (lg.fresh f rfl).2.1 (by simp [← h, hq])
    simp [fr, bk, setEv, hy, this]
  | addM f t hm =>
    have : g ≠ f := fun h => (lg.fresh f rfl).2.1 (by simp [← h, hq])
    simp [fr, bk, setEv, hy, this, hmg hm]
  | stopM s hm => simp [fr, setEv, hmg hm]
  | sendWake a' m1 m' ms b hb hbl hms =>
    have : g ≠ b.blocked := fun h => by
      have := (hj.box a' b hb hbl).2.1; rw [← h, hc] at this; cases this
    simp [fr, setBox, setEv, hy, this]
  | notifyOne x f l hl =>
    have := ht x _ hl
    simp only [bk, setEv, if_neg hy]
    rw [(bks_fields [f] _).2.2.2.2.2.2.2.2.2.1 g (by simp at this ⊢; exact this.1)]
    rfl
  | notifyAll x l hl =>
    simp only [bk, setEv, if_neg hy]
    rw [(bks_fields l _).2.2.2.2.2.2.2.2.2.1 g (ht x _ hl)]
    rfl
  | _ => first
    | rfl
    | simp [fr, bk, setBox, setCond, setEv, hy]

/-- a send that is not answered on the spot succeeds -/
theorem send_late {w w1 : Sys} {c : Call} {o : Oracle} (i : Inv w) (lg : Legal w c o) (hs : HStep w c w1)
    (m : Mid w1 (inside w c)) {f : Nat} {q : List Nat} {e : Ev}
    (hf : w1.runq = f :: q ∧ e = w1.ev f ∨
      w1.runq = [] ∧ q = [] ∧ f = w1.idle ∧ f ≠ 0 ∧ e = ⟨.internal, RESUME_IDLE, 0⟩)
    (hy : f ≠ w.cur) {a n : Nat} (hc : inside w c f = some (.send a n)) : (result (.send a n) e).1 = SUCCESS := by
  rcases hf with ⟨h1, h2⟩ | ⟨h1, h2, h3, h4, h5⟩
  · have hc' : w.call f = some (.send a n) := by simpa [inside, hy] using hc
    have hq : f ∈ w.runq := by
      rcases runq_mem i lg hs (g := f) (by simp [h1]) with h | h | h | h | ⟨x, h⟩ | ⟨x, h⟩
      · exact absurd h hy
      · exact h
      all_goals rw [hc] at h; cases h
    have t := i.tight f hq
    rw [hc'] at t
    have : e = ⟨.msg, MSG_SEND_SUCCESS, 0⟩ := by rw [h2, ev_send i lg hs hy hq hc']; exact t
    subst this; simp [result, MSG_SEND_SUCCESS, MSG_SEND_FAILURE]
  · subst h3
    rcases m.j.idle h4 with h | h <;> rw [hc] at h <;> cases h

/-- what hands a message to a fiber: a receive, or a send refused on the spot -/
theorem hands_out {w w2 : Sys} {c : Call} {o : Oracle} {it : Item} (i : Inv w) (lg : Legal w c o)
    (h : Out w c w2 it) {a m f : Nat} (hh : hands it = some (a, m, f)) :
    it.recvd a = some m ∨ (it.call = .send a m ∧ it.refused = true ∧ f = w.cur) := by
  obtain ⟨w1, g, q, e, hs, md, af, rfl, hf⟩ := h.out
  cases hi : inside w c g with
  | none => rw [hi] at hh; simp [hands, nextOf] at hh
  | some c' =>
    rw [hi] at hh
    cases c' with
    | send a' m' =>
      simp only [hands, nextOf] at hh
      split at hh
      · rename_i hne
        simp only [Option.some.injEq, Prod.mk.injEq] at hh
        obtain ⟨rfl, rfl, rfl⟩ := hh
        by_cases hy : g = w.cur
        · subst hy
          rw [inside_cur] at hi
          cases hi
          right
          refine ⟨rfl, ?_, rfl⟩
          simp [Item.refused, nextOf, hne]
        · exact absurd (send_late i lg hs md hf hy hi) hne
      · cases hh
    | receive a' =>
      simp only [hands, nextOf] at hh
      split at hh
      · rename_i hne
        simp only [Option.map_eq_some_iff, Prod.mk.injEq] at hh
        obtain ⟨m', h1, rfl, rfl, rfl⟩ := hh
        left
        simp [Item.recvd, nextOf, hne, h1]
      · cases hh
    | _ => simp [hands, nextOf] at hh

/-- a receive hands its message to a fiber -/
theorem hands_recvd {it : Item} {a m : Nat} (h : it.recvd a = some m) : ∃ f, hands it = some (a, m, f) := by
  unfold Item.recvd at h
  split at h
  · rename_i f a' e hn
    split at h
    · rename_i hc
      obtain ⟨rfl, hc⟩ := hc
      exact ⟨f, by simp [hands, hn, hc, h]⟩
    · cases h
  · cases h

/-- a send refused on the spot hands its message back -/
theorem hands_refused {w w2 : Sys} {c : Call} {it : Item} (h : Out w c w2 it) {a m : Nat} (hc : it.call = .send a m)
    (hr : it.refused = true) : hands it = some (a, m, w.cur) := by
  obtain ⟨w1, g, q, e, hs, md, af, rfl, hf⟩ := h.out
  simp only at hc
  subst hc
  cases hi : inside w (.send a m) g with
  | none => rw [hi] at hr; simp [Item.refused, nextOf] at hr
  | some c' =>
    rw [hi] at hr
    simp only [Item.refused, nextOf, Bool.and_eq_true, beq_iff_eq, bne_iff_ne] at hr
    obtain ⟨rfl, hne⟩ := hr
    rw [inside_cur] at hi
    cases hi
    simp [hands, nextOf, hne]

/-- The mailboxes hold exactly what they own. -/
structure Holds (w : Sys) (h : Hold) : Prop where
  box : ∀ a b, w.boxes a = some b → b.msgs.Nodup ∧ ∀ m, m ∈ b.msgs ↔ h m = .box a
  idx : ∀ m a, h m = .box a → a ≤ w.mindex

theorem put_ne {h : Hold} {m n : Nat} {x : Holder} (hn : n ≠ m) : put h m x n = h n := if_neg hn
theorem after_hand {h : Hold} {it : Item} {a m f : Nat} (hh : hands it = some (a, m, f)) :
    after h it = put (called h it) m (.fiber f) := by simp only [after, hh]

theorem after_none {h : Hold} {it : Item} (hh : hands it = none) : after h it = called h it := by simp only [after, hh]

theorem put_eq {h : Hold} {m : Nat} {x : Holder} : put h m x m = x := if_pos rfl

theorem of_after {h : Hold} {it : Item} {m a : Nat} (hm : after h it m = .box a) : called h it m = .box a := by
  rcases hh : hands it with _ | ⟨a', m', f'⟩
  · rwa [after_none hh] at hm
  · rw [after_hand hh] at hm
    by_cases hmm : m = m'
    · subst hmm; rw [put_eq] at hm; cases hm
    · rwa [put_ne hmm] at hm

theorem Holds.put {w : Sys} {h : Hold} (k : Holds w h) {m : Nat} {x : Holder} (hm : ∀ a, h m ≠ .box a) (hx : ∀ a, x ≠ .box a) :
    Holds w (put h m x) := by
  refine ⟨fun a b hb => ⟨(k.box a b hb).1, fun n => ?_⟩, fun n a hn => ?_⟩
  · rw [(k.box a b hb).2 n]
    by_cases hc : n = m
    · subst hc; rw [put_eq]; exact ⟨fun h => absurd h (hm a), fun h => absurd h (hx a)⟩
    · rw [put_ne hc]
  · by_cases hc : n = m
    · subst hc; rw [put_eq] at hn; exact absurd hn (hx a)
    · rw [put_ne hc] at hn; exact k.idx n a hn

/-- one legal call -/
theorem holds_step {w w2 : Sys} {c : Call} {o : Oracle} {it : Item} (i : Inv w) (lg : Legal w c o)
    (ho : Out w c w2 it) {h : Hold} (k : Holds w h) (hw : ∀ a m, it.call = .send a m → h m = .fiber w.cur) :
    Holds w2 (after h it) ∧ ∀ a m f, hands it = some (a, m, f) → called h it m = .box a := by
  have bs := fun a => box_step i lg ho a
  have hmi : w.mindex ≤ w2.mindex := by rcases create_step i lg ho with h | h <;> omega
  -- a message received from `a` was there or is the one being sent
  have hrec : ∀ a m, it.recvd a = some m → ∃ b b2, w.boxes a = some b ∧ w2.boxes a = some b2 ∧
      b.msgs ++ sent1 a it = m :: b2.msgs := by
    intro a m hr
    cases h2 : w2.boxes a with
    | none => have := ((bs a).none h2).2; rw [hr] at this; cases this
    | some b2 =>
      rcases (bs a).some b2 h2 with ⟨b, h1, he⟩ | ⟨_, _, _, h3⟩
      · exact ⟨b, b2, h1, rfl, by simpa [hr] using he⟩
      · rw [hr] at h3; cases h3
  -- what the call does to the owners, for a mailbox that stays open
  have hcalled : (∀ a m, it.call = .send a m → it.refused = false) → ∀ a, w2.boxes a ≠ none → ∀ m,
      called h it m = .box a ↔ (h m = .box a ∨ m ∈ sent1 a it) := by
    intro hnr a ha m
    unfold called
    cases hc : it.call with
    | send a' m' =>
      simp only [sent1, hc, hnr a' m' hc]
      by_cases hm : m = m'
      · subst hm
        rw [put_eq]
        have := hw a' m hc
        by_cases haa : a' = a
        · simp [haa]
        · simp [haa, this]
      · rw [put_ne hm]
        split <;> simp [hm]
    | boxClose a' =>
      by_cases hr : it.refused = true
      · simp [sent1, hc, hr]
      · have : a ≠ a' := fun h => by
          subst h
          exact ha ((bs a).closed hc (by simpa using hr))
        simp only [sent1, hc, hr]
        by_cases hm : h m = .box a'
        · simp [hm]; exact fun h => absurd h.symm this
        · simp [hm]
    | _ => simp [sent1, hc]
  have hidx : ∀ m a, called h it m = .box a → (∀ a m, it.call = .send a m → it.refused = false) → a ≤ w.mindex := by
    intro m a hm hnr
    by_cases hb : w2.boxes a = none
    · unfold called at hm
      cases hc : it.call with
      | send a' m' =>
        rw [hc] at hm
        by_cases hmm : m = m'
        · subst hmm
          simp only [put_eq] at hm
          cases hm
          have h1 := ((bs a).none hb).1
          simp [sent1, hc, hnr _ _ hc] at h1
        · simp only [put_ne hmm] at hm; exact k.idx m a hm
      | boxClose a' =>
        rw [hc] at hm
        simp only at hm
        split at hm
        · exact k.idx m a hm
        · replace hm : (if h m = .box a' then Holder.nobody else h m) = .box a := hm
          split at hm
          · cases hm
          · exact k.idx m a hm
      | _ => rw [hc] at hm; exact k.idx m a hm
    · rcases (hcalled hnr a hb m).1 hm with h1 | h1
      · exact k.idx m a h1
      · by_cases hbb : w.boxes a = none
        · cases h2 : w2.boxes a with
          | none => exact absurd h2 hb
          | some b2 =>
            rcases (bs a).some b2 h2 with ⟨b, h3, _⟩ | ⟨_, _, h3, _⟩
            · rw [hbb] at h3; cases h3
            · rw [h3] at h1; cases h1
        · exact (i.j.bidx a hbb).2
  by_cases hrf : ∃ a m, it.call = .send a m ∧ it.refused = true
  · -- refused: nothing changes
    obtain ⟨a0, m0, hc, hr⟩ := hrf
    have hh := hands_refused ho hc hr
    have ha : after h it = h := by
      funext n
      simp only [after, hh, called, hc]
      by_cases hn : n = m0
      · subst hn; rw [put_eq]; exact (hw a0 n hc).symm
      · rw [put_ne hn, put_ne hn]
    have hno : ∀ a, sent1 a it = [] := fun a => by simp [sent1, hc, hr]
    have hnr : ∀ a, it.recvd a = none := fun a => by
      cases hx : it.recvd a with
      | none => rfl
      | some m =>
        obtain ⟨f, hf⟩ := hands_recvd hx
        rw [hh] at hf
        cases hf
        obtain ⟨b, b2, h1, h2, h3⟩ := hrec a0 m0 hx
        rw [hno] at h3
        have : m0 ∈ b.msgs := by rw [List.append_nil] at h3; simp [h3]
        rw [(k.box a0 b h1).2 m0, hw a0 m0 hc] at this
        cases this
    refine ⟨⟨?_, ?_⟩, ?_⟩
    · intro a b2 h2
      rw [ha]
      rcases (bs a).some b2 h2 with ⟨b, h1, he⟩ | ⟨h1, h3, _, _⟩
      · rw [hno, hnr] at he
        have : b2.msgs = b.msgs := by simpa using he.symm
        rw [this]; exact k.box a b h1
      · rw [h3]
        refine ⟨List.nodup_nil, fun m => ⟨(fun h => nomatch h), fun hm => ?_⟩⟩
        have := k.idx m a hm; omega
    · intro m a hm; rw [ha] at hm; exact Nat.le_trans (k.idx m a hm) hmi
    · intro a m f hf
      rw [hh] at hf
      cases hf
      simp only [called, hc, put_eq]
  · have hnr : ∀ a m, it.call = .send a m → it.refused = false := fun a m hc => by
      cases hr : it.refused with
      | false => rfl
      | true => exact absurd ⟨a, m, hc, hr⟩ hrf
    -- the messages of an open mailbox before the removal of the one received
    have hbefore : ∀ a b, w.boxes a = some b → w2.boxes a ≠ none → (b.msgs ++ sent1 a it).Nodup ∧
        ∀ m, m ∈ b.msgs ++ sent1 a it ↔ called h it m = .box a := by
      intro a b hb h2
      constructor
      · rw [List.nodup_append]
        refine ⟨(k.box a b hb).1, ?_, ?_⟩
        · unfold sent1; split
          · split <;> simp
          · simp
        · intro x hx y hy hxy
          subst hxy
          unfold sent1 at hy
          split at hy
          · rename_i a' m' hc
            split at hy
            · simp only [List.mem_singleton] at hy
              subst hy
              have := ((k.box a b hb).2 x).1 hx
              rw [hw _ _ hc] at this
              cases this
            · cases hy
          · cases hy
      · intro m
        rw [hcalled hnr a h2 m, List.mem_append, (k.box a b hb).2 m]
    have hhand : ∀ a m f, hands it = some (a, m, f) → it.recvd a = some m := fun a m f hf => by
      rcases hands_out i lg ho hf with h1 | ⟨h1, h2, _⟩
      · exact h1
      · rw [hnr a m h1] at h2; cases h2
    refine ⟨⟨?_, ?_⟩, ?_⟩
    · intro a b2 h2
      have hne : w2.boxes a ≠ none := by rw [h2]; nofun
      rcases (bs a).some b2 h2 with ⟨b, h1, he⟩ | ⟨h1, h3, h4, h5⟩
      · obtain ⟨n1, n2⟩ := hbefore a b h1 hne
        cases hx : it.recvd a with
        | none =>
          rw [hx] at he
          have e : b.msgs ++ sent1 a it = b2.msgs := by simpa using he
          rw [e] at n1 n2
          refine ⟨n1, fun m => ?_⟩
          rw [n2 m]
          rcases ho' : hands it with _ | ⟨a', m', f'⟩
          · rw [after_none ho']
          · have hf := ho'
            rw [after_hand hf]
            have hr := hhand a' m' f' hf
            have haa : a' ≠ a := fun h => by subst h; rw [hx] at hr; cases hr
            obtain ⟨b', b2', g1, g2, g3⟩ := hrec a' m' hr
            have := ((hbefore a' b' g1 (by rw [g2]; nofun)).2 m').1 (by rw [g3]; simp)
            by_cases hm : m = m'
            · subst hm; rw [put_eq, this]; simp [haa]
            · rw [put_ne hm]
        | some m' =>
          rw [hx] at he
          have e : b.msgs ++ sent1 a it = m' :: b2.msgs := by simpa using he
          rw [e] at n1 n2
          obtain ⟨f', hf⟩ := hands_recvd hx
          refine ⟨(List.nodup_cons.1 n1).2, fun m => ?_⟩
          simp only [after, hf]
          by_cases hm : m = m'
          · subst hm; rw [put_eq]; simp [(List.nodup_cons.1 n1).1]
          · rw [put_ne hm, ← n2 m]; simp [hm]
      · rw [h3]
        refine ⟨List.nodup_nil, fun m => ⟨(fun h => nomatch h), fun hm => ?_⟩⟩
        have hcl : called h it m = .box a := by
          exact of_after hm
        have := hidx m a hcl hnr; omega
    · intro m a hm
      have hcl : called h it m = .box a := by
        exact of_after hm
      exact Nat.le_trans (hidx m a hcl hnr) hmi
    · intro a m f hf
      obtain ⟨b, b2, h1, h2, h3⟩ := hrec a m (hhand a m f hf)
      exact ((hbefore a b h1 (by rw [h2]; nofun)).2 m).1 (by rw [h3]; simp)

/-- a refused send changes no mailbox -/
theorem refused_boxes {w w2 : Sys} {a m : Nat} {it : Item} (i : Inv w) (h : Out w (.send a m) w2 it) (hr : it.refused = true) :
    w2.boxes = w.boxes := by
  have hh := hands_refused h (by obtain ⟨_, _, _, _, _, _, _, rfl, _⟩ := h.out; rfl) hr
  obtain ⟨w1, f, q, e, hs, md, af, rfl, hf⟩ := h.out
  rw [af.boxes]
  cases hs with
  | sendFail _ _ st hst => rfl
  | send _ _ b hb hbl =>
    obtain ⟨rfl, rfl, rfl⟩ := hf_cons rfl hf
    rw [inside_cur, fr_ev] at hh
    simp [hands, nextOf, result, MSG_SEND_SUCCESS, MSG_SEND_FAILURE] at hh
  | sendWake _ _ m' ms b hb hbl hms =>
    obtain ⟨rfl, rfl, rfl⟩ := hf_cons rfl hf
    obtain ⟨b1, b2, _⟩ := i.j.box a b hb hbl
    have hne : b.blocked ≠ w.cur := fun h => b1 (by simp [h])
    have : inside w (.send a m) b.blocked = some (.receive a) := by simp [inside, hne, b2]
    rw [this, fr_ev] at hh
    simp [hands, nextOf, result, MSG_RECEIVE_SUCCESS, MSG_RECEIVE_FAILURE] at hh
    exact absurd hh.2 hne

theorem Owned.any {P : Sys → Call → Oracle → Prop} {main idle : Nat} {w : Sys} {tr : List Item} {h : Hold}
    (ho : Owned P main idle w tr h) : Any main idle w tr := by
  induction ho with
  | init h0 hi => exact .init h0 hi
  | step c o _ _ _ ih => exact .step c o ih
  | create _ _ _ _ ih => exact ih
  | release _ _ _ _ ih => exact ih
  | pass _ _ _ _ _ ih => exact ih

theorem Owned.hist {main idle : Nat} {w : Sys} {tr : List Item} {h : Hold} (ho : Owned Legal main idle w tr h) :
    Hist main idle w tr := by
  induction ho with
  | init h0 hi => exact .init h0 hi
  | step c o _ lg _ ih => exact .step c o ih lg
  | create _ _ _ _ ih => exact ih
  | release _ _ _ _ ih => exact ih
  | pass _ _ _ _ _ ih => exact ih

theorem step_holds {main idle : Nat} {w : Sys} {tr : List Item} (hh : Hist main idle w tr) {h : Hold} (k : Holds w h)
    {c : Call} {o : Oracle} (lg : Legal w c o) (hw : ∀ a m, c = .send a m → h m = .fiber w.cur) :
    Holds (step w c o).1 (after h (step w c o).2) ∧
    ∀ a m f, hands (step w c o).2 = some (a, m, f) → called h (step w c o).2 m = .box a := by
  rcases step_ok hh.inv lg with ⟨f, hc, he⟩ | ho
  · subst hc
    rw [he]
    refine ⟨?_, fun a m f hf => by simp [hands] at hf⟩
    simpa [after, hands, called] using k
  · refine holds_step hh.inv lg ho k fun a m hc => hw a m ?_
    rw [← hc]; exact ((step_boxes w c o).2.2.2.1).symm

theorem Owned.holds {main idle : Nat} {w : Sys} {tr : List Item} {h : Hold} (ho : Owned Legal main idle w tr h) : Holds w h := by
  induction ho with
  | init => exact ⟨fun a b hb => (by cases hb), fun m a hm => (by cases hm)⟩
  | step c o hp lg hw ih => exact (step_holds hp.hist ih lg hw).1
  | create m f _ hm ih => exact ih.put (by rw [hm]; nofun) (by nofun)
  | release m f _ hm ih => exact ih.put (by rw [hm]; nofun) (by nofun)
  | pass m f g _ hm ih => exact ih.put (by rw [hm]; nofun) (by nofun)

end Rcpr.MsgOwn
