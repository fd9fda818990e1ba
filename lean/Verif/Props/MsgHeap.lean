import Verif.MsgHeap
import Verif.MsgOwnProof
import Verif.Props.Fiber

/-!
C104: who keeps to the rules of ownership never touches a message that is gone, and reads in a message what was put
into it.

Spec: the owners are those of `Verif.MsgOwnSpec`, computed from calls and their answers. `Text` is what was put into each
message: return address and payload given to `message_create`, and no payload once it was taken.
-/
namespace Rcpr.MsgHeap

open Rcpr Rcpr.Fiber Rcpr.MsgOwn

/-- return address and payload of each message -/
abbrev Text := Nat → Nat × Nat

/-- The rules: send, read, take the payload of, release and pass on only what one owns. The allocator returns memory
that is not allocated. `P` restricts the calls. -/
def Allowed (P : Sys → Call → Oracle → Prop) (W : World) (h : Hold) : Act → Prop
  | .call c o => P W.w c o ∧ ∀ a m, c = .send a m → h m = .fiber W.w.cur
  | .create m _ _ => W.hp m = none
  | .release m | .address m | .look m | .take m | .pass m _ => h m = .fiber W.w.cur

/-- who owns each message after the step -/
def owners (w : Sys) (h : Hold) (tr : List Item) : Act → Hold
  | .call _ _ => tr.foldl after h
  | .create m _ _ => put h m (.fiber w.cur)
  | .release m => put h m .nobody
  | .pass m f => put h m (.fiber f)
  | .address _ | .look _ | .take _ => h

/-- what is in each message after the step -/
def written (t : Text) : Act → Text
  | .create m r p => fun n => if n = m then (r, p) else t n
  | .take m => fun n => if n = m then ((t n).1, 0) else t n
  | _ => t

/-- what the step tells the program about the message -/
def told (t : Text) : Act → Option Nat
  | .create m _ _ => some m
  | .address m => some (t m).1
  | .look m | .take m => some (t m).2
  | _ => none

/-- The executions in which the rules are kept. -/
inductive Reach (P : Sys → Call → Oracle → Prop) (main idle : Nat) : World → List Item → Hold → Text → Prop
  | init {hp} : main ≠ 0 → main ≠ idle → (∀ m, hp m = none) → Reach P main idle ⟨init main idle, hp⟩ [] (fun _ => .nobody) (fun _ => (0, 0))
  | act {W tr h t a x its W'} : Reach P main idle W tr h t → Allowed P W h a → run W a = some (x, its, W') →
      Reach P main idle W' (tr ++ its) (owners W.w h its a) (written t a)

/-- Legal calls, where `mailbox_close` reports success only if the releases of all messages did. -/
def Sane (w : Sys) (c : Call) (o : Oracle) : Prop := Legal w c o ∧ ∀ a, c = .boxClose a → o.a 0 = SUCCESS → ∀ i, o.a i = SUCCESS

/-- Legal calls, where the release of a closed mailbox and of its messages succeeds. -/
def Calm (w : Sys) (c : Call) (o : Oracle) : Prop := Legal w c o ∧ ∀ a, c = .boxClose a → ∀ i, o.a i = SUCCESS

/-- The memory is that of the owned messages. -/
def Good (hp : Heap) (h : Hold) (t : Text) : Prop :=
  ∀ m, (h m = .nobody → hp m = none) ∧ (h m ≠ .nobody → ∃ to, hp m = some ⟨(t m).1, to, (t m).2⟩)

private theorem releaseAll_ok {st : Nat → Status} (hst : ∀ i, st i = SUCCESS) : ∀ (ms : List Nat) (hp : Heap) (i : Nat), ms.Nodup →
    (∀ m ∈ ms, hp m ≠ none) → ∃ hp', releaseAll st hp i ms = some hp' ∧ ∀ n, hp' n = if n ∈ ms then none else hp n
  | [], hp, _, _, _ => ⟨hp, rfl, fun n => by simp⟩
  | m :: ms, hp, i, hd, hl => by
    obtain ⟨h1, h2⟩ := List.nodup_cons.1 hd
    cases hm : hp m with
    | none => exact absurd hm (hl m (by simp))
    | some r =>
      obtain ⟨hp', e, k⟩ := releaseAll_ok hst ms (hp.set m none) (i + 1) h2 (fun n hn => by
        have : n ≠ m := fun he => h1 (he ▸ hn)
        simpa [Heap.set, this] using hl n (List.mem_cons_of_mem _ hn))
      refine ⟨hp', by simp [releaseAll, release, hm, e, hst], fun n => ?_⟩
      rw [k n]
      by_cases hn : n = m
      · subst hn; simp [Heap.set]
      · simp [Heap.set, hn]

private theorem after_nobody {h : Hold} {it : Item} (hc : ∀ a, it.call ≠ .boxClose a)
    (hs : ∀ a m, it.call = .send a m → h m ≠ .nobody)
    (hh : ∀ a m f, hands it = some (a, m, f) → called h it m = .box a) (m : Nat) :
    after h it m = .nobody ↔ h m = .nobody := by
  have hcl : ∀ n, called h it n = .nobody ↔ h n = .nobody := by
    intro n
    cases hcc : it.call with
    | send a m' =>
      simp only [called, hcc]
      by_cases hn : n = m'
      · subst hn; rw [put_eq]; simp [hs a n hcc]
      · rw [put_ne hn]
    | boxClose a => exact absurd hcc (hc a)
    | _ => simp only [called, hcc]
  rcases hd : hands it with _ | ⟨a, m', f⟩
  · rw [after_none hd]; exact hcl m
  · rw [after_hand hd]
    by_cases hn : m = m'
    · subst hn
      rw [put_eq]
      have := hh a m f hd
      constructor
      · intro h; cases h
      · intro h; rw [← hcl, this] at h; cases h
    · rw [put_ne hn]; exact hcl m

private theorem call_good {main idle : Nat} {w : Sys} {tr : List Item} {h : Hold} {t : Text} {hp : Heap}
    (hh : Hist main idle w tr) (k : Holds w h) (g : Good hp h t) {c : Call} {o : Oracle} (cm : Calm w c o)
    (hw : ∀ a m, c = .send a m → h m = .fiber w.cur) :
    ∃ hp', callHeap w hp o c = some hp' ∧ Good hp' (after h (step w c o).2) t := by
  have sh := step_holds hh k cm.1 hw
  have hcall : (step w c o).2.call = c := (step_boxes w c o).2.2.2.1
  by_cases hcl : ∃ a, c = .boxClose a
  · obtain ⟨a, rfl⟩ := hcl
    cases hb : w.boxes a with
    | none =>
      have hd : handler w (.boxClose a) o = front w w.cur ⟨.msg, MSG_CLOSE, ERROR_RBTREE_NOT_FOUND.toNat⟩ (o.q 0) := by
        simp [handler, boxCloseH, hb]
      rcases step_front hd with ⟨_, hn⟩ | ⟨hn, _⟩
      · exact absurd (cm.1.alloc 0) hn
      · refine ⟨hp, by simp [callHeap, hb], ?_⟩
        have : after h (step w (.boxClose a) o).2 = h := by
          rw [hn]
          have hr : result (.boxClose a) ⟨.msg, MSG_CLOSE, ERROR_RBTREE_NOT_FOUND.toNat⟩ = (ERROR_RBTREE_NOT_FOUND, none) := by
            rfl
          have : ERROR_RBTREE_NOT_FOUND ≠ SUCCESS := by decide
          simp [after, hands, called, Item.refused, hr, this]
        rw [this]; exact g
    | some b =>
      have hd : handler w (.boxClose a) o = front (setBox w a none) w.cur ⟨.msg, MSG_CLOSE, (o.a 0).toNat⟩ (o.q 0) := by
        simp [handler, boxCloseH, hb]
      rcases step_front hd with ⟨_, hn⟩ | ⟨hn, _⟩
      · exact absurd (cm.1.alloc 0) hn
      · obtain ⟨b1, b2⟩ := k.box a b hb
        obtain ⟨hp', e, ke⟩ := releaseAll_ok (st := fun i => o.a (i + 1)) (fun i => cm.2 a rfl (i + 1)) b.msgs hp 0 b1 (fun m hm => by
          obtain ⟨to, ht⟩ := (g m).2 (by rw [(b2 m).1 hm]; nofun)
          rw [ht]; nofun)
        refine ⟨hp', by simp [callHeap, hb, e], fun m => ?_⟩
        have : after h (step w (.boxClose a) o).2 = fun m => if h m = .box a then .nobody else h m := by
          rw [hn, cm.2 a rfl 0]
          have hr : result (.boxClose a) ⟨.msg, MSG_CLOSE, SUCCESS.toNat⟩ = (SUCCESS, none) := by rfl
          simp [after, hands, called, Item.refused, hr]
        rw [this, ke m]
        simp only [b2 m]
        by_cases hm : h m = .box a
        · simp [hm]
        · simp only [hm, if_false]; exact g m
  · have nb := after_nobody (h := h) (it := (step w c o).2) (by rw [hcall]; exact fun a ha => hcl ⟨a, ha⟩)
      (by rw [hcall]; intro a m hs; rw [hw a m hs]; nofun) sh.2
    by_cases hsd : ∃ a m, c = .send a m
    · obtain ⟨a, m, rfl⟩ := hsd
      obtain ⟨to, hm⟩ := (g m).2 (by rw [hw a m rfl]; nofun)
      refine ⟨hp.set m (some ⟨(t m).1, a, (t m).2⟩), by simp [callHeap, store, hm], fun n => ?_⟩
      rw [Ne, nb n]
      by_cases hn : n = m
      · subst hn
        have h0 : h n ≠ .nobody := by rw [hw a n rfl]; nofun
        exact ⟨fun h => absurd h h0, fun _ => ⟨a, by simp [Heap.set]⟩⟩
      · simpa [Heap.set, hn] using g n
    · refine ⟨hp, ?_, fun n => by rw [Ne, nb n]; exact g n⟩
      cases c <;> first | rfl | (exact absurd ⟨_, rfl⟩ hcl) | (exact absurd ⟨_, _, rfl⟩ hsd)

private theorem put_good {hp : Heap} {h : Hold} {t t' : Text} (g : Good hp h t) {m : Nat} {r : Option Rec} {x : Holder}
    (ht : ∀ n, n ≠ m → t' n = t n) (h1 : x = .nobody → r = none) (h2 : x ≠ .nobody → ∃ to, r = some ⟨(t' m).1, to, (t' m).2⟩) :
    Good (hp.set m r) (put h m x) t' := by
  intro n
  by_cases hn : n = m
  · subst hn; simpa [Heap.set, put_eq] using ⟨h1, h2⟩
  · rw [put_ne hn, ht n hn]; simpa [Heap.set, hn] using g n

private theorem put_same {h : Hold} {m : Nat} {x : Holder} (hm : h m = x) : put h m x = h := by
  funext n
  by_cases hn : n = m
  · subst hn; rw [put_eq, hm]
  · rw [put_ne hn]

/-- one step that keeps to the rules -/
private theorem act_good {main idle : Nat} {W : World} {tr : List Item} {h : Hold} {t : Text}
    (hh : Hist main idle W.w tr) (k : Holds W.w h) (g : Good W.hp h t) {a : Act} (al : Allowed Calm W h a) :
    ∃ its W', run W a = some (told t a, its, W') ∧ Hist main idle W'.w (tr ++ its) ∧
      Holds W'.w (owners W.w h its a) ∧ Good W'.hp (owners W.w h its a) (written t a) := by
  have own : ∀ {m}, h m = .fiber W.w.cur → (∀ b, h m ≠ .box b) ∧ ∃ to, W.hp m = some ⟨(t m).1, to, (t m).2⟩ := by
    intro m hm
    exact ⟨fun b => by rw [hm]; nofun, (g m).2 (by rw [hm]; nofun)⟩
  cases a with
  | call c o =>
    obtain ⟨cm, hw⟩ := al
    obtain ⟨hp', e, g'⟩ := call_good hh k g cm hw
    exact ⟨[(step W.w c o).2], ⟨(step W.w c o).1, hp'⟩, by simp only [run, e, Option.map_some]; rfl, .step c o hh cm.1, (step_holds hh k cm.1 hw).1, g'⟩
  | create m r p =>
    have hm : h m = .nobody := by
      by_cases h0 : h m = .nobody
      · exact h0
      · obtain ⟨to, ht⟩ := (g m).2 h0
        rw [show W.hp m = none from al] at ht; cases ht
    refine ⟨[], ⟨W.w, W.hp.set m (some ⟨r, 0, p⟩)⟩, by simp only [run, create, (g m).1 hm, Option.map_some]; rfl, by simpa using hh,
      k.put (by rw [hm]; nofun) (by nofun), ?_⟩
    exact put_good g (fun n hn => by simp [written, hn]) (by nofun) (fun _ => ⟨0, by simp [written]⟩)
  | release m =>
    obtain ⟨hb, to, hm⟩ := own al
    refine ⟨[], ⟨W.w, W.hp.set m none⟩, by simp only [run, release, hm, Option.map_some]; rfl, by simpa using hh, k.put hb (by nofun), ?_⟩
    exact put_good g (fun n hn => rfl) (fun _ => rfl) (fun h => absurd rfl h)
  | address m =>
    obtain ⟨hb, to, hm⟩ := own al
    exact ⟨[], W, by simp only [run, returnAddress, hm, Option.map_some]; rfl, by simpa using hh, k, g⟩
  | look m =>
    obtain ⟨hb, to, hm⟩ := own al
    exact ⟨[], W, by simp only [run, payload, hm, Option.map_some]; rfl, by simpa using hh, k, g⟩
  | take m =>
    obtain ⟨hb, to, hm⟩ := own al
    refine ⟨[], ⟨W.w, W.hp.set m (some ⟨(t m).1, to, 0⟩)⟩, by simp only [run, payload, hm, Option.map_some, if_true]; rfl, by simpa using hh, k, ?_⟩
    have := put_good (t' := written t (.take m)) (r := some ⟨(t m).1, to, 0⟩) g (m := m) (x := .fiber W.w.cur)
      (fun n hn => by simp [written, hn]) (by nofun) (fun _ => ⟨to, by simp [written]⟩)
    rwa [put_same al] at this
  | pass m f =>
    obtain ⟨hb, to, hm⟩ := own al
    refine ⟨[], W, rfl, by simpa using hh, k.put hb (by nofun), fun n => ?_⟩
    by_cases hn : n = m
    · subst hn; simp only [owners, put_eq]; exact ⟨by nofun, fun _ => ⟨to, hm⟩⟩
    · simp only [owners, put_ne hn]; exact g n

private theorem Reach.good {main idle : Nat} {W : World} {tr : List Item} {h : Hold} {t : Text} (r : Reach Calm main idle W tr h t) :
    Hist main idle W.w tr ∧ Holds W.w h ∧ Good W.hp h t := by
  induction r with
  | init h0 hi hp => exact ⟨.init h0 hi, ⟨fun a b hb => (by cases hb), fun m a hm => (by cases hm)⟩, fun m => ⟨fun _ => hp m, fun hn => absurd rfl hn⟩⟩
  | act _ al hr ih =>
    obtain ⟨its, W', e, k⟩ := act_good ih.1 ih.2.1 ih.2.2 al
    rw [e] at hr
    cases hr
    exact k

theorem Reach.mono {P P' : Sys → Call → Oracle → Prop} {main idle : Nat} {W : World} {tr : List Item} {h : Hold} {t : Text}
    (r : Reach P main idle W tr h t) (hp : ∀ w c o, P w c o → P' w c o) : Reach P' main idle W tr h t := by
  induction r with
  | init h0 hi hn => exact .init h0 hi hn
  | @act W _ h _ a _ _ _ _ al hr ih =>
    refine .act ih ?_ hr
    cases a with
    | call c o => exact ⟨hp _ _ _ al.1, al.2⟩
    | _ => exact al

/-! #### Also when releases fail -/

/-- `m` is owned by a fiber or by an open mailbox -/
private def Kept (w : Sys) (h : Hold) (m : Nat) : Prop := (∃ f, h m = .fiber f) ∨ ∃ a, h m = .box a ∧ w.boxes a ≠ none

private def Live (hp : Heap) (t : Text) (m : Nat) : Prop := ∃ to, hp m = some ⟨(t m).1, to, (t m).2⟩

private def Safe (w : Sys) (hp : Heap) (h : Hold) (t : Text) : Prop :=
  ∀ m, (h m = .nobody → hp m = none) ∧ (Kept w h m → Live hp t m)

private theorem releaseAll_some {st : Nat → Status} : ∀ (ms : List Nat) (hp : Heap) (i : Nat), ms.Nodup →
    (∀ m ∈ ms, hp m ≠ none) → ∃ hp', releaseAll st hp i ms = some hp' ∧ (∀ n, n ∉ ms → hp' n = hp n) ∧ ∀ n, hp n = none → hp' n = none
  | [], hp, _, _, _ => ⟨hp, rfl, fun n _ => rfl, fun n h => h⟩
  | m :: ms, hp, i, hd, hl => by
    obtain ⟨h1, h2⟩ := List.nodup_cons.1 hd
    cases hm : hp m with
    | none => exact absurd hm (hl m (by simp))
    | some r =>
      have hset : ∀ n, hp n = none → hp.set m none n = none := fun n hn => by
        by_cases he : n = m <;> simp [Heap.set, he, hn]
      by_cases hst : st i = SUCCESS
      · obtain ⟨hp', e, k, k2⟩ := releaseAll_some (st := st) ms (hp.set m none) (i + 1) h2 (fun n hn => by
          have : n ≠ m := fun he => h1 (he ▸ hn)
          simpa [Heap.set, this] using hl n (List.mem_cons_of_mem _ hn))
        refine ⟨hp', by simp [releaseAll, release, hm, e, hst], fun n hn => ?_, fun n hn => k2 n (hset n hn)⟩
        obtain ⟨hn1, hn2⟩ := not_or.1 (fun h => hn (List.mem_cons.2 h))
        rw [k n hn2]; simp [Heap.set, hn1]
      · refine ⟨hp.set m none, by simp [releaseAll, release, hm, hst], fun n hn => ?_, hset⟩
        have : n ≠ m := fun he => hn (by simp [he])
        simp [Heap.set, this]

/-- what is kept after a call that closes nothing was kept before it -/
private theorem kept_before {main idle : Nat} {w : Sys} {tr : List Item} {h : Hold} (hh : Hist main idle w tr) (k : Holds w h)
    {c : Call} {o : Oracle} (lg : Legal w c o) (hw : ∀ a m, c = .send a m → h m = .fiber w.cur) (hc : ∀ a, c ≠ .boxClose a) {m : Nat}
    (hk : Kept (step w c o).1 (after h (step w c o).2) m) : Kept w h m := by
  have hcall : (step w c o).2.call = c := (step_boxes w c o).2.2.2.1
  rcases step_ok hh.inv lg with ⟨f, rfl, he⟩ | ho
  · rw [he] at hk
    simpa [Kept, after, hands, called] using hk
  · have bs := fun a => box_step hh.inv lg ho a
    -- the call itself
    have hcl : ∀ x, called h (step w c o).2 m = x → h m = x ∨ ∃ a, c = .send a m := by
      intro x hx
      unfold called at hx
      rw [hcall] at hx
      cases c with
      | send a m' =>
        by_cases hm : m = m'
        · subst hm; exact Or.inr ⟨a, rfl⟩
        · simp only [put_ne hm] at hx; exact Or.inl hx
      | boxClose a => exact absurd rfl (hc a)
      | _ => exact Or.inl hx
    have hsend : (∃ a, c = .send a m) → Kept w h m := fun ⟨a, ha⟩ => Or.inl ⟨_, hw a m ha⟩
    rcases hk with ⟨f, hf⟩ | ⟨a, hf, hb⟩
    · rcases hd : hands (step w c o).2 with _ | ⟨a, m', f'⟩
      · rw [after_none hd] at hf
        exact (hcl _ hf).elim (fun h => Or.inl ⟨f, h⟩) hsend
      · rw [after_hand hd] at hf
        by_cases hm : m = m'
        · subst hm
          rcases hands_out hh.inv lg ho hd with hr | ⟨hr, _⟩
          · cases h2 : (step w c o).1.boxes a with
            | none => have := ((bs a).none h2).2; rw [hr] at this; cases this
            | some b2 =>
              rcases (bs a).some b2 h2 with ⟨b, h1, _⟩ | ⟨_, _, _, h3⟩
              · rcases hcl _ ((step_holds hh k lg hw).2 a m f' hd) with h0 | h0
                · exact Or.inr ⟨a, h0, by rw [h1]; nofun⟩
                · exact hsend h0
              · rw [hr] at h3; cases h3
          · rw [hcall] at hr; exact hsend ⟨a, hr⟩
        · rw [put_ne hm] at hf
          exact (hcl _ hf).elim (fun h => Or.inl ⟨f, h⟩) hsend
    · rcases hcl _ (of_after hf) with h0 | h0
      · refine Or.inr ⟨a, h0, fun hn => ?_⟩
        cases h2 : (step w c o).1.boxes a with
        | none => exact hb h2
        | some b2 =>
          have := k.idx m a h0
          rcases (bs a).some b2 h2 with ⟨b, h1, _⟩ | ⟨h3, _⟩
          · rw [hn] at h1; cases h1
          · omega
      · exact hsend h0

private theorem call_safe {main idle : Nat} {w : Sys} {tr : List Item} {h : Hold} {t : Text} {hp : Heap}
    (hh : Hist main idle w tr) (k : Holds w h) (g : Safe w hp h t) {c : Call} {o : Oracle} (cm : Sane w c o)
    (hw : ∀ a m, c = .send a m → h m = .fiber w.cur) :
    ∃ hp', callHeap w hp o c = some hp' ∧ Safe (step w c o).1 hp' (after h (step w c o).2) t := by
  by_cases hcl : ∃ a, c = .boxClose a
  · obtain ⟨a, rfl⟩ := hcl
    cases hb : w.boxes a with
    | none =>
      have hd : handler w (.boxClose a) o = front w w.cur ⟨.msg, MSG_CLOSE, ERROR_RBTREE_NOT_FOUND.toNat⟩ (o.q 0) := by
        simp [handler, boxCloseH, hb]
      rcases step_front hd with ⟨_, hn⟩ | ⟨hn, _⟩
      · exact absurd (cm.1.alloc 0) hn
      · refine ⟨hp, by simp [callHeap, hb], ?_⟩
        have h1 : after h (step w (.boxClose a) o).2 = h := by
          rw [hn]
          have hr : result (.boxClose a) ⟨.msg, MSG_CLOSE, ERROR_RBTREE_NOT_FOUND.toNat⟩ = (ERROR_RBTREE_NOT_FOUND, none) := by
            rfl
          have : ERROR_RBTREE_NOT_FOUND ≠ SUCCESS := by decide
          simp [after, hands, called, Item.refused, hr, this]
        have h2 : (step w (.boxClose a) o).1.boxes = w.boxes := by
          rw [front_ok (cm.1.alloc 0)] at hd
          simp [step, hd, fr, setEv, switch, setCall]
        rw [h1]
        intro m
        simpa only [Kept, h2] using g m
    | some b =>
      have hd : handler w (.boxClose a) o = front (setBox w a none) w.cur ⟨.msg, MSG_CLOSE, (o.a 0).toNat⟩ (o.q 0) := by
        simp [handler, boxCloseH, hb]
      rcases step_front hd with ⟨_, hn⟩ | ⟨hn, _⟩
      · exact absurd (cm.1.alloc 0) hn
      · obtain ⟨b1, b2⟩ := k.box a b hb
        have hlive : ∀ m ∈ b.msgs, hp m ≠ none := fun m hm => by
          obtain ⟨to, ht⟩ := (g m).2 (Or.inr ⟨a, (b2 m).1 hm, by rw [hb]; nofun⟩)
          rw [ht]; nofun
        have h2 : (step w (.boxClose a) o).1.boxes = (setBox w a none).boxes := by
          rw [front_ok (cm.1.alloc 0)] at hd
          simp [step, hd, fr, setEv, switch, setCall]
        have hr : result (.boxClose a) ⟨.msg, MSG_CLOSE, (o.a 0).toNat⟩ = (o.a 0, none) := by
          simp [result, statusOf]
        obtain ⟨hp', e, ke, kn⟩ := releaseAll_some (st := fun i => o.a (i + 1)) b.msgs hp 0 b1 hlive
        have kept : ∀ m, h m ≠ .box a → hp' m = hp m := fun m hm => ke m (fun h => hm ((b2 m).1 h))
        refine ⟨hp', by simp [callHeap, hb, e], fun m => ?_⟩
        by_cases hs : o.a 0 = SUCCESS
        · have h1 : after h (step w (.boxClose a) o).2 = fun m => if h m = .box a then .nobody else h m := by
            have hr2 : result (.boxClose a) ⟨.msg, MSG_CLOSE, SUCCESS.toNat⟩ = (SUCCESS, none) := by rfl
            rw [hn, hs]
            simp [after, hands, called, Item.refused, hr2]
          obtain ⟨hp2, e2, ke2⟩ := releaseAll_ok (st := fun i => o.a (i + 1)) (fun i => cm.2 a rfl hs (i + 1)) b.msgs hp 0 b1 hlive
          rw [e] at e2; cases e2
          rw [h1]
          by_cases hm : h m = .box a
          · refine ⟨fun _ => by rw [ke2 m, if_pos ((b2 m).2 hm)], fun hk => ?_⟩
            simp [Kept, hm] at hk
          · simp only [Kept, hm, if_false, h2, Live, kept m hm]
            refine ⟨(g m).1, fun hk => (g m).2 ?_⟩
            rcases hk with hk | ⟨a', ha, hk⟩
            · exact Or.inl hk
            · refine Or.inr ⟨a', ha, ?_⟩
              have : a' ≠ a := fun he => hm (he ▸ ha)
              simpa [setBox, this] using hk
        · have h1 : after h (step w (.boxClose a) o).2 = h := by
            rw [hn]
            simp [after, hands, called, Item.refused, hr, hs]
          rw [h1]
          refine ⟨fun h0 => kn m ((g m).1 h0), fun hk => ?_⟩
          have hm : h m ≠ .box a := fun hm => by
            simp [Kept, hm, h2, setBox] at hk
          simp only [Live, kept m hm]
          refine (g m).2 ?_
          rcases hk with hk | ⟨a', ha, hk⟩
          · exact Or.inl hk
          · refine Or.inr ⟨a', ha, ?_⟩
            have : a' ≠ a := fun he => hm (he ▸ ha)
            simpa [h2, setBox, this] using hk
  · have hcall : (step w c o).2.call = c := (step_boxes w c o).2.2.2.1
    have hnc : ∀ a, c ≠ .boxClose a := fun a ha => hcl ⟨a, ha⟩
    have nb := after_nobody (h := h) (it := (step w c o).2) (by rw [hcall]; exact hnc)
      (by rw [hcall]; intro a m hs; rw [hw a m hs]; nofun) (step_holds hh k cm.1 hw).2
    have g' : ∀ m, (after h (step w c o).2 m = .nobody → hp m = none) ∧
        (Kept (step w c o).1 (after h (step w c o).2) m → Live hp t m) := fun m =>
      ⟨fun h0 => (g m).1 ((nb m).1 h0), fun hk => (g m).2 (kept_before hh k cm.1 hw hnc hk)⟩
    by_cases hsd : ∃ a m, c = .send a m
    · obtain ⟨a, m, rfl⟩ := hsd
      obtain ⟨to, hm⟩ := (g m).2 (Or.inl ⟨_, hw a m rfl⟩)
      refine ⟨hp.set m (some ⟨(t m).1, a, (t m).2⟩), by simp [callHeap, store, hm], fun n => ?_⟩
      by_cases hn : n = m
      · subst hn
        have h0 : h n ≠ .nobody := by rw [hw a n rfl]; nofun
        exact ⟨fun h => absurd ((nb n).1 h) h0, fun _ => ⟨a, by simp [Heap.set]⟩⟩
      · simpa [Heap.set, hn, Live] using g' n
    · refine ⟨hp, ?_, g'⟩
      cases c <;> first | rfl | (exact absurd ⟨_, rfl⟩ hcl) | (exact absurd ⟨_, _, rfl⟩ hsd)

private theorem put_safe {w : Sys} {hp : Heap} {h : Hold} {t t' : Text} (g : Safe w hp h t) {m : Nat} {r : Option Rec} {x : Holder}
    (ht : ∀ n, n ≠ m → t' n = t n) (h1 : x = .nobody → r = none) (h2 : x ≠ .nobody → ∃ to, r = some ⟨(t' m).1, to, (t' m).2⟩) :
    Safe w (hp.set m r) (put h m x) t' := by
  intro n
  by_cases hn : n = m
  · subst hn
    simp only [Heap.set, put_eq, Kept, Live, if_true]
    refine ⟨h1, fun hk => h2 ?_⟩
    rcases hk with ⟨f, rfl⟩ | ⟨a, rfl, _⟩ <;> nofun
  · simp only [Kept, Live, put_ne hn, ht n hn, Heap.set, hn, if_false]; exact g n

/-- memory that nobody keeps may be given to a fiber -/
private theorem put_holds {w : Sys} {h : Hold} (k : Holds w h) {m f : Nat} (hm : ¬ Kept w h m) : Holds w (put h m (.fiber f)) := by
  refine ⟨fun a b hb => ⟨(k.box a b hb).1, fun n => ?_⟩, fun n a hn => ?_⟩
  · rw [(k.box a b hb).2 n]
    by_cases hc : n = m
    · subst hc
      rw [put_eq]
      exact ⟨fun h => absurd (Or.inr ⟨a, h, by rw [hb]; nofun⟩) hm, by nofun⟩
    · rw [put_ne hc]
  · by_cases hc : n = m
    · subst hc; rw [put_eq] at hn; cases hn
    · rw [put_ne hc] at hn; exact k.idx n a hn

private theorem act_safe {main idle : Nat} {W : World} {tr : List Item} {h : Hold} {t : Text}
    (hh : Hist main idle W.w tr) (k : Holds W.w h) (g : Safe W.w W.hp h t) {a : Act} (al : Allowed Sane W h a) :
    ∃ its W', run W a = some (told t a, its, W') ∧ Hist main idle W'.w (tr ++ its) ∧
      Holds W'.w (owners W.w h its a) ∧ Safe W'.w W'.hp (owners W.w h its a) (written t a) := by
  have own : ∀ {m}, h m = .fiber W.w.cur → (∀ b, h m ≠ .box b) ∧ ∃ to, W.hp m = some ⟨(t m).1, to, (t m).2⟩ := by
    intro m hm
    exact ⟨fun b => by rw [hm]; nofun, (g m).2 (Or.inl ⟨_, hm⟩)⟩
  cases a with
  | call c o =>
    obtain ⟨cm, hw⟩ := al
    obtain ⟨hp', e, g'⟩ := call_safe hh k g cm hw
    exact ⟨[(step W.w c o).2], ⟨(step W.w c o).1, hp'⟩, by simp only [run, e, Option.map_some]; rfl, .step c o hh cm.1, (step_holds hh k cm.1 hw).1, g'⟩
  | create m r p =>
    have al : W.hp m = none := al
    have hm : ¬ Kept W.w h m := fun hk => by
      obtain ⟨to, ht⟩ := (g m).2 hk
      rw [al] at ht; cases ht
    refine ⟨[], ⟨W.w, W.hp.set m (some ⟨r, 0, p⟩)⟩, by simp only [run, create, al, Option.map_some]; rfl, by simpa using hh,
      put_holds k hm, ?_⟩
    exact put_safe g (fun n hn => by simp [written, hn]) (by nofun) (fun _ => ⟨0, by simp [written]⟩)
  | release m =>
    obtain ⟨hb, to, hm⟩ := own al
    refine ⟨[], ⟨W.w, W.hp.set m none⟩, by simp only [run, release, hm, Option.map_some]; rfl, by simpa using hh, k.put hb (by nofun), ?_⟩
    exact put_safe g (fun n hn => rfl) (fun _ => rfl) (fun h => absurd rfl h)
  | address m =>
    obtain ⟨hb, to, hm⟩ := own al
    exact ⟨[], W, by simp only [run, returnAddress, hm, Option.map_some]; rfl, by simpa using hh, k, g⟩
  | look m =>
    obtain ⟨hb, to, hm⟩ := own al
    exact ⟨[], W, by simp only [run, payload, hm, Option.map_some]; rfl, by simpa using hh, k, g⟩
  | take m =>
    obtain ⟨hb, to, hm⟩ := own al
    refine ⟨[], ⟨W.w, W.hp.set m (some ⟨(t m).1, to, 0⟩)⟩, by simp only [run, payload, hm, Option.map_some, if_true]; rfl, by simpa using hh, k, ?_⟩
    have := put_safe (t' := written t (.take m)) (r := some ⟨(t m).1, to, 0⟩) g (m := m) (x := .fiber W.w.cur)
      (fun n hn => by simp [written, hn]) (by nofun) (fun _ => ⟨to, by simp [written]⟩)
    rwa [put_same al] at this
  | pass m f =>
    obtain ⟨hb, to, hm⟩ := own al
    refine ⟨[], W, rfl, by simpa using hh, k.put hb (by nofun), fun n => ?_⟩
    by_cases hn : n = m
    · subst hn; simp only [owners, put_eq]; exact ⟨by nofun, fun _ => ⟨to, hm⟩⟩
    · simp only [owners, Kept, put_ne hn]; exact g n

private theorem Reach.safe {main idle : Nat} {W : World} {tr : List Item} {h : Hold} {t : Text} (r : Reach Sane main idle W tr h t) :
    Hist main idle W.w tr ∧ Holds W.w h ∧ Safe W.w W.hp h t := by
  induction r with
  | init h0 hi hp =>
    exact ⟨.init h0 hi, ⟨fun a b hb => (by cases hb), fun m a hm => (by cases hm)⟩, fun m => ⟨fun _ => hp m, fun hn => by
      rcases hn with ⟨f, h⟩ | ⟨a, h, _⟩ <;> cases h⟩⟩
  | act _ al hr ih =>
    obtain ⟨its, W', e, k⟩ := act_safe ih.1 ih.2.1 ih.2.2 al
    rw [e] at hr
    cases hr
    exact k

/-- C104 (what holds): a step that keeps to the rules is never undefined behaviour, and what it reads in a message is what was
put into it, through whatever mailboxes and fibers it went; also after a mailbox could not be closed without errors. -/
theorem read_what_was_put_partial {main idle : Nat} {W : World} {tr : List Item} {h : Hold} {t : Text}
    (r : Reach Sane main idle W tr h t) {a : Act} (al : Allowed Sane W h a) :
    ∃ its W', run W a = some (told t a, its, W') := by
  obtain ⟨h1, h2, h3⟩ := r.safe
  obtain ⟨its, W', e, _⟩ := act_safe h1 h2 h3 al
  exact ⟨its, W', e⟩

/-- C104 (what holds): whenever a receive returns a message, the fiber to which it returns reads in the message what was put
into it. -/
theorem received_reads_partial {main idle : Nat} {W : World} {tr : List Item} {h : Hold} {t : Text}
    (r : Reach Sane main idle W tr h t) {c : Call} {o : Oracle} (al : Allowed Sane W h (.call c o)) {f a m : Nat} {e : Ev}
    (hn : (step W.w c o).2.next = .ret f (.receive a) e) (hr : result (.receive a) e = (SUCCESS, some m)) :
    ∃ W', run W (.call c o) = some (none, [(step W.w c o).2], W') ∧ W'.w.cur = f ∧
      run W' (.address m) = some (some (t m).1, [], W') ∧ run W' (.look m) = some (some (t m).2, [], W') := by
  obtain ⟨h1, h2, h3⟩ := r.safe
  obtain ⟨hp', e', g'⟩ := call_safe h1 h2 h3 al.1 al.2
  refine ⟨⟨(step W.w c o).1, hp'⟩, by simp only [run, e', Option.map_some], resumes_cur (by simp [Item.resumes, hn]), ?_⟩
  have hd : hands (step W.w c o).2 = some (a, m, f) := by
    simp [hands, hn, hr]
  obtain ⟨to, hm⟩ := (g' m).2 (Or.inl ⟨f, by rw [after_hand hd, put_eq]⟩)
  simp [run, returnAddress, payload, hm]

/-- C104 (what holds): memory is allocated for exactly the messages that have an owner. So nothing leaks, also not when a mailbox
is closed. -/
theorem memory_owned_partial {main idle : Nat} {W : World} {tr : List Item} {h : Hold} {t : Text}
    (r : Reach Calm main idle W tr h t) (m : Nat) : W.hp m = none ↔ h m = .nobody := by
  have g := r.good.2.2 m
  constructor
  · intro hm
    by_cases h0 : h m = .nobody
    · exact h0
    · obtain ⟨to, ht⟩ := g.2 h0; rw [ht] at hm; cases hm
  · exact g.1

/-- C104 (what holds): a fiber that waits on its mailbox gets the answer to its question. Whoever owns the question `q` reads the
address in it; the answer `m` sent there resumes the waiting fiber at once, which then reads in it what the sender put into it. -/
theorem answer_arrives_partial {main idle : Nat} {W : World} {tr : List Item} {h : Hold} {t : Text}
    (r : Reach Sane main idle W tr h t) {q m f : Nat} (hq : h q = .fiber W.w.cur) (hm : h m = .fiber W.w.cur)
    (hf : pending f tr = some (.receive (t q).1)) (ho : W.w.boxes (t q).1 ≠ none) {o : Oracle}
    (lg : Legal W.w (.send (t q).1 m) o) (h0 : o.a 0 = SUCCESS) :
    ∃ x, run W (.address q) = some (some x, [], W) ∧
    ∃ it W', run W (.call (.send x m) o) = some (none, [it], W') ∧
      (∃ e, it.next = .ret f (.receive x) e ∧ result (.receive x) e = (SUCCESS, some m)) ∧
      W'.w.cur = f ∧ run W' (.address m) = some (some (t m).1, [], W') ∧ run W' (.look m) = some (some (t m).2, [], W') := by
  obtain ⟨h1, h2, h3⟩ := r.safe
  obtain ⟨to, hq'⟩ := (h3 q).2 (Or.inl ⟨_, hq⟩)
  have cm : Sane W.w (.send (t q).1 m) o := ⟨lg, by nofun⟩
  have hw : ∀ a n, Call.send (t q).1 m = .send a n → h n = .fiber W.w.cur := by
    intro a n he; cases he; exact hm
  obtain ⟨hp', e, g'⟩ := call_safe h1 h2 h3 cm hw
  obtain ⟨e', hn, hres⟩ := (receiver_woken_partial h1 hf ho).2 m o lg h0
  refine ⟨(t q).1, by simp only [run, returnAddress, hq', Option.map_some], (step W.w (.send (t q).1 m) o).2,
    ⟨(step W.w (.send (t q).1 m) o).1, hp'⟩, by simp only [run, e, Option.map_some], ⟨e', hn, hres⟩, resumes_cur (by simp [Item.resumes, hn]), ?_⟩
  have hd : hands (step W.w (.send (t q).1 m) o).2 = some ((t q).1, m, f) := by
    simp [hands, hn, hres]
  obtain ⟨to', hm'⟩ := (g' m).2 (Or.inl ⟨f, by rw [after_hand hd, put_eq]⟩)
  simp [run, returnAddress, payload, hm']

/-! ### Concrete executions -/

structure St where
  W : World
  tr : List Item
  h : Hold
  t : Text

/-- `Allowed`; with `legal`, the calls are legal and succeed -/
def allowedB (legal : Bool) (s : St) : Act → Bool
  | .call c o => (!legal || legalB s.W.w c && o.a 0 == SUCCESS) && (match c with | .send _ m => s.h m == .fiber s.W.w.cur | _ => true)
  | .create m _ _ => s.W.hp m == none
  | .release m | .address m | .look m | .take m | .pass m _ => s.h m == .fiber s.W.w.cur

def play (legal : Bool) (s : St) : List Act → Option St
  | [] => some s
  | a :: l =>
    if allowedB legal s a then
      match run s.W a with
      | none => none
      | some (_, its, W') => play legal ⟨W', s.tr ++ its, owners s.W.w s.h its a, written s.t a⟩ l
    else none

def start : St := ⟨⟨init 1 9, fun _ => none⟩, [], fun _ => .nobody, fun _ => (0, 0)⟩

def fine : List Act → Prop
  | [] => True
  | .call _ o :: l => o = okO ∧ fine l
  | _ :: l => fine l

private theorem reach_play {legal : Bool} {P : Sys → Call → Oracle → Prop} {main idle : Nat} : ∀ (l : List Act) (s s' : St),
    (∀ s c o, Act.call c o ∈ l → allowedB legal s (.call c o) = true → P s.W.w c o) → Reach P main idle s.W s.tr s.h s.t →
    play legal s l = some s' → Reach P main idle s'.W s'.tr s'.h s'.t
  | [], s, s', _, r, e => by cases e; exact r
  | a :: l, s, s', hp, r, e => by
    rw [play] at e
    split at e
    · rename_i ha
      cases hr : run s.W a with
      | none => rw [hr] at e; cases e
      | some y =>
        obtain ⟨x, its, W'⟩ := y
        rw [hr] at e
        refine reach_play l _ s' (fun s c o hm => hp s c o (List.mem_cons_of_mem _ hm)) (.act r ?_ hr) e
        cases a with
        | call c o =>
          refine ⟨hp s c o (by simp) ha, fun x m hc => ?_⟩
          subst hc
          simp only [allowedB, Bool.and_eq_true, beq_iff_eq] at ha
          exact ha.2
        | _ => simpa [allowedB, Allowed] using ha
    · cases e

private theorem fine_mem : ∀ {l : List Act}, fine l → ∀ c o, Act.call c o ∈ l → o = okO
  | a :: l, hf, c, o, hm => by
    rcases List.mem_cons.1 hm with rfl | hm
    · exact hf.1
    · exact fine_mem (by cases a <;> first | exact hf.2 | exact hf) c o hm

theorem reach_calm (l : List Act) (hf : fine l) (h : (play true start l).isSome) :
    Reach Calm 1 9 ((play true start l).get h).W ((play true start l).get h).tr ((play true start l).get h).h ((play true start l).get h).t :=
  reach_play l start _ (fun s c o hm ha => by
    have := fine_mem hf c o hm
    subst this
    simp only [allowedB, Bool.and_eq_true, Bool.not_true, Bool.false_or] at ha
    exact ⟨legalB_ok ha.1.1, fun _ _ _ => rfl⟩) (.init (by decide) (by decide) fun _ => rfl) (Option.some_get h).symm

theorem reach_any (l : List Act) (h : (play false start l).isSome) :
    Reach (fun _ _ _ => True) 1 9 ((play false start l).get h).W ((play false start l).get h).tr ((play false start l).get h).h
      ((play false start l).get h).t :=
  reach_play l start _ (fun _ _ _ _ _ => trivial) (.init (by decide) (by decide) fun _ => rfl) (Option.some_get h).symm

def k (c : Call) : Act := .call c okO

/-- Fiber 2 serves mailbox 1. Fiber 1 opens mailbox 2 for the answer, asks (message 7, payload 70), and waits; fiber 2 takes the
payload, and has the answer (message 8, payload 80) ready. -/
def talk : List Act := [k .boxCreate, k (.add 2), k .run, k (.receive 1), k .boxCreate, .create 7 2 70, k (.send 1 7), .address 7, .take 7,
  .create 8 0 80, k .run, k (.receive 2)]

example : ∃ W tr h t, Reach Sane 1 9 W tr h t ∧ W.w.cur = 2 ∧ h 7 = .fiber 2 ∧ h 8 = .fiber 2 ∧ t 7 = (2, 0) ∧ t 8 = (0, 80) ∧
    pending 1 tr = some (.receive (t 7).1) ∧ W.w.boxes (t 7).1 ≠ none ∧ legalB W.w (.send (t 7).1 8) = true :=
  ⟨_, _, _, _, (reach_calm talk (by repeat' constructor) (by decide +kernel)).mono fun _ _ _ h => ⟨h.1, fun a ha _ => h.2 a ha⟩, by decide +kernel⟩

/-- Two questions wait in mailbox 1; fiber 2 has not run yet, and receives the first one. -/
example : ∃ W tr h t, Reach Sane 1 9 W tr h t ∧ W.w.cur = 2 ∧ t 7 = (5, 70) ∧ legalB W.w (.receive 1) = true ∧
    (step W.w (.receive 1) okO).2.next = .ret 2 (.receive 1) ⟨.msg, MSG_RECEIVE_SUCCESS, 7⟩ ∧
    result (.receive 1) ⟨.msg, MSG_RECEIVE_SUCCESS, 7⟩ = (SUCCESS, some 7) :=
  ⟨_, _, _, _, (reach_calm [k .boxCreate, k (.add 2), .create 7 5 70, .create 8 6 80, k (.send 1 7), k (.send 1 8), k .run]
    (by repeat' constructor) (by decide +kernel)).mono fun _ _ _ h => ⟨h.1, fun a ha _ => h.2 a ha⟩, by decide +kernel⟩

/-- A mailbox with two messages is closed. -/
example : ∃ W tr h t, Reach Calm 1 9 W tr h t ∧ h 6 = .fiber 1 ∧ h 7 = .nobody ∧ h 8 = .nobody ∧ W.hp 6 = some ⟨3, 0, 60⟩ ∧ W.hp 7 = none :=
  ⟨_, _, _, _, reach_calm [k .boxCreate, .create 6 3 60, .create 7 3 70, .create 8 3 80, k (.send 1 7), k (.send 1 8), k (.boxClose 1)]
    (by repeat' constructor) (by decide +kernel), by decide +kernel⟩

/-- A mailbox is closed and the release of its first message fails: fiber 1 still reads what it owns. -/
example : ∃ w o, Sane w (.boxClose 1) o ∧ o.a 0 ≠ SUCCESS ∧ w.boxes 1 = some ⟨0, [7, 8]⟩ :=
  ⟨(exec (init 1 9) (ok [.boxCreate, .send 1 7, .send 1 8])).1,
    ⟨fun _ => SUCCESS, fun _ => ERROR_GENERAL_OUT_OF_MEMORY⟩,
    ⟨⟨fun _ => rfl, rfl, by nofun, fun h => absurd h (by decide +kernel), Or.inl (by decide +kernel)⟩,
      fun _ _ h => absurd h (by decide)⟩, by decide, by decide +kernel⟩

/-- C104 (violated): a fiber whose send was delivered at once is told to quiesce and gets an error from the send. It releases the message, as
it owns it by the documentation. The receiver reads freed memory. No allocation fails. -/
theorem read_freed_violated : ∃ W tr h t, Reach (fun _ _ _ => True) 1 9 W tr h t ∧
    tr.filterMap hands = [(1, 7, 2), (1, 7, 1)] ∧ W.w.cur = 2 ∧ (run W (.address 7)).isNone :=
  ⟨_, _, _, _, reach_any [k .boxCreate, k (.add 2), k .run, k (.receive 1), .create 7 3 70, k (.send 1 7), k (.quiesce 1), .release 7, k .run]
    (by decide +kernel), by decide +kernel⟩

/-- allocations succeed, the release of the first message of a mailbox does not -/
def badRelease : Oracle := ⟨fun _ => SUCCESS, fun i => if i < 2 then ERROR_GENERAL_OUT_OF_MEMORY else SUCCESS⟩

private theorem legal_bad {w : Sys} {c : Call} (h : legalB w c = true) : Legal w c badRelease :=
  ⟨fun _ => rfl, (legalB_ok h).request, (legalB_ok h).fresh, (legalB_ok h).idle, (legalB_ok h).more⟩

/-- C104 (violated): if the payload of a message cannot be released when its mailbox is closed, the messages behind it stay allocated.
The mailbox is gone, so nobody can release them. The calls are legal. -/
theorem close_leaks_violated : ∃ W tr h t, Reach Sane 1 9 W tr h t ∧ tr.map Item.call = [.boxCreate, .send 1 7, .send 1 8, .boxClose 1] ∧
    W.w.boxes 1 = none ∧ W.hp 7 = none ∧ W.hp 8 = some ⟨3, 1, 80⟩ := by
  have h1 := reach_calm [k .boxCreate, .create 7 3 70, .create 8 3 80, k (.send 1 7), k (.send 1 8)] (by repeat' constructor)
    (by decide +kernel)
  have h2 := h1.mono (P' := Sane) fun _ _ _ h => ⟨h.1, fun a ha _ => h.2 a ha⟩
  refine ⟨_, _, _, _, .act (a := .call (.boxClose 1) badRelease) (x := none) (its := _) (W' := _) h2 ⟨?_, by nofun⟩ (by rfl), ?_⟩
  · exact ⟨legal_bad (by decide +kernel), fun _ _ h => absurd h (by decide)⟩
  · decide +kernel

end Rcpr.MsgHeap
