import Verif.MsgOwnProof

/-!
C80: a message has one owner at a time.

Spec in `MsgOwnSpec`: the owners are computed from the calls and their answers alone, by what message.h says.
`Owned` are the histories of fibers that send only what they own.
-/
namespace Rcpr.MsgOwn

open Rcpr Rcpr.Fiber

/-- C80 (what holds): in a legal history an open mailbox contains each of the messages it owns once and nothing
else. So no message is in two mailboxes, or in a mailbox and owned by a fiber, or in a mailbox and released. -/
theorem mailbox_owns_partial {main idle : Nat} {w : Sys} {tr : List Item} {h : Hold}
    (ho : Owned Legal main idle w tr h) {a : Nat} {b : Box} (hb : w.boxes a = some b) :
    ∀ m, b.msgs.count m = if h m = .box a then 1 else 0 := by
  intro m
  obtain ⟨h1, h2⟩ := ho.holds.box a b hb
  rw [List.Nodup.count h1]
  simp only [h2 m]

/-- C80 (what holds): whenever a legal call tells a fiber that a message is now its own, the owner was the mailbox
of the receive or send that tells it: no other fiber owned it, and it had not been released. The message is not
in any mailbox afterwards. -/
theorem handed_over_partial {main idle : Nat} {w : Sys} {tr : List Item} {h : Hold} (ho : Owned Legal main idle w tr h)
    {c : Call} {o : Oracle} (lg : Legal w c o) (hw : ∀ a m, c = .send a m → h m = .fiber w.cur) {a m f : Nat}
    (hh : hands (step w c o).2 = some (a, m, f)) :
    called h (step w c o).2 m = .box a ∧ ∀ a' b', (step w c o).1.boxes a' = some b' → m ∉ b'.msgs := by
  refine ⟨(step_holds ho.hist ho.holds lg hw).2 a m f hh, fun a' b' hb hm => ?_⟩
  have hs := Owned.step c o ho lg hw
  have := (hs.holds.box a' b' hb).2 m |>.1 hm
  rw [after_hand hh, put_eq] at this
  cases this

/-- C80 (what holds): in a legal history a send that returns an error did so at once, so its message was never
offered to a receiver. -/
theorem send_error_partial {main idle : Nat} {w : Sys} {tr : List Item} (h : Hist main idle w tr)
    {c : Call} {o : Oracle} (lg : Legal w c o) {f a m : Nat} {e : Ev} (hn : (step w c o).2.next = .ret f (.send a m) e)
    (he : (result (.send a m) e).1 ≠ SUCCESS) : c = .send a m ∧ f = w.cur ∧ (step w c o).1.boxes = w.boxes := by
  rcases step_ok h.inv lg with ⟨g, hc, hs⟩ | hout
  · rw [hs] at hn; cases hn
  · have hh : hands (step w c o).2 = some (a, m, f) := by simp [hands, hn, he]
    have hcall : (step w c o).2.call = c := (step_boxes w c o).2.2.2.1
    rcases hands_out h.inv lg hout hh with h1 | ⟨h1, h2, h3⟩
    · simp [Item.recvd, hn] at h1
    · rw [hcall] at h1
      refine ⟨h1, h3, ?_⟩
      subst h1
      exact refused_boxes h.inv hout h2

/-! ### Concrete histories -/

inductive Act
  | call (c : Call) (o : Oracle)
  | create (m f : Nat)
  | release (m : Nat)
  | pass (m g : Nat)

structure St where
  w : Sys
  tr : List Item
  h : Hold

def fiberOf : Holder → Option Nat
  | .fiber f => some f
  | _ => none

/-- the fiber owns the message it sends -/
def ownsB (s : St) : Call → Bool
  | .send _ m => s.h m == .fiber s.w.cur
  | _ => true

def act (s : St) : Act → Option St
  | .call c o => if ownsB s c then some ⟨(step s.w c o).1, s.tr ++ [(step s.w c o).2], after s.h (step s.w c o).2⟩ else none
  | .create m f => if s.h m = .nobody then some { s with h := put s.h m (.fiber f) } else none
  | .release m => if (fiberOf (s.h m)).isSome then some { s with h := put s.h m .nobody } else none
  | .pass m g => if (fiberOf (s.h m)).isSome then some { s with h := put s.h m (.fiber g) } else none

def acts (s : St) : List Act → Option St
  | [] => some s
  | a :: l => (act s a).bind (acts · l)

/-- the calls of the list are made when `P` allows them -/
def allows (P : Sys → Call → Oracle → Prop) (s : St) : List Act → Prop
  | [] => True
  | a :: l => (match a with | .call c o => P s.w c o | _ => True) ∧ ∀ s', act s a = some s' → allows P s' l

def begin (main idle : Nat) : St := ⟨init main idle, [], fun _ => .nobody⟩

theorem fiberOf_some {x : Holder} (h : (fiberOf x).isSome) : ∃ f, x = .fiber f := by
  cases x with
  | fiber f => exact ⟨f, rfl⟩
  | _ => cases h

theorem owned_acts {P : Sys → Call → Oracle → Prop} {main idle : Nat} : ∀ (l : List Act) (s s' : St),
    Owned P main idle s.w s.tr s.h → allows P s l → acts s l = some s' → Owned P main idle s'.w s'.tr s'.h := by
  intro l
  induction l with
  | nil => intro s s' ho _ he; cases he; exact ho
  | cons a l ih =>
    intro s s' ho hl he
    cases ha : act s a with
    | none => rw [acts, ha] at he; cases he
    | some s1 =>
      rw [acts, ha] at he
      refine ih s1 s' ?_ (hl.2 s1 ha) he
      cases a with
      | call c o =>
        simp only [act] at ha
        split at ha
        · rename_i hs
          cases ha
          refine .step c o ho hl.1 fun x m hc => ?_
          subst hc
          simpa [ownsB] using hs
        · cases ha
      | create m f =>
        simp only [act] at ha
        split at ha
        · rename_i hs; cases ha; exact .create m f ho hs
        · cases ha
      | release m =>
        simp only [act] at ha
        split at ha
        · rename_i hs; cases ha; obtain ⟨f, hf⟩ := fiberOf_some hs; exact .release m f ho hf
        · cases ha
      | pass m g =>
        simp only [act] at ha
        split at ha
        · rename_i hs; cases ha; obtain ⟨f, hf⟩ := fiberOf_some hs; exact .pass m f g ho hf
        · cases ha

def legalActs : St → List Act → Bool
  | _, [] => true
  | s, .call c o :: l => legalB s.w c && (match act s (.call c o) with | some s' => legalActs s' l | none => true)
  | s, a :: l => match act s a with | some s' => legalActs s' l | none => true

/-- calls that all succeed -/
def okCalls : List Act → Prop
  | [] => True
  | .call _ o :: l => o = okO ∧ okCalls l
  | _ :: l => okCalls l

theorem allows_legal : ∀ (l : List Act) (s : St), okCalls l → legalActs s l = true → allows Legal s l := by
  intro l
  induction l with
  | nil => intros; trivial
  | cons a l ih =>
    intro s ho hl
    cases a with
    | call c o =>
      obtain ⟨rfl, ho⟩ := ho
      simp only [legalActs, Bool.and_eq_true] at hl
      refine ⟨legalB_ok hl.1, fun s' hs => ih s' ho ?_⟩
      have := hl.2
      rw [hs] at this
      exact this
    | create m f => exact ⟨trivial, fun s' hs => ih s' ho (by simp only [legalActs, hs] at hl; exact hl)⟩
    | release m => exact ⟨trivial, fun s' hs => ih s' ho (by simp only [legalActs, hs] at hl; exact hl)⟩
    | pass m g => exact ⟨trivial, fun s' hs => ih s' ho (by simp only [legalActs, hs] at hl; exact hl)⟩

theorem allows_any : ∀ (l : List Act) (s : St), allows (fun _ _ _ => True) s l := by
  intro l
  induction l with
  | nil => intro s; trivial
  | cons a l ih => intro s; exact ⟨by cases a <;> trivial, fun s' _ => ih s'⟩

def k (c : Call) : Act := .call c okO

theorem owned_legal (l : List Act) (ho : okCalls l) (hl : legalActs (begin 1 9) l = true) (h : (acts (begin 1 9) l).isSome) :
    Owned Legal 1 9 ((acts (begin 1 9) l).get h).w ((acts (begin 1 9) l).get h).tr ((acts (begin 1 9) l).get h).h :=
  owned_acts l (begin 1 9) _ (.init (by decide) (by decide)) (allows_legal l _ ho hl) (Option.some_get h).symm

theorem owned_any (l : List Act) (h : (acts (begin 1 9) l).isSome) :
    Owned (fun _ _ _ => True) 1 9 ((acts (begin 1 9) l).get h).w ((acts (begin 1 9) l).get h).tr ((acts (begin 1 9) l).get h).h :=
  owned_acts l (begin 1 9) _ (.init (by decide) (by decide)) (allows_any l _) (Option.some_get h).symm

/-- Two mailboxes, three messages: 7 is received by fiber 2 and passed on, 8 waits in mailbox 1, 6 was released
when mailbox 2 was closed and is created again by fiber 2. -/
def story : List Act := [k .boxCreate, k .boxCreate, k (.add 2), .create 6 1, .create 7 1, .create 8 1, k (.send 1 7), k (.send 1 8),
  k (.send 2 6), k .run, k (.receive 1), .pass 7 1, k (.boxClose 2), .create 6 2]

example : ∃ w tr h, Owned Legal 1 9 w tr h ∧ h 6 = .fiber 2 ∧ h 7 = .fiber 1 ∧ h 8 = .box 1 ∧
    w.boxes 1 = some ⟨0, [8]⟩ ∧ w.cur = 2 ∧ hands (step w (.receive 1) okO).2 = some (1, 8, 2) :=
  ⟨_, _, _, owned_legal story (by repeat' constructor) (by decide +kernel) (by decide +kernel), by decide +kernel⟩

/-! ### Without the restrictions -/

/-- C80 (violated): a fiber whose send was delivered at once and that is told to quiesce before it runs again
gets an error from its send: it is told to keep a message that the receiver owns already. No allocation fails. -/
theorem two_owners_violated : ∃ w tr h c, Owned (fun _ _ _ => True) 1 9 w tr h ∧ w.cur = 2 ∧ h 7 = .fiber 2 ∧
    hands (step w c okO).2 = some (1, 7, 1) ∧ called h (step w c okO).2 7 = .fiber 2 :=
  ⟨_, _, _, .quiesce 1, owned_any [k .boxCreate, k (.add 2), k .run, k (.receive 1), .create 7 1, k (.send 1 7)] (by decide +kernel),
    by decide +kernel⟩

/-- C80 (violated): a send that fails because the node for the sender cannot be allocated leaves the message in
the mailbox, though the sender still owns it. -/
theorem failed_send_shares_violated : ∃ w tr h, Owned (fun _ _ _ => True) 1 9 w tr h ∧ h 7 = .fiber 1 ∧
    w.boxes 1 = some ⟨0, [7]⟩ :=
  ⟨_, _, _, owned_any [k .boxCreate, .create 7 1, .call (.send 1 7) noQ] (by decide +kernel), by decide +kernel⟩

/-- C80 (violated): a fiber told to quiesce out of a receive stays registered with the mailbox. The next message is
taken out of the mailbox for it and never handed over. -/
theorem message_lost_violated : ∃ w tr h, Owned (fun _ _ _ => True) 1 9 w tr h ∧ h 7 = .box 1 ∧ w.boxes 1 = some ⟨0, []⟩ ∧
    ∀ it ∈ tr, ∀ a f, hands it ≠ some (a, 7, f) :=
  ⟨_, _, _, owned_any [k .boxCreate, k .condCreate, k (.add 2), k .run, k (.receive 1), k (.quiesce 2), k (.wait 1), .create 7 1,
    k (.send 1 7)] (by decide +kernel), by decide +kernel, by decide +kernel, fun it hit a f hh => by
      have := List.all_eq_true.1 (show List.all _ (fun it => (hands it).isNone) = true from by decide +kernel) it hit
      rw [hh] at this; cases this⟩

end Rcpr.MsgOwn
