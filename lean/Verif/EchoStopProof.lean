import Verif.EchoStopSpec
import Verif.IoProof

/-! Invariant of the echo server: where each of its fibers is. Helper lemmas for `Verif.Props.EchoStop`. -/
namespace Rcpr.EchoStop

open Io (Did Ev)
open Fiber (FState RESUME_IDLE RESUME_RUN RESUME_ADD_FIBER MGMT_FIBER_ADD MGMT_FIBER_STOP MGMT_QUIESCE_REQUEST
  MGMT_TERMINATION_REQUEST MGMT_REQUEST_RESULT insertFib)

/-- a fiber that was told of a request, and has not run since -/
def Told (s : Srv) (c f code : Nat) : Prop :=
  (s.pc f = .rd ∨ s.pc f = .wr) ∧ s.ev f = ⟨.mgmt, code, 0⟩ ∧ (f ∈ s.runq ∨ f = c)

/-- the main fiber waits for the result of a request -/
def Asked (S : Ids) (s : Srv) (c : Nat) : Prop := s.pc S.main = .ask ∧ c ≠ S.main

/-- `c` runs, or nobody if it is `0`; the management fiber has been entered -/
structure J (S : Ids) (s : Srv) (c : Nat) : Prop where
  bad : s.bad = false
  mgrpc : s.pc S.mgr = .recv
  mgrtree : S.mgr ∈ s.tree
  mgrq : S.mgr ∉ s.runq
  mgmt : (c = S.mgr → s.mgmt = 0) ∧ (c ≠ S.mgr → s.mgmt = S.mgr)
  nodup : s.runq.Nodup
  cq : c ∉ s.runq
  iq : S.idle ∉ s.runq
  q : ∀ f ∈ s.runq, f = S.main ∨ f ∈ s.tree
  tnodup : s.tree.Nodup
  tid : S.main ∉ s.tree ∧ S.idle ∉ s.tree ∧ 0 ∉ s.tree
  tfree : ∀ f ∈ s.tree, s.free f = false
  fid : s.free S.main = false ∧ s.free S.idle = false
  fresh : ∀ f, f ∉ s.tree → s.free f = false → f ≠ S.main → f ≠ S.idle → s.pc f = .new ∧ s.st f = .created ∧ s.sock f = false
  gone : ∀ f, s.free f = true → s.sock f = false ∧ s.pc f = .stop
  ev : c = S.mgr → (∃ f, s.ev S.mgr = ⟨.mgmt, MGMT_FIBER_ADD, f⟩) ∨
    (∃ f, s.ev S.mgr = ⟨.mgmt, MGMT_FIBER_STOP, f⟩ ∧ f ∈ s.tree ∧ s.pc f = .stop)
  stop : ∀ f ∈ s.tree, s.pc f = .stop →
    c = S.mgr ∧ s.ev S.mgr = ⟨.mgmt, MGMT_FIBER_STOP, f⟩ ∧ s.st f = .stopped ∧ s.sock f = false ∧ f ∉ s.runq
  run : ∀ f ∈ s.tree, (s.pc f ≠ .new ∧ s.pc f ≠ .stop) ∨ f = c → s.st f = .running
  new : ∀ f ∈ s.tree, s.pc f = .new → f = c ∨ (f ∈ s.runq ∧ s.st f = .created)
  pcs : ∀ f ∈ s.tree, f ≠ S.mgr → s.pc f = .new ∨ s.pc f = .rd ∨ s.pc f = .wr ∨ s.pc f = .stop ∨
    (s.pc f = .add ∧ f = S.listen ∧ (c = S.listen ∨ (c = S.mgr ∨ c = 0) ∧ ∃ q, s.runq = S.listen :: q))
  sock : ∀ f ∈ s.tree, f ≠ S.mgr → s.pc f ≠ .stop → (f = S.listen ∧ s.pc f = .new) ∨ s.sock f = true
  sockid : s.sock S.main = false ∧ s.sock S.idle = false ∧ s.sock S.mgr = false
  mainpc : s.pc S.main = .rd ∨ s.pc S.main = .ask
  mainrd : (c = S.main ∨ S.main ∈ s.runq) → s.pc S.main = .rd → (s.ev S.main).disc = .psock
  mainask : s.pc S.main = .ask → (c = S.main ∨ S.main ∈ s.runq) ∧ s.ev S.main = ⟨.mgmt, MGMT_REQUEST_RESULT, SUCCESS.toNat⟩
  idlepc : s.pc S.idle = .new ∨ s.pc S.idle = .idle
  idlec : c = S.idle → s.runq = []
  cur : c = 0 ∨ c = S.main ∨ c = S.idle ∨ c ∈ s.tree
  last : ∀ a b, s.runq = a ++ S.main :: b → ∀ f ∈ b, s.pc f = .new
  lastc : c = S.main → ∀ f ∈ s.runq, s.pc f = .new
  lnew : S.listen ∈ s.tree → s.pc S.listen = .new → c = S.listen
  lwr : s.pc S.listen ≠ .wr
  lsock : s.pc S.listen = .new → s.sock S.listen = false
  lend : S.listen ∈ s.tree ∨ s.free S.listen = true
  got : s.got ≤ 2
  g2 : s.got = 2 → s.pc S.main = .ask
  r0 : s.got = 0 → s.pc S.main = .rd
  rq : Asked S s c → ∃ q, s.runq = q ++ [S.main]
  rc : s.pc S.main = .ask → c = S.main → s.runq = []
  r1a : s.got = 1 → Asked S s c → S.listen ∈ s.tree → s.quiesce = true ∨ s.pc S.listen = .stop ∨ Told s c S.listen MGMT_QUIESCE_REQUEST
  r1b : s.got = 1 → ¬ Asked S s c → (S.listen ∈ s.tree → s.quiesce = true ∨ s.pc S.listen = .stop) ∧ ∀ f ∈ s.tree, s.pc f ≠ .new
  r2a : s.got = 2 → Asked S s c → ∀ f ∈ s.tree, f ≠ S.mgr → s.pc f = .stop ∨ Told s c f MGMT_TERMINATION_REQUEST
  r2b : s.got = 2 → ¬ Asked S s c → ∀ f ∈ s.tree, f = S.mgr

/-- the next fiber runs -/
theorem pop_ok {S : Ids} (hS : S.Ok) {s : Srv} (j : J S s 0) :
    J S (pop S s) (pop S s).cur := by
  obtain ⟨z1, z2, z3⟩ := hS
  unfold pop
  split
  · rename_i f q hq
    have hm : f ≠ S.mgr := by have := j.mgrq; grind
    have hfq : f ∉ q := by have := j.nodup; grind
    have hf0 : f ≠ 0 := by have := j.cq; grind
    have hfi : f ≠ S.idle := by have := j.iq; grind
    have hft : f = S.main ∨ f ∈ s.tree := j.q f (by grind)
    have hst : s.pc f ≠ .stop := by
      intro h
      rcases hft with rfl | h'
      · rcases j.mainpc with h' | h' <;> grind
      · have := (j.stop f h' h).2.2.2.2; grind
    have hfr : s.free f = false := by
      rcases hft with rfl | h'
      · exact j.fid.1
      · exact j.tfree f h'
    have hev : (upd s.ev f (s.ev f)) = s.ev := by funext g; simp only [upd]; grind
    show J S (enter { s with runq := q } f (s.ev f)) f
    have hpm : S.main = f → Asked S s 0 → q = [] := by
      intro h ha
      obtain ⟨q', hq'⟩ := j.rq ha
      have hn := j.nodup
      rw [hq] at hq' hn
      cases q' with
      | nil => grind
      | cons x xs => grind
    have hst' : ∀ g, g ≠ f → (if s.pc f = Pc.new then upd s.st f FState.running else s.st) g = s.st g := by
      intro g hg; split <;> simp [upd, hg]
    have hst'' : s.pc f = .new → (if s.pc f = Pc.new then upd s.st f FState.running else s.st) f = .running := by
      intro h; simp [h, upd]
    have hst3 : s.pc f ≠ .new → (if s.pc f = Pc.new then upd s.st f FState.running else s.st) f = s.st f := by
      intro h; simp [h]
    constructor
    all_goals simp only [enter, hev]
    case bad => have := j.bad; simp [this, hfr, hst]
    case mgrpc => exact j.mgrpc
    case mgrtree => exact j.mgrtree
    case mgrq => have := j.mgrq; grind
    case mgmt => have := j.mgmt; grind
    case nodup => have := j.nodup; grind
    case cq => exact hfq
    case iq => have := j.iq; grind
    case q => have := j.q; grind
    case tnodup => exact j.tnodup
    case tid => exact j.tid
    case tfree => exact j.tfree
    case fid => exact j.fid
    case fresh => have := j.fresh; grind
    case gone => exact j.gone
    case ev => grind
    case stop => intro g hg h; have := j.stop g hg h; grind
    case run =>
      intro g hg h
      have h1 := j.run g hg
      by_cases e : g = f
      · subst e; by_cases e : s.pc g = .new
        · exact hst'' e
        · rw [hst3 e]; exact h1 (.inl ⟨e, hst⟩)
      · rw [hst' g e]; grind
    case new => intro g hg h; have := j.new g hg h; have := j.tid; by_cases e : g = f <;> grind
    case pcs => intro g hg h; have := j.pcs g hg h; grind
    case sock => exact j.sock
    case sockid => exact j.sockid
    case mainpc => exact j.mainpc
    case mainrd => have := j.mainrd; grind
    case mainask => have := j.mainask; grind
    case idlepc => exact j.idlepc
    case idlec => grind
    case cur => grind
    case last => intro a b h g hg; exact j.last (f :: a) b (by rw [hq, h]; rfl) g hg
    case lastc => intro h g hg; exact j.last [] q (by rw [hq, h]; rfl) g hg
    case lnew => intro h h'; have := j.lnew h h'; grind
    case lwr => have := j.lwr; grind [upd]
    case lsock => have := j.lsock; grind [upd]
    case lend => exact j.lend
    case got => exact j.got
    case g2 => have := j.g2; grind [upd]
    case r0 => exact j.r0
    case rq =>
      intro ha
      obtain ⟨q', hq'⟩ := j.rq ⟨ha.1, by grind⟩
      rw [hq] at hq'
      have := ha.2
      cases q' with
      | nil => grind
      | cons x xs => exact ⟨xs, by grind⟩
    case rc => intro h h'; exact hpm h'.symm ⟨h, by grind⟩
    case r1a =>
      intro h ha hl
      have := j.r1a h ⟨ha.1, by grind⟩ hl
      unfold Told at *
      grind
    case r1b =>
      intro h ha
      by_cases h' : Asked S s 0
      · have e : S.main = f := by unfold Asked at *; grind
        have e' := hpm e h'
        have hl := j.r1a h h'
        have hn := j.new
        have ht := j.tid
        unfold Told at *
        grind
      · exact j.r1b h h'
    case r2a =>
      intro h ha g hg hgm
      have := j.r2a h ⟨ha.1, by grind⟩ g hg hgm
      have := j.tid
      unfold Told at *
      grind
    case r2b =>
      intro h ha
      by_cases h' : Asked S s 0
      · have e : S.main = f := by unfold Asked at *; grind
        have e' := hpm e h'
        intro g hg
        have hl := j.r2a h h' g hg
        have hs := j.stop g hg
        have ht := j.tid
        unfold Told at *
        grind
      · exact j.r2b h h'
  · rename_i hq
    have hna : ¬ Asked S s 0 := by
      intro h
      obtain ⟨q, h'⟩ := j.rq h
      rw [hq] at h'; simp at h'
    have hna' : ¬ Asked S s S.idle := by
      intro h; exact hna ⟨h.1, by grind⟩
    have hnew : ∀ f ∈ s.tree, s.pc f ≠ .new := by
      intro f hf h; have := j.new f hf h; have := j.tid; grind
    have hst' : ∀ g, g ∈ s.tree → (if s.pc S.idle = Pc.new then upd s.st S.idle FState.running else s.st) g = s.st g := by
      intro g hg; have := j.tid; split
      · simp [upd]; grind
      · rfl
    show J S (enter s S.idle ⟨.internal, RESUME_IDLE, 0⟩) S.idle
    have hm : s.pc S.main = .rd := by
      rcases j.mainpc with h | h
      · exact h
      · exact absurd ⟨h, by grind⟩ hna
    constructor
    all_goals simp only [enter]
    case bad => have := j.bad; have := j.fid; have := j.idlepc; grind
    case mgrpc => exact j.mgrpc
    case mgrtree => exact j.mgrtree
    case mgrq => exact j.mgrq
    case mgmt => have := j.mgmt; grind
    case nodup => exact j.nodup
    case cq => exact j.iq
    case iq => exact j.iq
    case q => exact j.q
    case tnodup => exact j.tnodup
    case tid => exact j.tid
    case tfree => exact j.tfree
    case fid => exact j.fid
    case fresh =>
      intro g h h1 h2 h3
      have := j.fresh g h h1 h2 h3
      refine ⟨this.1, ?_, this.2.2⟩
      split
      · simp [upd, h3, this.2.1]
      · exact this.2.1
    case gone => exact j.gone
    case ev => grind
    case stop => intro g hg h; have := j.stop g hg h; grind
    case run =>
      intro g hg h
      have h1 := j.run g hg
      have ht := j.tid
      rw [hst' g hg]; grind
    case new => intro g hg h; exact absurd h (hnew g hg)
    case pcs => intro g hg h; have := j.pcs g hg h; grind
    case sock => exact j.sock
    case sockid => exact j.sockid
    case mainpc => exact j.mainpc
    case mainrd => intro h; grind
    case mainask => intro h; grind
    case idlepc => exact j.idlepc
    case idlec => exact fun _ => hq
    case cur => grind
    case last => exact j.last
    case lastc => intro h; grind
    case lnew => intro h h'; have := hnew _ h h'; grind
    case lwr => have := j.lwr; grind [upd]
    case lsock => have := j.lsock; grind [upd]
    case lend => exact j.lend
    case got => exact j.got
    case g2 => have := j.g2; grind [upd]
    case r0 => exact j.r0
    case rq => intro ha; exact absurd ha hna'
    case rc => intro h h'; grind
    case r1a => intro _ ha; exact absurd ha hna'
    case r1b => intro h _; exact j.r1b h hna
    case r2a => intro _ ha; exact absurd ha hna'
    case r2b => intro h _; exact j.r2b h hna

/-- a fiber of a connection or the listen fiber waits for a socket -/
theorem park_ok {S : Ids} (hS : S.Ok) {s : Srv} {c : Nat} (j : J S s c) (hc : c ∈ s.tree) (hm : c ≠ S.mgr) {p : Pc}
    (hp : p = .rd ∨ p = .wr) (hpl : c = S.listen → p = .rd) {b : Bool} (hb : s.quiesce = true → b = true) {k : Nat → Bool} (hk : ∀ g, g ≠ c → k g = s.sock g)
    (hk' : k c = true) (h1 : c = S.listen → s.got = 1 → Asked S s c → b = true) (h2 : s.got ≠ 2) :
    J S { s with pc := upd s.pc c p, quiesce := b, sock := k } 0 := by
  obtain ⟨z1, z2, z3⟩ := hS
  have ht := j.tid
  have hst : s.pc c ≠ .stop := fun h => hm (j.stop c hc h).1
  have hcm : c ≠ S.main := by grind
  have hci : c ≠ S.idle := by grind
  have hnp : p ≠ .new ∧ p ≠ .stop := by grind
  have hq := j.q
  have hcq := j.cq
  have hA : Asked S { s with pc := upd s.pc c p, quiesce := b, sock := k } 0 → Asked S s c := by
    intro h; refine ⟨?_, hcm⟩; have := h.1; simp only [upd] at this; grind
  have hA' : Asked S s c → Asked S { s with pc := upd s.pc c p, quiesce := b, sock := k } 0 := by
    intro h; refine ⟨?_, by grind⟩; have := h.1; simp only [upd]; grind
  constructor
  all_goals simp only
  case bad => exact j.bad
  case mgrpc => have := j.mgrpc; simp only [upd]; grind
  case mgrtree => exact j.mgrtree
  case mgrq => exact j.mgrq
  case mgmt => have := j.mgmt; grind
  case nodup => exact j.nodup
  case cq => intro h; have := hq _ h; grind
  case iq => exact j.iq
  case q => exact j.q
  case tnodup => exact j.tnodup
  case tid => exact j.tid
  case tfree => exact j.tfree
  case fid => exact j.fid
  case fresh => intro g h a b d; have := j.fresh g h a b d; simp only [upd]; grind
  case gone => intro g h; have := j.gone g h; have := j.tfree; simp only [upd]; grind
  case ev => grind
  case stop =>
    intro g hg h
    have : s.pc g = .stop ∧ g ≠ c := by simp only [upd] at h; grind
    have := j.stop g hg this.1; grind
  case run => intro g hg h; have := j.run g hg; simp only [upd] at h; grind
  case new => intro g hg h; have := j.new g hg; simp only [upd] at h; grind
  case pcs => intro g hg h; have := j.pcs g hg h; simp only [upd]; grind
  case sock => intro g hg h h'; have := j.sock g hg h; have := hk g; simp only [upd] at *; grind
  case sockid => have := j.sockid; rw [hk _ (Ne.symm hcm), hk _ (Ne.symm hci), hk _ (Ne.symm hm)]; exact this
  case mainpc => have := j.mainpc; simp only [upd]; grind
  case mainrd => have := j.mainrd; simp only [upd]; grind
  case mainask => have := j.mainask; simp only [upd]; grind
  case idlepc => have := j.idlepc; simp only [upd]; grind
  case idlec => grind
  case cur => simp
  case last => intro x y h g hg; have h3 := j.last x y h g hg; simp only [upd]; grind
  case lastc => grind
  case lnew => intro h h'; have := j.lnew h; simp only [upd] at h'; grind
  case lwr => have := j.lwr; grind [upd]
  case lsock => have := j.lsock; grind [upd]
  case lend => exact j.lend
  case got => exact j.got
  case g2 => have := j.g2; grind [upd]
  case r0 => have := j.r0; simp only [upd]; grind
  case rq => exact fun h => j.rq (hA h)
  case rc => grind
  case r1a =>
    intro h ha hl
    have h3 := j.r1a h (hA ha) hl
    have h4 := fun e => h1 e h (hA ha)
    simp only [Told, upd] at *
    grind
  case r1b =>
    intro h ha
    have h3 := j.r1b h (fun h => ha (hA' h))
    simp only [upd]
    grind
  case r2a => intro h; exact absurd h h2
  case r2b => intro h; exact absurd h h2

/-- the main fiber waits for the signal thread -/
theorem mainDry_ok {S : Ids} (hS : S.Ok) {s : Srv} (j : J S s S.main) (h2 : s.got ≠ 2) :
    J S { s with pc := upd s.pc S.main .rd } 0 := by
  obtain ⟨z1, z2, z3⟩ := hS
  have ht := j.tid
  have hq := j.q
  have hcq := j.cq
  have hA : ¬ Asked S { s with pc := upd s.pc S.main .rd } 0 := by
    intro h; have := h.1; simp [upd] at this
  have hA' : ¬ Asked S s S.main := fun h => h.2 rfl
  constructor
  all_goals simp only
  case bad => exact j.bad
  case mgrpc => have := j.mgrpc; simp only [upd]; grind
  case mgrtree => exact j.mgrtree
  case mgrq => exact j.mgrq
  case mgmt => have := j.mgmt; grind
  case nodup => exact j.nodup
  case cq => intro h; have := hq _ h; grind
  case iq => exact j.iq
  case q => exact j.q
  case tnodup => exact j.tnodup
  case tid => exact j.tid
  case tfree => exact j.tfree
  case fid => exact j.fid
  case fresh => intro g h a b d; have := j.fresh g h a b d; simp only [upd]; grind
  case gone => intro g h; have := j.gone g h; have := j.fid; simp only [upd]; grind
  case ev => grind
  case stop =>
    intro g hg h
    have : s.pc g = .stop := by simp only [upd] at h; grind
    have := j.stop g hg this; grind
  case run => intro g hg h; have := j.run g hg; simp only [upd] at h; grind
  case new => intro g hg h; have := j.new g hg; simp only [upd] at h; grind
  case pcs => intro g hg h; have := j.pcs g hg h; simp only [upd]; grind
  case sock => intro g hg h h'; have := j.sock g hg h; simp only [upd] at *; grind
  case sockid => exact j.sockid
  case mainpc => simp [upd]
  case mainrd => grind
  case mainask => simp [upd]
  case idlepc => have := j.idlepc; simp only [upd]; grind
  case idlec => grind
  case cur => simp
  case last => intro x y h g hg; have h3 := j.last x y h g hg; simp only [upd]; grind
  case lastc => grind
  case lnew => intro h h'; have := j.lnew h; simp only [upd] at h'; grind
  case lwr => have := j.lwr; grind [upd]
  case lsock => have := j.lsock; grind [upd]
  case lend => exact j.lend
  case got => exact j.got
  case g2 => have := j.g2; grind [upd]
  case r0 => simp [upd]
  case rq => exact fun h => absurd h hA
  case rc => grind
  case r1a => exact fun _ h => absurd h hA
  case r1b =>
    intro h _
    have h3 := j.r1b h hA'
    simp only [upd]
    grind
  case r2a => intro h; exact absurd h h2
  case r2b => intro h; exact absurd h h2

/-! ### Requests -/

/-- what comes after the last element -/
theorem nodup_last {l x y : List Nat} {m : Nat} (hn : (l ++ [m]).Nodup) (h : l ++ [m] = x ++ m :: y) : y = [] := by
  rcases List.eq_nil_or_concat y with e | ⟨y', z, e⟩
  · exact e
  · exfalso
    rw [List.concat_eq_append] at e
    subst e
    have e2 : x ++ m :: (y' ++ [z]) = (x ++ m :: y') ++ [z] := by simp
    have hx := hn
    rw [h] at hx
    rw [e2] at h
    have e3 := (List.append_inj' h rfl).2
    simp only [List.cons.injEq, and_true] at e3
    subst e3
    rw [List.nodup_append] at hx
    have := hx.2.1
    simp at this

/-- the fibers a request goes to -/
def targets (s : Srv) (y : Nat) (l : List Nat) : List Nat := l.filter fun f => y ≠ f ∧ s.mgmt ≠ f ∧ s.st f = .running

theorem loop_eq (code y : Nat) : ∀ (l : List Nat) (s : Srv), (∀ f ∈ l, s.free f = false) →
    requestLoop code y l s = { s with runq := s.runq ++ targets s y l,
                                      ev := fun g => if g ∈ targets s y l then ⟨.mgmt, code, 0⟩ else s.ev g }
  | [], s, _ => by simp [requestLoop, targets]
  | f :: l, s, h => by
    unfold requestLoop
    split
    · rename_i hf
      rw [loop_eq code y l (back s f ⟨.mgmt, code, 0⟩) (fun g hg => h g (by simp [hg]))]
      have e : targets (back s f ⟨.mgmt, code, 0⟩) y l = targets s y l := rfl
      have e' : targets s y (f :: l) = f :: targets s y l := by simp [targets, hf]
      rw [e, e']
      have hfr := h f (by simp)
      simp only [back, hfr, Bool.or_false, List.append_assoc, List.singleton_append]
      congr 1
      funext g
      simp only [upd]
      grind
    · rename_i hf
      rw [loop_eq code y l s (fun g hg => h g (by simp [hg]))]
      have e' : targets s y (f :: l) = targets s y l := by simp [targets]; grind
      rw [e']

theorem ask_eq {S : Ids} {s : Srv} (j : J S s S.main) (code n : Nat) :
    requestAllH code { s with got := n } S.main =
      { s with got := n
               runq := s.runq ++ targets s S.main s.tree ++ [S.main]
               ev := fun g => if g = S.main then ⟨.mgmt, MGMT_REQUEST_RESULT, SUCCESS.toNat⟩ else
                 if g ∈ targets s S.main s.tree then ⟨.mgmt, code, 0⟩ else s.ev g } := by
  unfold requestAllH
  rw [loop_eq code S.main s.tree { s with got := n } j.tfree]
  have hf := j.fid.1
  simp only [back, hf, Bool.or_false]
  rfl

/-- the main fiber asks for all to quiesce or terminate -/
theorem ask_ok {S : Ids} (hS : S.Ok) {s : Srv} (j : J S s S.main) {code n : Nat}
    (hn : (n = 1 ∧ s.got = 0 ∧ code = MGMT_QUIESCE_REQUEST) ∨ (n = 2 ∧ s.got = 1 ∧ code = MGMT_TERMINATION_REQUEST)) :
    J S { s with got := n
                 runq := s.runq ++ targets s S.main s.tree ++ [S.main]
                 ev := fun g => if g = S.main then ⟨.mgmt, MGMT_REQUEST_RESULT, SUCCESS.toNat⟩ else
                   if g ∈ targets s S.main s.tree then ⟨.mgmt, code, 0⟩ else s.ev g
                 pc := upd s.pc S.main .ask } 0 := by
  obtain ⟨z1, z2, z3⟩ := hS
  have ht := j.tid
  have hq := j.q
  have hcq := j.cq
  have hmg : s.mgmt = S.mgr := j.mgmt.2 z2.1
  have htg : ∀ f, f ∈ targets s S.main s.tree ↔ f ∈ s.tree ∧ f ≠ S.mgr ∧ s.st f = .running := by
    intro f
    simp only [targets, hmg, List.mem_filter, decide_eq_true_eq]
    grind
  have hns : ∀ f ∈ s.tree, s.pc f ≠ .stop := by
    intro f hf h; exact z2.1 (j.stop f hf h).1
  have hnew := j.new
  have hlc := j.lastc rfl
  have htn : (targets s S.main s.tree).Nodup := j.tnodup.filter _
  have hdis : ∀ f ∈ s.runq, f ∉ targets s S.main s.tree := by
    intro f hf h
    have := (htg f).1 h
    have := hnew f this.1 (hlc f hf)
    grind
  generalize targets s S.main s.tree = T at *
  have hmem : ∀ f, f ∈ s.runq ++ T ++ [S.main] ↔ f ∈ s.runq ∨ f ∈ T ∨ f = S.main := by simp
  have hnd : (s.runq ++ T ++ [S.main]).Nodup := by
    rw [List.nodup_append]
    refine ⟨?_, by simp, ?_⟩
    · rw [List.nodup_append]
      exact ⟨j.nodup, htn, fun a ha b hb e => hdis a ha (e ▸ hb)⟩
    · intro a ha b hb e
      simp at hb; subst hb; subst e
      rcases List.mem_append.1 ha with h | h
      · exact hcq h
      · exact ht.1 ((htg _).1 h).1
  have hrun := j.run
  have hpcs := j.pcs
  constructor
  all_goals simp only
  case bad => exact j.bad
  case mgrpc => have := j.mgrpc; simp only [upd]; grind
  case mgrtree => exact j.mgrtree
  case mgrq => rw [hmem]; have := j.mgrq; grind
  case mgmt => grind
  case nodup => exact hnd
  case cq => rw [hmem]; intro h; have := hq 0; grind
  case iq => rw [hmem]; have := j.iq; grind
  case q => intro f; rw [hmem]; have := hq f; grind
  case tnodup => exact j.tnodup
  case tid => exact j.tid
  case tfree => exact j.tfree
  case fid => exact j.fid
  case fresh => intro g h a b d; have := j.fresh g h a b d; simp only [upd]; grind
  case gone => intro g h; have := j.gone g h; have := j.fid; simp only [upd]; grind
  case ev => grind
  case stop =>
    intro g hg h
    have : s.pc g = .stop := by simp only [upd] at h; grind
    exact absurd this (hns g hg)
  case run => intro g hg h; have := hrun g hg; simp only [upd] at h; grind
  case new => intro g hg h; have := hnew g hg; simp only [upd] at h; rw [hmem]; grind
  case pcs => intro g hg h; have := hpcs g hg h; simp only [upd]; grind
  case sock => intro g hg h h'; have := j.sock g hg h; simp only [upd] at *; grind
  case sockid => exact j.sockid
  case mainpc => simp [upd]
  case mainrd => simp [upd]
  case mainask => intro _; rw [hmem]; simp
  case idlepc => have := j.idlepc; simp only [upd]; grind
  case idlec => grind
  case cur => simp
  case last =>
    intro x y h g hg
    have := nodup_last hnd h
    grind
  case lastc => grind
  case lnew => intro h h'; have := j.lnew h; simp only [upd] at h'; grind
  case lwr => have := j.lwr; grind [upd]
  case lsock => have := j.lsock; grind [upd]
  case lend => exact j.lend
  case got => grind
  case g2 => have := j.g2; grind [upd]
  case r0 => grind
  case rq => exact fun _ => ⟨_, rfl⟩
  case rc => grind
  case r1a =>
    intro h _ hl
    right; right
    have hp := hpcs S.listen hl (Ne.symm z3.1)
    have hln := j.lnew hl
    have hr := hrun S.listen hl
    have hs := hns S.listen hl
    have : S.listen ∈ T := (htg _).2 ⟨hl, Ne.symm z3.1, by grind⟩
    unfold Told
    rw [hmem]
    simp only [upd]
    grind
  case r1b => intro h ha; exact absurd ⟨by simp [upd], Ne.symm z1.1⟩ ha
  case r2a =>
    intro h _ g hg hgm
    right
    have hg1 : s.got = 1 := by grind
    have hb := j.r1b hg1 (fun h => h.2 rfl)
    have hp := hpcs g hg hgm
    have hr := hrun g hg
    have hs := hns g hg
    have hnn := hb.2 g hg
    have : g ∈ T := (htg _).2 ⟨hg, hgm, hr (.inl ⟨hnn, hs⟩)⟩
    unfold Told
    rw [hmem]
    simp only [upd]
    grind
  case r2b => intro h ha; exact absurd ⟨by simp [upd], Ne.symm z1.1⟩ ha

/-! ### The idle fiber -/

theorem wake_eq : ∀ (l : List Nat) (s : Srv), (∀ f ∈ l, s.free f = false) →
    wake l s = { s with runq := s.runq ++ l, ev := fun g => if g ∈ l then ⟨.psock, 0, 0⟩ else s.ev g }
  | [], s, _ => by simp [wake]
  | f :: l, s, h => by
    unfold wake
    rw [wake_eq l (back s f ⟨.psock, 0, 0⟩) (fun g hg => h g (by simp [hg]))]
    have hfr := h f (by simp)
    simp only [back, hfr, Bool.or_false, List.append_assoc, List.singleton_append]
    congr 1
    funext g
    simp only [upd]
    grind

theorem waiting_known {S : Ids} {s : Srv} (j : J S s S.idle) {f : Nat} (h : s.pc f = .rd ∨ s.pc f = .wr) :
    f = S.main ∨ f ∈ s.tree := by
  have h1 := j.fresh f
  have h2 := j.gone f
  have h3 := j.idlepc
  grind

theorem poll_ok {S : Ids} (hS : S.Ok) {s : Srv} (j : J S s S.idle) {fs : List Nat} (hn : fs.Nodup)
    (hw : ∀ f ∈ fs, s.pc f = .rd ∨ s.pc f = .wr) (hl : S.main ∈ fs → ∃ l, fs = l ++ [S.main]) :
    J S { s with runq := fs, ev := fun g => if g ∈ fs then ⟨.psock, 0, 0⟩ else s.ev g, pc := upd s.pc S.idle .idle } 0 := by
  obtain ⟨z1, z2, z3⟩ := hS
  have ht := j.tid
  have hk := fun f hf => waiting_known j (hw f hf)
  have hrq := j.idlec rfl
  have hm : s.pc S.main = .rd := by
    have h1 := j.mainpc; have h2 := j.mainask
    grind
  have hnn : ∀ f ∈ s.tree, s.pc f ≠ .new := by
    intro f hf h; have := j.new f hf h; grind
  have hns : ∀ f ∈ s.tree, s.pc f ≠ .stop := by
    intro f hf h; have := (j.stop f hf h).1; grind
  have hA : ¬ Asked S { s with runq := fs, ev := fun g => if g ∈ fs then ⟨.psock, 0, 0⟩ else s.ev g, pc := upd s.pc S.idle .idle } 0 := by
    intro h; have := h.1; simp only [upd] at this; grind
  have hA' : ¬ Asked S s S.idle := by intro h; have := h.1; grind
  have hip := j.idlepc
  constructor
  all_goals simp only
  case bad => exact j.bad
  case mgrpc => have := j.mgrpc; simp only [upd]; grind
  case mgrtree => exact j.mgrtree
  case mgrq => intro h; have := hw _ h; have := j.mgrpc; grind
  case mgmt => have := j.mgmt; grind
  case nodup => exact hn
  case cq => intro h; have := hk _ h; grind
  case iq => intro h; have := hw _ h; grind
  case q => exact hk
  case tnodup => exact j.tnodup
  case tid => exact j.tid
  case tfree => exact j.tfree
  case fid => exact j.fid
  case fresh => intro g h a b d; have := j.fresh g h a b d; simp only [upd]; grind
  case gone => intro g h; have := j.gone g h; have := j.fid; simp only [upd]; grind
  case ev => grind
  case stop =>
    intro g hg h
    have : s.pc g = .stop := by simp only [upd] at h; grind
    exact absurd this (hns g hg)
  case run => intro g hg h; have := j.run g hg; simp only [upd] at h; grind
  case new => intro g hg h; have := hnn g hg; simp only [upd] at h; grind
  case pcs => intro g hg h; have := j.pcs g hg h; simp only [upd]; grind
  case sock => intro g hg h h'; have := j.sock g hg h; simp only [upd] at *; grind
  case sockid => exact j.sockid
  case mainpc => simp only [upd]; grind
  case mainrd => grind
  case mainask => simp only [upd]; grind
  case idlepc => simp [upd]
  case idlec => grind
  case cur => simp
  case last =>
    intro x y h g hg
    obtain ⟨l, hl⟩ := hl (by rw [h]; simp)
    rw [hl] at hn h
    have := nodup_last hn h
    grind
  case lastc => grind
  case lnew => intro h h'; have := hnn _ h; simp only [upd] at h'; grind
  case lwr => have := j.lwr; grind [upd]
  case lsock => have := j.lsock; grind [upd]
  case lend => exact j.lend
  case got => exact j.got
  case g2 => have := j.g2; grind [upd]
  case r0 => simp only [upd]; grind
  case rq => exact fun h => absurd h hA
  case rc => grind
  case r1a => exact fun _ h => absurd h hA
  case r1b =>
    intro h _
    have h3 := j.r1b h hA'
    simp only [upd]
    grind
  case r2a => exact fun _ h => absurd h hA
  case r2b => exact fun h _ => j.r2b h hA'

/-! ### The management fiber -/

/-- it is told of a fiber that was added, and waits again -/
theorem mgrAdd_ok {S : Ids} (hS : S.Ok) {s : Srv} (j : J S s S.mgr) (he : ∃ f, s.ev S.mgr = ⟨.mgmt, MGMT_FIBER_ADD, f⟩) :
    J S { s with mgmt := S.mgr, pc := upd s.pc S.mgr .recv } 0 := by
  obtain ⟨z1, z2, z3⟩ := hS
  have hpc : upd s.pc S.mgr .recv = s.pc := by
    funext g; simp only [upd]; have := j.mgrpc; grind
  rw [hpc]
  have ht := j.tid
  have hq := j.q
  have hns : ∀ f ∈ s.tree, s.pc f ≠ .stop := by
    intro f hf h; have := (j.stop f hf h).2.1; obtain ⟨g, he⟩ := he; rw [he] at this; simp [MGMT_FIBER_ADD, MGMT_FIBER_STOP] at this
  have hA : Asked S { s with mgmt := S.mgr } 0 ↔ Asked S s S.mgr := by unfold Asked; simp only; grind
  constructor
  all_goals simp only
  case bad => exact j.bad
  case mgrpc => exact j.mgrpc
  case mgrtree => exact j.mgrtree
  case mgrq => exact j.mgrq
  case mgmt => grind
  case nodup => exact j.nodup
  case cq => intro h; have := hq _ h; grind
  case iq => exact j.iq
  case q => exact j.q
  case tnodup => exact j.tnodup
  case tid => exact j.tid
  case tfree => exact j.tfree
  case fid => exact j.fid
  case fresh => exact j.fresh
  case gone => exact j.gone
  case ev => grind
  case stop => intro g hg h; exact absurd h (hns g hg)
  case run => intro g hg h; have := j.run g hg; grind
  case new => intro g hg h; have := j.new g hg h; have := j.mgrpc; grind
  case pcs => intro g hg h; have := j.pcs g hg h; grind
  case sock => exact j.sock
  case sockid => exact j.sockid
  case mainpc => exact j.mainpc
  case mainrd => have := j.mainrd; grind
  case mainask => have := j.mainask; grind
  case idlepc => exact j.idlepc
  case idlec => grind
  case cur => simp
  case last => exact j.last
  case lastc => grind
  case lnew => intro h h'; have := j.lnew h h'; grind
  case lwr => have := j.lwr; grind [upd]
  case lsock => have := j.lsock; grind [upd]
  case lend => exact j.lend
  case got => exact j.got
  case g2 => have := j.g2; grind [upd]
  case r0 => exact j.r0
  case rq => exact fun h => j.rq (hA.1 h)
  case rc => grind
  case r1a =>
    intro h ha hl
    have := j.r1a h (hA.1 ha) hl
    simp only [Told] at *
    grind
  case r1b => exact fun h ha => j.r1b h (fun h => ha (hA.2 h))
  case r2a =>
    intro h ha g hg hm
    have := j.r2a h (hA.1 ha) g hg hm
    simp only [Told] at *
    grind
  case r2b => exact fun h ha => j.r2b h (fun h => ha (hA.2 h))

/-- it is told of a fiber that has stopped, removes and releases it, and waits again -/
theorem mgrStop_ok {S : Ids} (hS : S.Ok) {s : Srv} (j : J S s S.mgr) {f : Nat} (he : s.ev S.mgr = ⟨.mgmt, MGMT_FIBER_STOP, f⟩)
    (hf : f ∈ s.tree) (hp : s.pc f = .stop) :
    J S { s with tree := s.tree.erase f, free := upd s.free f true, mgmt := S.mgr, pc := upd s.pc S.mgr .recv } 0 := by
  obtain ⟨z1, z2, z3⟩ := hS
  have hpc : upd s.pc S.mgr .recv = s.pc := by
    funext g; simp only [upd]; have := j.mgrpc; grind
  rw [hpc]
  have ht := j.tid
  have hq := j.q
  have hmp := j.mgrpc
  have hx := (j.stop f hf hp).2.2
  have hfm : f ≠ S.mgr := by grind
  have hmem : ∀ g, g ∈ s.tree.erase f ↔ g ≠ f ∧ g ∈ s.tree := fun g => j.tnodup.mem_erase_iff
  have hns : ∀ g ∈ s.tree, g ≠ f → s.pc g ≠ .stop := by
    intro g hg hgf h; have := (j.stop g hg h).2.1; rw [he] at this; grind
  have hA : Asked S { s with tree := s.tree.erase f, free := upd s.free f true, mgmt := S.mgr } 0 ↔ Asked S s S.mgr := by unfold Asked; simp only; grind
  constructor
  all_goals simp only
  case bad => exact j.bad
  case mgrpc => exact j.mgrpc
  case mgrtree => exact (hmem _).2 ⟨Ne.symm hfm, j.mgrtree⟩
  case mgrq => exact j.mgrq
  case mgmt => grind
  case nodup => exact j.nodup
  case cq => intro h; have := hq _ h; grind
  case iq => exact j.iq
  case q => intro g hg; rw [hmem]; have := hq g hg; grind
  case tnodup => exact j.tnodup.erase _
  case tid => simp only [hmem]; grind
  case tfree => intro g hg; rw [hmem] at hg; have := j.tfree g; simp only [upd]; grind
  case fid => have := j.fid; simp only [upd]; grind
  case fresh =>
    intro g h h1 h2 h3
    have := j.fresh g
    rw [hmem] at h
    simp only [upd] at h1
    grind
  case gone => intro g h; have := j.gone g; simp only [upd] at h; grind
  case ev => grind
  case stop => intro g hg h; rw [hmem] at hg; exact absurd h (hns g hg.2 hg.1)
  case run => intro g hg h; rw [hmem] at hg; have := j.run g hg.2; grind
  case new => intro g hg h; rw [hmem] at hg; have := j.new g hg.2 h; grind
  case pcs => intro g hg h; rw [hmem] at hg; have := j.pcs g hg.2 h; grind
  case sock => intro g hg; rw [hmem] at hg; exact j.sock g hg.2
  case sockid => exact j.sockid
  case mainpc => exact j.mainpc
  case mainrd => have := j.mainrd; grind
  case mainask => have := j.mainask; grind
  case idlepc => exact j.idlepc
  case idlec => grind
  case cur => simp
  case last => exact j.last
  case lastc => grind
  case lnew => intro h h'; rw [hmem] at h; have := j.lnew h.2 h'; grind
  case lwr => have := j.lwr; grind [upd]
  case lsock => have := j.lsock; grind [upd]
  case lend => rw [hmem]; have := j.lend; simp only [upd]; grind
  case got => exact j.got
  case g2 => have := j.g2; grind [upd]
  case r0 => exact j.r0
  case rq => exact fun h => j.rq (hA.1 h)
  case rc => grind
  case r1a =>
    intro h ha hl
    rw [hmem] at hl
    have := j.r1a h (hA.1 ha) hl.2
    simp only [Told] at *
    grind
  case r1b =>
    intro h ha
    have := j.r1b h (fun h => ha (hA.2 h))
    simp only [hmem]
    grind
  case r2a =>
    intro h ha g hg hm
    rw [hmem] at hg
    have := j.r2a h (hA.1 ha) g hg.2 hm
    simp only [Told] at *
    grind
  case r2b =>
    intro h ha g hg
    rw [hmem] at hg
    exact j.r2b h (fun h => ha (hA.2 h)) g hg.2

/-! ### The end of a fiber, and a new one -/

theorem finish_eq {S : Ids} (hS : S.Ok) {s : Srv} {c : Nat} (j : J S s c) (hm : c ≠ S.mgr) (k : Nat → Bool) :
    pop S { stopH { s with sock := k } c with pc := upd s.pc c .stop } =
      { s with sock := k, st := upd s.st c .stopped, ev := upd s.ev S.mgr ⟨.mgmt, MGMT_FIBER_STOP, c⟩, mgmt := 0
               pc := upd s.pc c .stop, cur := S.mgr } := by
  have hmg := j.mgmt.2 hm
  have h0 : S.mgr ≠ 0 := hS.zero.2.1
  have hfr := j.tfree _ j.mgrtree
  have hb := j.bad
  have hpc : upd s.pc c .stop S.mgr = .recv := by have := j.mgrpc; simp only [upd]; grind
  unfold stopH report
  simp only [hmg, ne_eq, h0, not_false_eq_true, if_true, front, pop, enter, hfr, Bool.or_false, hb, hpc]
  simp only [reduceCtorEq, if_false]
  congr 1
  funext g; simp only [upd]; grind

theorem finish_ok {S : Ids} (hS : S.Ok) {s : Srv} {c : Nat} (j : J S s c) (hc : c ∈ s.tree) (hm : c ≠ S.mgr) :
    J S { s with sock := upd s.sock c false, st := upd s.st c .stopped, ev := upd s.ev S.mgr ⟨.mgmt, MGMT_FIBER_STOP, c⟩, mgmt := 0
                 pc := upd s.pc c .stop, cur := S.mgr } S.mgr := by
  obtain ⟨z1, z2, z3⟩ := hS
  have ht := j.tid
  have hq := j.q
  have hcq := j.cq
  have hmp := j.mgrpc
  have hcm : c ≠ S.main := by grind
  have hci : c ≠ S.idle := by grind
  have hns : ∀ g ∈ s.tree, s.pc g ≠ .stop := by
    intro g hg h; exact hm (j.stop g hg h).1
  have hA : Asked S { s with sock := upd s.sock c false, st := upd s.st c .stopped, ev := upd s.ev S.mgr ⟨.mgmt, MGMT_FIBER_STOP, c⟩, mgmt := 0
                             pc := upd s.pc c .stop, cur := S.mgr } S.mgr ↔ Asked S s c := by
    simp only [Asked, upd]; grind
  constructor
  all_goals simp only
  case bad => exact j.bad
  case mgrpc => simp only [upd]; grind
  case mgrtree => exact j.mgrtree
  case mgrq => exact j.mgrq
  case mgmt => grind
  case nodup => exact j.nodup
  case cq => exact j.mgrq
  case iq => exact j.iq
  case q => exact j.q
  case tnodup => exact j.tnodup
  case tid => exact j.tid
  case tfree => exact j.tfree
  case fid => exact j.fid
  case fresh => intro g h a b d; have := j.fresh g h a b d; simp only [upd]; grind
  case gone => intro g h; have := j.gone g h; simp only [upd]; grind
  case ev => intro _; right; exact ⟨c, by simp [upd], hc, by simp [upd]⟩
  case stop =>
    intro g hg h
    have := hns g hg
    have : g = c := by simp only [upd] at h; grind
    subst this
    simp only [upd]; grind
  case run => intro g hg h; have := j.run g hg; have := j.run _ j.mgrtree; simp only [upd] at *; grind
  case new => intro g hg h; have := j.new g hg; simp only [upd] at *; grind
  case pcs => intro g hg h; have := j.pcs g hg h; simp only [upd]; grind
  case sock => intro g hg h h'; have := j.sock g hg h; simp only [upd] at *; grind
  case sockid => have := j.sockid; simp only [upd]; grind
  case mainpc => have := j.mainpc; simp only [upd]; grind
  case mainrd => have := j.mainrd; simp only [upd]; grind
  case mainask => have := j.mainask; simp only [upd]; grind
  case idlepc => have := j.idlepc; simp only [upd]; grind
  case idlec => grind
  case cur => exact .inr (.inr (.inr j.mgrtree))
  case last => intro x y h g hg; have h3 := j.last x y h g hg; have : g ∈ s.runq := by grind
               simp only [upd]; grind
  case lastc => grind
  case lnew => intro h h'; have := j.lnew h; simp only [upd] at h'; grind
  case lwr => have := j.lwr; grind [upd]
  case lsock => have := j.lsock; grind [upd]
  case lend => exact j.lend
  case got => exact j.got
  case g2 => have := j.g2; grind [upd]
  case r0 => have := j.r0; simp only [upd]; grind
  case rq => exact fun h => j.rq (hA.1 h)
  case rc => grind
  case r1a =>
    intro h ha hl
    have := j.r1a h (hA.1 ha) hl
    simp only [Told, upd] at *
    grind
  case r1b =>
    intro h ha
    have := j.r1b h (fun h => ha (hA.2 h))
    simp only [upd]
    grind
  case r2a =>
    intro h ha g hg hm
    have := j.r2a h (hA.1 ha) g hg hm
    simp only [Told, upd] at *
    grind
  case r2b => exact fun h ha => j.r2b h (fun h => ha (hA.2 h))

theorem conn_eq {S : Ids} (hS : S.Ok) {s : Srv} (j : J S s S.listen) {f : Nat} (hf : s.free f = false)
    (hl : S.listen ∈ s.tree) (k : Nat → Bool) :
    pop S { addH { s with sock := k } S.listen f with pc := upd s.pc S.listen .add } =
      { s with sock := k, tree := insertFib f s.tree, runq := S.listen :: (s.runq ++ [f]), mgmt := 0
               ev := fun g => if g = S.mgr then ⟨.mgmt, MGMT_FIBER_ADD, f⟩ else
                 if g = S.listen ∨ g = f then ⟨.internal, RESUME_ADD_FIBER, 0⟩ else s.ev g
               pc := upd s.pc S.listen .add, cur := S.mgr } := by
  have h0 : S.mgr ≠ 0 := hS.zero.2.1
  have hml := hS.mgr.1
  have hmg := j.mgmt.2 (Ne.symm hml)
  have hfr := j.tfree _ j.mgrtree
  have hfr2 := j.tfree _ hl
  have hb := j.bad
  have hpc : upd s.pc S.listen .add S.mgr = .recv := by have := j.mgrpc; simp only [upd]; grind
  unfold addH report
  simp only [front, back, hmg, ne_eq, h0, not_false_eq_true, if_true, pop, enter, hfr, hfr2, hf, Bool.or_false, hb, hpc]
  simp only [reduceCtorEq, if_false]
  congr 1
  funext g; simp only [upd]; grind

theorem conn_ok {S : Ids} (hS : S.Ok) {s : Srv} (j : J S s S.listen) {f : Nat} (hf : s.free f = false) (hf0 : f ≠ 0) (hfa : f ≠ S.main)
    (hfl : f ≠ S.listen) (hfi : f ≠ S.idle) (hft : f ∉ s.tree) (hl : S.listen ∈ s.tree) (hnr : s.got = 0) {k : Nat → Bool}
    (hk : ∀ g, g ≠ S.listen → g ≠ f → k g = s.sock g) (hk1 : k S.listen = true) (hk2 : k f = true) :
    J S { s with sock := k, tree := insertFib f s.tree, runq := S.listen :: (s.runq ++ [f]), mgmt := 0
                 ev := fun g => if g = S.mgr then ⟨.mgmt, MGMT_FIBER_ADD, f⟩ else
                   if g = S.listen ∨ g = f then ⟨.internal, RESUME_ADD_FIBER, 0⟩ else s.ev g
                 pc := upd s.pc S.listen .add, cur := S.mgr } S.mgr := by
  obtain ⟨z1, z2, z3⟩ := hS
  have ht := j.tid
  have hq := j.q
  have hcq := j.cq
  have hmp := j.mgrpc
  have hmem : ∀ g, g ∈ insertFib f s.tree ↔ g = f ∨ g ∈ s.tree := fun g => Io.mem_insertFib
  have hmq : ∀ g, g ∈ S.listen :: (s.runq ++ [f]) ↔ g = S.listen ∨ g ∈ s.runq ∨ g = f := by simp
  have hfq : f ∉ s.runq := fun h => by have := hq f h; grind
  have hns : ∀ g ∈ s.tree, s.pc g ≠ .stop := by
    intro g hg h; exact z3.1.symm (j.stop g hg h).1
  have hfr := j.fresh f hft hf hfa hfi
  have hma : s.pc S.main = .rd := j.r0 hnr
  have hA : ∀ c, ¬ Asked S { s with sock := k, tree := insertFib f s.tree, runq := S.listen :: (s.runq ++ [f]), mgmt := 0
                                    ev := fun g => if g = S.mgr then ⟨.mgmt, MGMT_FIBER_ADD, f⟩ else
                                      if g = S.listen ∨ g = f then ⟨.internal, RESUME_ADD_FIBER, 0⟩ else s.ev g
                                    pc := upd s.pc S.listen .add, cur := S.mgr } c := by
    intro c h; have := h.1; simp only [upd] at this; grind
  constructor
  all_goals simp only
  case bad => exact j.bad
  case mgrpc => simp only [upd]; grind
  case mgrtree => exact (hmem _).2 (.inr j.mgrtree)
  case mgrq => rw [hmq]; have := j.mgrq; have := j.mgrtree; grind
  case mgmt => grind
  case nodup =>
    rw [List.nodup_cons, List.nodup_append]
    refine ⟨by grind, j.nodup, by simp, ?_⟩
    grind
  case cq => rw [hmq]; have := j.mgrq; have := j.mgrtree; grind
  case iq => rw [hmq]; have := j.iq; grind
  case q => intro g; rw [hmq, hmem]; have := hq g; grind
  case tnodup => exact Io.insertFib_nodup hft j.tnodup
  case tid => simp only [hmem]; grind
  case tfree => intro g hg; rw [hmem] at hg; have := j.tfree g; grind
  case fid => exact j.fid
  case fresh => intro g h a b d; rw [hmem] at h; have := j.fresh g; have := hk g; simp only [upd]; grind
  case gone => intro g h; have := j.gone g h; have := hk g; have := j.tfree S.listen hl; simp only [upd]; grind
  case ev => intro _; left; exact ⟨f, by simp⟩
  case stop =>
    intro g hg h
    rw [hmem] at hg
    have := hns g
    simp only [upd] at h; grind
  case run => intro g hg h; rw [hmem] at hg; have := j.run g; have := j.run _ j.mgrtree; simp only [upd] at *; grind
  case new => intro g hg h; rw [hmem] at hg; rw [hmq]; have := j.new g; simp only [upd] at *; grind
  case pcs => intro g hg h; rw [hmem] at hg; have := j.pcs g; simp only [upd]; grind
  case sock => intro g hg h h'; rw [hmem] at hg; have := j.sock g; have := hk g; simp only [upd] at *; grind
  case sockid =>
    have := j.sockid
    have := j.mgrtree
    rw [hk _ z2.2.1 (Ne.symm hfa), hk _ (Ne.symm ‹S.listen ≠ S.idle›) (Ne.symm hfi), hk _ z3.1 (by grind)]
    assumption
  case mainpc => simp only [upd]; grind
  case mainrd => rw [hmq]; have := j.mainrd; simp only [upd]; grind
  case mainask => simp only [upd]; grind
  case idlepc => have := j.idlepc; simp only [upd]; grind
  case idlec => grind
  case cur => exact .inr (.inr (.inr ((hmem _).2 (.inr j.mgrtree))))
  case last =>
    intro x y h g hg
    cases x with
    | nil => simp at h; grind
    | cons x0 x =>
      simp only [List.cons_append, List.cons.injEq] at h
      obtain ⟨_, h⟩ := h
      rcases List.eq_nil_or_concat y with e | ⟨y', z, e⟩
      · subst e
        simp at hg
      · rw [List.concat_eq_append] at e
        subst e
        have e2 : x ++ S.main :: (y' ++ [z]) = (x ++ S.main :: y') ++ [z] := by simp
        rw [e2] at h
        have e3 := List.append_inj' h rfl
        have hzf : f = z := by simpa using e3.2
        have hl := j.last x y' e3.1
        rw [List.mem_append, List.mem_singleton] at hg
        have : g ≠ S.listen := by
          rcases hg with h | h
          · intro h'; apply hcq; rw [e3.1]; grind
          · grind
        simp only [upd]
        grind
  case lastc => grind
  case lnew => intro h h'; simp [upd] at h'
  case lwr => have := j.lwr; grind [upd]
  case lsock => have := j.lsock; grind [upd]
  case lend => rw [hmem]; have := j.lend; grind
  case got => exact j.got
  case g2 => have := j.g2; grind [upd]
  case r0 => simp only [upd]; grind
  case rq => exact fun h => absurd h (hA _)
  case rc => grind
  case r1a => intro h; grind
  case r1b => intro h; grind
  case r2a => intro h; grind
  case r2b => intro h; grind

/-! ### Moves -/

/-- the state after a move while the loop in `main` goes on -/
def Good (S : Ids) (s s' : Srv) : Prop := J S s' s'.cur ∧ s'.cur ≠ 0 ∧ s'.fate = s.fate

theorem pop_good {S : Ids} (hS : S.Ok) {s t : Srv} (j : J S t 0) (h : t.fate = s.fate) : Good S s (pop S t) := by
  refine ⟨pop_ok hS j, ?_, ?_⟩
  · have := hS.zero
    have := j.cq
    unfold pop
    split
    · rename_i f q hq
      simp only [enter]
      grind
    · simp only [enter]; grind
  · rw [← h]; unfold pop; split <;> rfl

theorem accept_ok {S : Ids} (hS : S.Ok) {s s' : Srv} {c : Choice} {k : Nat → Bool} (j : J S s S.listen) (hcur : s.cur = S.listen)
    (hl : S.listen ∈ s.tree) (hk : ∀ g, g ≠ S.listen → k g = s.sock g) (hk1 : k S.listen = true)
    (ha : (s.pc S.listen = .rd ∧ (s.ev S.listen).disc = .psock) ∨ s.pc S.listen = .new ∨ s.pc S.listen = .add)
    (h : acceptMove S { s with sock := k } c = some s') : Good S s s' := by
  have hml := hS.mgr.1
  have h2 : s.got ≠ 2 := by
    intro h
    by_cases ha' : Asked S s S.listen
    · have := j.r2a h ha' _ hl hml.symm; have := j.stop _ hl; simp only [Told] at *; grind
    · exact hml.symm (j.r2b h ha' _ hl)
  have h1 : s.got = 1 → s.quiesce = true := by
    intro h
    by_cases ha' : Asked S s S.listen
    · have := j.r1a h ha' hl; have := j.stop _ hl; simp only [Told] at *; grind
    · have := (j.r1b h ha').1 hl; have := j.stop _ hl; grind
  unfold acceptMove at h
  split at h
  · rename_i f
    split at h
    · rename_i hg
      simp only at hg
      have hg0 : s.got = 0 := by have := j.got; have : s.got ≠ 1 := (by intro h; have := h1 h; grind); omega
      have e : pop S (at_ (addH (openSock { s with sock := k } f) ({ s with sock := k } : Srv).cur f) .add)
          = pop S { addH { s with sock := upd k f true } S.listen f with pc := upd s.pc S.listen .add } := by
        rw [show ({ s with sock := k } : Srv).cur = S.listen from hcur]
        congr 1
        have hm0 := j.mgmt.2 hml.symm
        simp only [at_, addH, report, openSock, front, back, hm0]
        have := hS.zero.2.1
        simp [this]
      have hs := Option.some.inj h
      rw [e, conn_eq hS j hg.2.2.2.2.2.2.2 hl] at hs
      rw [← hs]
      refine ⟨conn_ok hS j hg.2.2.2.2.2.2.2 hg.2.1 hg.2.2.1 hg.2.2.2.2.1 hg.2.2.2.2.2.1 hg.2.2.2.2.2.2.1 hl hg0 ?_ ?_ ?_, hS.zero.2.1, rfl⟩
      · intro g h3 h4; simp only [upd]; grind
      · simp only [upd]; grind
      · simp [upd]
    · simp at h
  · have hs := Option.some.inj h
    have e : at_ ({ s with sock := k } : Srv) .rd = { s with pc := upd s.pc S.listen .rd, quiesce := s.quiesce, sock := k } := by
      simp only [at_, hcur]
    rw [e] at hs
    rw [← hs]
    exact pop_good hS (park_ok hS j hl hml.symm (.inl rfl) (fun _ => rfl) id hk hk1 (fun _ h _ => h1 h) h2) rfl
  · have hs := Option.some.inj h
    have e : finish S (closeSock { s with sock := k } ({ s with sock := k } : Srv).cur) =
        pop S { stopH { s with sock := upd s.sock S.listen false } S.listen with pc := upd s.pc S.listen .stop } := by
      have hu : upd k S.listen false = upd s.sock S.listen false := by
        funext g; simp only [upd]; have := hk g; grind
      rw [show ({ s with sock := k } : Srv).cur = S.listen from hcur]
      unfold finish
      congr 1
      have hm0 := j.mgmt.2 hml.symm
      simp only [at_, stopH, report, closeSock, front, hm0, hk1, hu]
      have := hS.zero.2.1
      simp [this]
    rw [e, finish_eq hS j hml.symm] at hs
    rw [← hs]
    exact ⟨finish_ok hS j hl hml.symm, hS.zero.2.1, rfl⟩
  · simp at h

/-- the running fiber ends -/
theorem ends_ok {S : Ids} (hS : S.Ok) {s : Srv} {c : Nat} (j : J S s c) (hcur : s.cur = c) (hc : c ∈ s.tree) (hm : c ≠ S.mgr)
    (hs : s.sock c = true) : Good S s (finish S (closeSock s s.cur)) := by
  have e : finish S (closeSock s s.cur) =
      pop S { stopH { s with sock := upd s.sock c false } c with pc := upd s.pc c .stop } := by
    rw [hcur]
    unfold finish
    congr 1
    have hm0 := j.mgmt.2 hm
    have := hS.zero.2.1
    simp [at_, stopH, report, closeSock, front, hm0, hs, hcur, this]
  rw [e, finish_eq hS j hm]
  exact ⟨finish_ok hS j hc hm, hS.zero.2.1, rfl⟩

theorem listen_ok {S : Ids} (hS : S.Ok) {s s' : Srv} {c : Choice} (j : J S s S.listen) (hcur : s.cur = S.listen) (hl : S.listen ∈ s.tree)
    (h : listenMove S s c = some s') : Good S s s' := by
  have hml := hS.mgr.1
  have hns : s.pc S.listen ≠ .stop := fun h => hml.symm (j.stop _ hl h).1
  have hsk := j.sock _ hl hml.symm hns
  unfold listenMove at h
  simp only [hcur] at h
  split at h
  · rename_i hp
    split at h
    · have hs := Option.some.inj h
      have e : finish S s = pop S { stopH { s with sock := upd s.sock S.listen false } S.listen with pc := upd s.pc S.listen .stop } := by
        have hm0 := j.mgmt.2 hml.symm
        have h0 := hS.zero.2.1
        have hu : upd s.sock S.listen false = s.sock := by
          funext g; simp only [upd]; split
          · rename_i e; subst e
            exact (j.lsock hp).symm
          · rfl
        rw [hu]
        unfold finish
        congr 1
        simp [at_, stopH, report, front, hm0, hcur, h0]
      rw [e, finish_eq hS j hml.symm] at hs
      rw [← hs]
      exact ⟨finish_ok hS j hl hml.symm, hS.zero.2.1, rfl⟩
    · rename_i c hc
      have e : openSock s S.listen = { s with sock := upd s.sock S.listen true } := rfl
      rw [e] at h
      exact accept_ok hS j hcur hl (fun g hg => by simp [upd, hg]) (by simp [upd]) (.inr (.inl hp)) h
  · rename_i hp
    split at h
    · rename_i he
      exact accept_ok (k := s.sock) hS j hcur hl (fun _ _ => rfl) (by grind) (.inl ⟨hp, he⟩) h
    · rename_i he
      split at h
      · rename_i hq
        have hs := Option.some.inj h
        have e : at_ ({ s with quiesce := true, cur := S.listen } : Srv) .rd = { s with pc := upd s.pc S.listen .rd, quiesce := true, sock := s.sock } := by
          simp only [at_, hcur]
        rw [e] at hs
        rw [← hs]
        refine pop_good hS (park_ok hS j hl hml.symm (.inl rfl) (fun _ => rfl) (fun _ => rfl) (fun _ _ => rfl) (by grind) (fun _ _ _ => rfl) ?_) rfl
        intro h
        by_cases ha' : Asked S s S.listen
        · have := j.r2a h ha' _ hl hml.symm
          simp only [Told] at this
          have hd : MGMT_QUIESCE_REQUEST ≠ MGMT_TERMINATION_REQUEST := by decide
          grind
        · exact hml.symm (j.r2b h ha' _ hl)
      · have hs := Option.some.inj h
        have := ends_ok hS j hcur hl hml.symm (by grind)
        rw [hcur] at this
        rw [← hs]; exact this
  · rename_i h1 h2
    have hp := j.pcs _ hl hml.symm
    have hw := j.lwr
    exact accept_ok (k := s.sock) hS j hcur hl (fun _ _ => rfl) (by grind) (by grind) h

theorem echo_ok {S : Ids} (hS : S.Ok) {s s' : Srv} {c : Choice} (j : J S s s.cur) (hm : s.cur ≠ S.mgr) (hl : s.cur ≠ S.listen)
    (hc : s.cur ∈ s.tree) (h : echoMove S s c = some s') : Good S s s' := by
  have hns : s.pc s.cur ≠ .stop := fun h => hm (j.stop _ hc h).1
  have hsk : s.sock s.cur = true := by have := j.sock _ hc hm hns; grind
  have hpc := j.pcs _ hc hm
  unfold echoMove at h
  split at h
  · have hs := Option.some.inj h
    rw [← hs]; exact ends_ok hS j rfl hc hm hsk
  · rename_i he
    have h2 : s.got ≠ 2 := by
      intro h
      by_cases ha' : Asked S s s.cur
      · have := j.r2a h ha' _ hc hm
        simp only [Told] at this
        grind
      · exact hm (j.r2b h ha' _ hc)
    have hpk : ∀ p, p = Pc.rd ∨ p = Pc.wr → Good S s (pop S (at_ s p)) := by
      intro p hp
      have e : at_ s p = { s with pc := upd s.pc s.cur p, quiesce := s.quiesce, sock := s.sock } := rfl
      rw [e]
      exact pop_good hS (park_ok hS j hc hm hp (fun h => absurd h hl) id (fun _ _ => rfl) hsk (fun h => absurd h hl) h2) rfl
    split at h
    · have hs := Option.some.inj h
      rw [← hs]; exact hpk _ (.inl rfl)
    · have hs := Option.some.inj h
      rw [← hs]; exact hpk _ (.inr rfl)
    · have hs := Option.some.inj h
      rw [← hs]; exact ends_ok hS j rfl hc hm hsk
    · simp at h

theorem mgr_ok {S : Ids} (hS : S.Ok) {s : Srv} (j : J S s S.mgr) (hcur : s.cur = S.mgr) :
    Good S s (mgrMove S s) := by
  rcases j.ev rfl with ⟨f, he⟩ | ⟨f, he, hf, hp⟩
  · have e : mgrMove S s = pop S { s with mgmt := S.mgr, pc := upd s.pc S.mgr .recv } := by
      have hd : MGMT_FIBER_ADD ≠ MGMT_FIBER_STOP := by decide
      simp [mgrMove, hcur, he, hd, at_, recvH]
    rw [e]
    exact pop_good hS (mgrAdd_ok hS j ⟨f, he⟩) rfl
  · have e : mgrMove S s = pop S { s with tree := s.tree.erase f, free := upd s.free f true, mgmt := S.mgr, pc := upd s.pc S.mgr .recv } := by
      simp [mgrMove, hcur, he, at_, recvH, j.mgrpc, hf, j.tfree f hf]
    rw [e]
    exact pop_good hS (mgrStop_ok hS j he hf hp) rfl

theorem main_ok {S : Ids} (hS : S.Ok) {s s' : Srv} {c : Choice} (j : J S s S.main) (hcur : s.cur = S.main)
    (h : mainMove S s c = some s') :
    Good S s s' ∨ (s.cur = S.main ∧ s' = { s with fate := .ended } ∧ ∀ f ∈ s.tree, f = S.mgr) := by
  have hpc := j.mainpc
  have hrd := j.mainrd (.inl rfl)
  have hask := j.mainask
  have hA' : ¬ Asked S s S.main := fun h => h.2 rfl
  have hg : ∀ n, ({ s with cur := S.main, got := n } : Srv) = { s with got := n } := by intro n; rw [← hcur]
  unfold mainMove at h
  simp only [hcur] at h
  split at h
  · rename_i h1
    have := (hask h1.1).2
    rw [this] at h1; simp at h1
  · split at h
    · rename_i h1; exact absurd (hrd h1.1) h1.2
    · split at h
      · rename_i h1
        exact .inr ⟨hcur, by rw [← Option.some.inj h, hcur], j.r2b h1.2 hA'⟩
      · rename_i h3
        left
        have h2 : s.got ≠ 2 := by
          intro h
          exact h3 ⟨j.g2 h, h⟩
        split at h
        · split at h
          · rename_i h4
            have hs := Option.some.inj h
            rw [hg, ask_eq j] at hs
            have := ask_ok hS j (code := MGMT_QUIESCE_REQUEST) (n := 1) (.inl ⟨rfl, h4, rfl⟩)
            rw [← hs]
            have e : upd s.pc s.cur Pc.ask = upd s.pc S.main Pc.ask := by rw [hcur]
            simp only [at_]
            rw [e]
            exact pop_good hS this rfl
          · rename_i h4
            have hs := Option.some.inj h
            rw [hg, ask_eq j] at hs
            have := ask_ok hS j (code := MGMT_TERMINATION_REQUEST) (n := 2) (.inr ⟨rfl, by have := j.got; omega, rfl⟩)
            rw [← hs]
            have e : upd s.pc s.cur Pc.ask = upd s.pc S.main Pc.ask := by rw [hcur]
            simp only [at_]
            rw [e]
            exact pop_good hS this rfl
        · have hs := Option.some.inj h
          have := mainDry_ok hS j h2
          rw [← hs, show at_ s .rd = { s with pc := upd s.pc S.main .rd } by simp [at_, hcur]]
          exact pop_good hS this rfl
        · simp at h

theorem idle_ok {S : Ids} (hS : S.Ok) {s s' : Srv} {c : Choice} (j : J S s S.idle) (hcur : s.cur = S.idle) (hp : Calm S s c)
    (h : idleMove S s c = some s') : Good S s s' := by
  unfold idleMove at h
  split at h
  · rename_i fs
    split at h
    · rename_i hf
      have hs := Option.some.inj h
      have hw : ∀ f ∈ fs, s.pc f = .rd ∨ s.pc f = .wr := fun f h => (hf.2.2 f h).2
      have hfr : ∀ f ∈ fs, s.free f = false := by
        intro f h
        have := waiting_known j (hw f h)
        have := j.tfree f
        have := j.fid
        grind
      rw [wake_eq fs s hfr] at hs
      rw [← hs]
      have := poll_ok hS j hf.2.1 hw (by
        intro hm
        have := hp.last fs rfl hm
        rw [List.getLast?_eq_some_iff] at this
        exact this)
      rw [show at_ { s with runq := s.runq ++ fs, ev := fun g => if g ∈ fs then ⟨.psock, 0, 0⟩ else s.ev g } .idle =
        { s with runq := fs, ev := fun g => if g ∈ fs then ⟨.psock, 0, 0⟩ else s.ev g, pc := upd s.pc S.idle .idle } by simp [at_, hcur, j.idlec rfl]]
      exact pop_good hS this rfl
    · simp at h
  · simp at h

theorem move_ok {S : Ids} (hS : S.Ok) {s s' : Srv} {c : Choice} (j : J S s s.cur) (hz : s.cur ≠ 0) (hp : Calm S s c) (h : move S s c = some s') :
    Good S s s' ∨ (s.cur = S.main ∧ s' = { s with fate := .ended } ∧ ∀ f ∈ s.tree, f = S.mgr) := by
  have z2 := hS.main
  have ht := j.tid
  have hc := j.cur
  unfold move at h
  split at h
  · simp at h
  · split at h
    · rename_i e; exact .inl (idle_ok hS (e ▸ j) e hp h)
    · split at h
      · rename_i e; exact main_ok hS (e ▸ j) e h
      · split at h
        · rename_i e
          rw [← Option.some.inj h]; exact .inl (mgr_ok hS (e ▸ j) e)
        · split at h
          · rename_i e
            exact .inl (listen_ok hS (e ▸ j) e (by grind) h)
          · rename_i h1 h2 h3 h4
            exact .inl (echo_ok hS j h3 h4 (by grind) h)

end Rcpr.EchoStop
