import Verif.MandelMain
import Verif.Props.EchoMain

/-!
C96: what the mandelbrot example acquires is given back when `main` returns.
-/
namespace Rcpr.MandelLife

open Life
open EchoLife (fault TriF threadOwn threadCreate_tri threadRelease_tri held_iff held_same counted refuse)
open Mandel (Cfg)

variable {α β : Type} {e : Env} {c b : Heap}

/-! ### Lemmas -/

def Config.own (h : Config) : Heap := fun i j => one h.p .mem i j + match h.name with
  | some q => one q .mem i j
  | none => 0

/-- what `main` holds once it has made the conditions -/
def base3 (mc wc m : Two) (arr : Nat) (cf : Config) (al : Nat) : Heap := fun i j =>
  mc.own .pcond i j + wc.own .pcond i j + m.own .pmutex i j + one arr .mem i j + cf.own i j + one al .mem i j

theorem mutexCreate_tri (g : e.Good) : Tri e c mutexCreate (Made e (Two.own .pmutex) c) := by
  unfold mutexCreate; tri
  all_goals first
    | (left; refine ⟨_, rfl, ?_⟩; intro i j; simp only [Two.own]; cnt)
    | (right
       have := oom_ne
       have : ERROR_THREAD_MUTEX_INIT ≠ SUCCESS := by decide
       refine ⟨?_, rfl, ?_, ?_⟩ <;> cnt)

theorem condCreate_tri (g : e.Good) : Tri e c condCreate (Made e (Two.own .pcond) c) := by
  unfold condCreate; tri
  all_goals first
    | (left; refine ⟨_, rfl, ?_⟩; intro i j; simp only [Two.own]; cnt)
    | (right
       have := oom_ne
       have : ERROR_THREAD_COND_INIT ≠ SUCCESS := by decide
       refine ⟨?_, rfl, ?_, ?_⟩ <;> cnt)

theorem mutexRelease_tri (g : e.Good) {d : Two} {c' : Heap} (h : ∀ i j, c i j = d.own .pmutex i j + c' i j) :
    Tri e c (mutexRelease d) (Freed (d.own .pmutex) c) := by
  unfold mutexRelease
  simp only [Two.own] at h
  tri
  all_goals exact ⟨by cnt, fun i j => by simp only [Two.own]; cnt⟩

theorem condRelease_tri (g : e.Good) {d : Two} {c' : Heap} (h : ∀ i j, c i j = d.own .pcond i j + c' i j) :
    Tri e c (condRelease d) (Freed (d.own .pcond) c) := by
  unfold condRelease
  simp only [Two.own] at h
  tri
  all_goals exact ⟨by cnt, fun i j => by simp only [Two.own]; cnt⟩

theorem note_ok (code n : Nat) : note code SUCCESS n = code := by simp [note]

theorem note_keep {code : Nat} (h : code ≠ 0) (r : Status) (n : Nat) : note code r n = code := by simp [note, h]

/-- `main` returns `code` and leaves the structure of the configuration, on top of `b` -/
abbrev Ret (code p : Nat) (b : Heap) (o : Outcome) (c : Heap) : Prop :=
  o = .returned code ∧ ∀ i j, c i j = one p .mem i j + b i j

theorem cleanupAllocator_tri {code al : Nat} (h : ∀ i j, c i j = one al .mem i j + b i j) :
    Tri e c (cleanupAllocator code al) fun o c1 => o = .returned code ∧ ∀ i j, c1 i j = b i j := by
  unfold cleanupAllocator
  tri
  exact ⟨rfl, fun i j => by cnt⟩

theorem cleanupConfig_tri {code : Nat} {cf : Config} {al : Nat}
    (h : ∀ i j, c i j = cf.own i j + one al .mem i j + b i j) :
    Tri e c (cleanupConfig code cf al) (Ret code cf.p b) := by
  obtain ⟨p, name⟩ := cf
  unfold cleanupConfig configRelease
  cases name with
  | none =>
    simp only [Config.own] at h
    apply Tri.bind
    tri
    rw [note_ok]
    exact cleanupAllocator_tri fun i j => by rw [h]; omega
  | some q =>
    simp only [Config.own] at h
    apply Tri.bind
    tri
    rw [note_ok]
    rename_i c1 h1
    exact cleanupAllocator_tri fun i j => by have := h1 i j; rw [h] at this; omega

theorem freeArray_tri {code arr : Nat} {cf : Config} {al : Nat}
    (h : ∀ i j, c i j = one arr .mem i j + cf.own i j + one al .mem i j + b i j) :
    Tri e c (freeArray code arr cf al) (Ret code cf.p b) := by
  unfold freeArray
  tri
  rename_i c1 h1
  exact cleanupConfig_tri fun i j => by have := h1 i j; rw [h] at this; omega

theorem releaseMutex_tri (g : e.Good) {code : Nat} {m : Two} {arr : Nat} {cf : Config} {al : Nat}
    (h : ∀ i j, c i j = m.own .pmutex i j + one arr .mem i j + cf.own i j + one al .mem i j + b i j) :
    Tri e c (releaseMutex code m arr cf al) (Ret code cf.p b) := by
  unfold releaseMutex
  apply Tri.bind
  refine Tri.use (by cnt) ?_
  apply Tri.bind
  refine (mutexRelease_tri g (c' := fun i j => one arr .mem i j + cf.own i j + one al .mem i j + b i j)
    fun i j => by rw [h]; omega).mono ?_
  rintro r c1 ⟨rfl, h1⟩
  rw [note_ok]
  exact freeArray_tri fun i j => by have := h1 i j; rw [h] at this; omega

theorem releaseWorker_tri (g : e.Good) {code : Nat} {wc m : Two} {arr : Nat} {cf : Config} {al : Nat}
    (h : ∀ i j, c i j = wc.own .pcond i j + m.own .pmutex i j + one arr .mem i j + cf.own i j + one al .mem i j + b i j) :
    Tri e c (releaseWorker code wc m arr cf al) (Ret code cf.p b) := by
  unfold releaseWorker
  apply Tri.bind
  refine Tri.use (by cnt) ?_
  apply Tri.bind
  refine (condRelease_tri g (d := wc) (c' := fun i j => m.own .pmutex i j + one arr .mem i j + cf.own i j + one al .mem i j + b i j)
    fun i j => by rw [h]; omega).mono ?_
  rintro r c1 ⟨rfl, h1⟩
  rw [note_ok]
  exact releaseMutex_tri g fun i j => by have := h1 i j; rw [h] at this; omega

theorem releaseMain_tri (g : e.Good) {code : Nat} {mc wc m : Two} {arr : Nat} {cf : Config} {al : Nat}
    (h : ∀ i j, c i j = base3 mc wc m arr cf al i j + b i j) :
    Tri e c (releaseMain code mc wc m arr cf al) (Ret code cf.p b) := by
  unfold releaseMain
  simp only [base3] at h
  apply Tri.bind
  refine Tri.use (by cnt) ?_
  apply Tri.bind
  refine (condRelease_tri g (d := mc) (c' := fun i j => wc.own .pcond i j + m.own .pmutex i j + one arr .mem i j + cf.own i j +
    one al .mem i j + b i j) fun i j => by rw [h]; omega).mono ?_
  rintro r c1 ⟨rfl, h1⟩
  rw [note_ok]
  exact releaseWorker_tri g fun i j => by have := h1 i j; rw [h] at this; omega

theorem configCreate_tri {al : Nat} (h : 0 < c al .mem) : Tri e c (configCreate al) fun r c1 =>
    (∃ cf, r = (SUCCESS, .set cf) ∧ (e.Willing → cf.name ≠ none) ∧ ∀ i j, c1 i j = cf.own i j + c i j) ∨
    (r.1 ≠ SUCCESS ∧ r.2 = .untouched ∧ ¬ e.Willing ∧ ∀ i j, c1 i j = c i j) := by
  unfold configCreate
  tri
  · exact .inr ⟨by assumption, rfl, by assumption, fun _ _ => rfl⟩
  · exact .inl ⟨_, rfl, by simp_all, fun i j => by simp only [Config.own]; cnt⟩
  · exact .inl ⟨_, rfl, by simp, fun i j => by simp only [Config.own]; cnt⟩

theorem spawn_tri (g : e.Good) {al n : Nat} (h : 0 < c al .mem) : Tri e c (spawn al n) fun r c1 =>
    ∃ ts : List Thread, (∀ i j, c1 i j = total threadOwn ts i j + c i j) ∧
      ((r.1 = SUCCESS ∧ r.2 = ts.map some ∧ ts.length = n) ∨
        (r.1 ≠ SUCCESS ∧ ¬ e.Willing ∧ ∃ l, r.2 = ts.map some ++ none :: l)) := by
  induction n generalizing c with
  | zero => exact Tri.pure ⟨[], fun i j => by simp [total], .inl ⟨rfl, rfl, rfl⟩⟩
  | succ n ih =>
    unfold spawn
    apply Tri.bind
    refine Tri.use h ?_
    apply Tri.bind
    refine (threadCreate_tri g).mono ?_
    rintro ⟨a, o⟩ c1 (⟨t, heq, h1⟩ | ⟨ha, ho, hw, h1⟩)
    · cases heq
      dsimp only
      apply Tri.bind
      refine (ih (c := c1) (by rw [h1]; omega)).mono ?_
      rintro ⟨a, o⟩ c2 ⟨ts, h2, h3⟩
      refine Tri.pure ⟨t :: ts, fun i j => by rw [h2, h1]; simp only [total]; omega, ?_⟩
      rcases h3 with ⟨h4, h5, h6⟩ | ⟨h4, h5, l, h6⟩
      · exact .inl ⟨h4, by dsimp only at h5 ⊢; rw [h5]; rfl, by simp [h6]⟩
      · exact .inr ⟨h4, h5, l, by dsimp only at h6 ⊢; rw [h6]; rfl⟩
    · dsimp only at ho ha
      subst ho
      exact Tri.pure ⟨[], fun i j => by rw [h1]; simp [total], .inr ⟨ha, hw, List.replicate n none, rfl⟩⟩

theorem joinAll_tri (g : e.Good) {al code : Nat} {exits : Nat → Status} {ts : List Thread} (hcode : code ≠ 0) (hal : 0 < b al .mem)
    (h : ∀ i j, c i j = total threadOwn ts i j + b i j) :
    Tri e c (joinAll al exits code (ts.map some)) fun r c1 => r = code ∧ ∀ i j, c1 i j = b i j := by
  induction ts generalizing c with
  | nil => exact Tri.pure ⟨rfl, fun i j => by rw [h]; simp [total]⟩
  | cons t ts ih =>
    simp only [total] at h
    simp only [List.map_cons, joinAll]
    apply Tri.bind
    refine Tri.use (by rw [h]; omega) ?_
    apply Tri.bind
    refine (threadRelease_tri g (c' := fun i j => total threadOwn ts i j + b i j) fun i j => by rw [h]; omega).mono ?_
    rintro r c1 ⟨-, h1⟩
    rw [note_keep hcode]
    exact ih fun i j => by have := h1 i j; rw [h] at this; omega

/-- A thread that could not be created is released through NULL. -/
theorem joinAll_fault (g : e.Good) {F : Prop} (hF : F) {al code : Nat} {exits : Nat → Status} {ts : List Thread}
    {l : List (Option Thread)} {Q : Nat → Heap → Prop} (hal : 0 < b al .mem) (h : ∀ i j, c i j = total threadOwn ts i j + b i j) :
    TriF F e c (joinAll al exits code (ts.map some ++ none :: l)) fun r c1 => Q r c1 ∧ False := by
  induction ts generalizing c code with
  | nil => exact TriF.fault hF
  | cons t ts ih =>
    simp only [total] at h
    simp only [List.map_cons, List.cons_append, joinAll]
    apply TriF.then (P := fun _ c1 => c = c1) (Tri.use (by rw [h]; omega) rfl)
    rintro _ _ rfl
    refine TriF.then (threadRelease_tri g (c' := fun i j => total threadOwn ts i j + b i j) fun i j => by rw [h]; omega) ?_
    rintro r c1 ⟨-, h1⟩
    exact ih fun i j => by have := h1 i j; rw [h] at this; omega

theorem drawLines_tri (n : Nat) : TriF (¬ e.Willing) e c (drawLines n) fun ls c1 =>
    ∀ i j, c1 i j = total (fun p => one p .mem) ls i j + c i j := by
  induction n generalizing c with
  | zero => exact TriF.pure fun i j => by simp [total]
  | succ n ih =>
    unfold drawLines
    refine TriF.then (P := fun r c1 => (∃ a, r = .error a ∧ ¬ e.Willing) ∨
      ∃ p, r = .ok p ∧ ∀ i j, c1 i j = one p .mem i j + c i j)
      (Tri.get (fun a _ hw => .inl ⟨a, rfl, hw⟩) fun p c' h => .inr ⟨p, rfl, h⟩) ?_
    rintro r c1 (⟨a, rfl, hw⟩ | ⟨p, rfl, h1⟩)
    · exact TriF.fault hw
    dsimp only
    apply TriF.then (P := fun _ c2 => c1 = c2) (Tri.use (by rw [h1, one_self]; omega) rfl)
    rintro _ _ rfl
    apply TriF.bind
    refine (ih (c := c1)).mono ?_
    intro ls c2 h2
    exact TriF.pure fun i j => by rw [h2, h1]; simp only [total]; omega

theorem freeLines_tri {ls : List Nat} (h : ∀ i j, c i j = total (fun p => one p .mem) ls i j + b i j) :
    Tri e c (freeLines ls) fun _ c1 => ∀ i j, c1 i j = b i j := by
  induction ls generalizing c with
  | nil => exact Tri.pure fun i j => by rw [h]; simp [total]
  | cons p ls ih =>
    simp only [total] at h
    unfold freeLines
    apply Tri.bind
    refine Tri.drop (by rw [h, one_self]; omega) ?_
    intro _ c1 h1
    exact ih fun i j => by have := h1 i j; rw [h] at this; omega

theorem frames_tri {cfg : Cfg} {arr : Nat} {cf : Config} {n : Nat} (ha : 0 < c arr .mem)
    (hn : e.Willing → cf.name ≠ none) (hq : ∀ q, cf.name = some q → 0 < c q .mem) :
    TriF (¬ e.Willing) e c (frames cfg arr cf n) fun _ c1 => ∀ i j, c1 i j = c i j := by
  induction n with
  | zero => exact TriF.pure fun _ _ => rfl
  | succ n ih =>
    unfold frames
    apply TriF.bind
    refine TriF.mono (P := fun _ c1 => ∀ i j, c1 i j = c i j) ?_ ?_
    · unfold frame
      apply TriF.then (P := fun _ c2 => c = c2) (Tri.use ha rfl)
      rintro _ _ rfl
      apply TriF.bind
      refine (drawLines_tri cfg.lines).mono ?_
      intro ls c1 h1
      cases hx : cf.name with
      | none => exact TriF.fault fun w => hn w hx
      | some q =>
        have := hq q hx
        dsimp only
        apply TriF.then (P := fun _ c2 => c1 = c2) (Tri.use (by rw [h1]; omega) rfl)
        rintro _ _ rfl
        refine TriF.then (P := fun r c2 => (∃ a, r = .error a ∧ ¬ e.Willing) ∨
          ∃ p, r = .ok p ∧ ∀ i j, c2 i j = one p .desc i j + c1 i j)
          (Tri.get (fun a _ hw => .inl ⟨a, rfl, hw⟩) fun p c' h => .inr ⟨p, rfl, h⟩) ?_
        rintro r c2 (⟨a, rfl, hw⟩ | ⟨p, rfl, h2⟩)
        · exact TriF.fault hw
        dsimp only
        apply TriF.of
        apply Tri.bind
        refine Tri.use (by rw [h2, h1]; omega) ?_
        apply Tri.bind
        refine Tri.drop (by rw [h2, one_self]; omega) ?_
        intro _ c3 h3
        exact freeLines_tri fun i j => by have := h3 i j; rw [h2, h1] at this; omega
    · intro _ c1 h1
      have : c1 = c := funext fun i => funext fun j => h1 i j
      subst this
      exact ih

theorem cleanupThreads_tri (g : e.Good) {exits : Nat → Status} {code : Nat} {ts : List Thread} {th : Nat} {mc wc m : Two}
    {arr : Nat} {cf : Config} {al : Nat} (hcode : code ≠ 0)
    (h : ∀ i j, c i j = total threadOwn ts i j + one th .mem i j + base3 mc wc m arr cf al i j + b i j) :
    Tri e c (cleanupThreads exits code (ts.map some) th mc wc m arr cf al) fun o c1 =>
      Ret code cf.p b o c1 ∨ (o = .exited code ∨ o = .exited 97 ∨ o = .exited 99) := by
  unfold cleanupThreads
  simp only [base3, Two.own] at h
  apply Tri.bind
  refine Tri.use (by cnt) ?_
  apply Tri.bind
  apply Tri.ask
  intro a _
  apply Tri.ite
  · intro _; exact Tri.pure (.inr (.inr (.inr rfl)))
  intro _
  apply Tri.bind
  refine Tri.use (by cnt) ?_
  apply Tri.bind
  apply Tri.ask
  intro a _
  apply Tri.ite
  · intro _; exact Tri.pure (.inr (.inl (by rw [if_neg hcode])))
  intro _
  apply Tri.bind
  apply Tri.ask
  intro a _
  apply Tri.ite
  · intro _; exact Tri.pure (.inr (.inr (.inl rfl)))
  intro _
  apply Tri.bind
  refine Tri.use (by cnt) ?_
  apply Tri.bind
  refine (joinAll_tri g (b := fun i j => one th .mem i j + base3 mc wc m arr cf al i j + b i j) hcode
    (by simp only [base3, one_self]; omega) fun i j => by rw [h]; simp only [base3, Two.own]; omega).mono ?_
  rintro _ c1 ⟨rfl, h1⟩
  apply Tri.bind
  refine Tri.drop (by rw [h1, one_self]; omega) ?_
  intro _ c2 h2
  refine (releaseMain_tri g (b := b) fun i j => by have := h2 i j; rw [h1] at this; omega).mono ?_
  intro o c3 h3
  exact .inl h3

theorem cleanupThreads_fault (g : e.Good) {F : Prop} (hF : F) {exits : Nat → Status} {code : Nat} {ts : List Thread}
    {l : List (Option Thread)} {th : Nat} {mc wc m : Two}
    {arr : Nat} {cf : Config} {al : Nat} (hcode : code ≠ 0)
    (h : ∀ i j, c i j = total threadOwn ts i j + one th .mem i j + base3 mc wc m arr cf al i j + b i j) :
    TriF F e c (cleanupThreads exits code (ts.map some ++ none :: l) th mc wc m arr cf al) fun o _ =>
      o = .exited code ∨ o = .exited 97 ∨ o = .exited 99 := by
  have hal : 0 < one th .mem al .mem + base3 mc wc m arr cf al al .mem + b al .mem := by
    simp only [base3, one_self]; omega
  have hm : 0 < c m.p .mem := by rw [h]; simp only [base3, Two.own, one_self]; omega
  have hwc : 0 < c wc.p .mem := by rw [h]; simp only [base3, Two.own, one_self]; omega
  have hth : 0 < c th .mem := by rw [h]; simp only [one_self]; omega
  unfold cleanupThreads
  have asks : ∀ {c : Heap}, Tri e c ask fun _ c1 => c = c1 := Tri.ask fun _ _ => rfl
  apply TriF.then (P := fun _ c1 => c = c1) (Tri.use hm rfl)
  rintro _ _ rfl
  apply TriF.then asks
  rintro a _ rfl
  apply TriF.ite
  · intro _; exact TriF.pure (.inr (.inr rfl))
  intro _
  apply TriF.then (P := fun _ c1 => c = c1) (Tri.use hwc rfl)
  rintro _ _ rfl
  apply TriF.then asks
  rintro a _ rfl
  apply TriF.ite
  · intro _; exact TriF.pure (.inl (by rw [if_neg hcode]))
  intro _
  apply TriF.then asks
  rintro a _ rfl
  apply TriF.ite
  · intro _; exact TriF.pure (.inr (.inl rfl))
  intro _
  apply TriF.then (P := fun _ c1 => c = c1) (Tri.use hth rfl)
  rintro _ _ rfl
  apply TriF.bind
  refine (joinAll_fault g hF (Q := fun _ _ => True) (b := fun i j => one th .mem i j + base3 mc wc m arr cf al i j + b i j) hal
    fun i j => by rw [h]; omega).mono ?_
  exact fun _ _ h => h.2.elim

/-- what is left when all frames have been written -/
def leftover (ts : List Thread) (th : Nat) (mc wc m : Two) (arr p : Nat) : Heap := fun i j =>
  total threadOwn ts i j + one th .mem i j + mc.own .pcond i j + wc.own .pcond i j + m.own .pmutex i j +
    one arr .mem i j + one p .mem i j

theorem main_triF (g : e.Good) {cfg : Cfg} {exits : Nat → Status} :
    TriF (¬ e.Willing) e c (main cfg exits) fun o c1 =>
      (o = .returned 0 ∧ ∃ ts th mc wc m arr p, ts.length = cfg.jobs ∧
        ∀ i j, c1 i j = leftover ts th mc wc m arr p i j + c i j) ∨
      (¬ e.Willing ∧
        (((o = .returned 1 ∨ o = .returned 2) ∧ ∀ i j, c1 i j = c i j) ∨
          (∃ code p, code ∈ [4, 5, 6, 7, 8, 11] ∧ Ret code p c o c1) ∨
          ∃ code, code ∈ [9, 11, 97, 99] ∧ o = .exited code)) := by
  unfold main
  have gets : ∀ {c : Heap} {k : Kind}, Tri e c (get k) fun r c1 => (∃ a, r = .error a ∧ ¬ e.Willing ∧ c = c1) ∨
      ∃ p, r = .ok p ∧ ∀ i j, c1 i j = one p k i j + c i j :=
    Tri.get (fun a _ hw => .inl ⟨a, rfl, hw, rfl⟩) fun p c' h => .inr ⟨p, rfl, h⟩
  refine TriF.then gets ?_
  rintro _ c1 (⟨a, rfl, hw, rfl⟩ | ⟨al, rfl, h1⟩)
  · exact TriF.pure (.inr ⟨hw, .inl ⟨.inl rfl, fun _ _ => rfl⟩⟩)
  dsimp only
  have h1' : 0 < c1 al .mem := by rw [h1, one_self]; omega
  refine TriF.then (configCreate_tri h1') ?_
  rintro ⟨a, o⟩ c2 (⟨cf, heq, hn, h2⟩ | ⟨ha, ho, hw, h2⟩)
  · cases heq
    dsimp only
    apply TriF.then (P := fun _ c3 => c2 = c3) (Tri.use (by rw [h2]; simp only [Config.own, one_self]; omega) rfl)
    rintro _ _ rfl
    have ret : ∀ {code : Nat} {c3 : Heap} {m : M Outcome}, ¬ e.Willing → code ∈ [4, 5, 6, 7, 8, 11] →
        Tri e c3 m (Ret code cf.p c) → TriF (¬ e.Willing) e c3 m fun o c1 =>
      (o = .returned 0 ∧ ∃ ts th mc wc m arr p, ts.length = cfg.jobs ∧
        ∀ i j, c1 i j = leftover ts th mc wc m arr p i j + c i j) ∨
      (¬ e.Willing ∧
        (((o = .returned 1 ∨ o = .returned 2) ∧ ∀ i j, c1 i j = c i j) ∨
          (∃ code p, code ∈ [4, 5, 6, 7, 8, 11] ∧ Ret code p c o c1) ∨
          ∃ code, code ∈ [9, 11, 97, 99] ∧ o = .exited code)) :=
      fun hw hc h => TriF.of (h.mono fun o c1 h => .inr ⟨hw, .inr (.inl ⟨_, _, hc, h⟩)⟩)
    refine TriF.then gets ?_
    rintro _ c3 (⟨a, rfl, hw, rfl⟩ | ⟨arr, rfl, h3⟩)
    · exact ret hw (by decide) (cleanupConfig_tri fun i j => by rw [h2, h1]; omega)
    dsimp only
    have h3' : 0 < c3 al .mem := by rw [h3, h2]; omega
    apply TriF.then (P := fun _ c4 => c3 = c4) (Tri.use h3' rfl)
    rintro _ _ rfl
    refine TriF.then (mutexCreate_tri g) ?_
    rintro ⟨a, o⟩ c4 (⟨m, heq, h4⟩ | ⟨ha, ho, hw, h4⟩)
    · cases heq
      dsimp only
      have h4' : 0 < c4 al .mem := by rw [h4]; omega
      apply TriF.then (P := fun _ c5 => c4 = c5) (Tri.use h4' rfl)
      rintro _ _ rfl
      refine TriF.then (condCreate_tri g) ?_
      rintro ⟨a, o⟩ c5 (⟨wc, heq, h5⟩ | ⟨ha, ho, hw, h5⟩)
      · cases heq
        dsimp only
        have h5' : 0 < c5 al .mem := by rw [h5]; omega
        apply TriF.then (P := fun _ c6 => c5 = c6) (Tri.use h5' rfl)
        rintro _ _ rfl
        refine TriF.then (condCreate_tri g) ?_
        rintro ⟨a, o⟩ c6 (⟨mc, heq, h6⟩ | ⟨ha, ho, hw, h6⟩)
        · cases heq
          dsimp only
          have hb : ∀ i j, c6 i j = base3 mc wc m arr cf al i j + c i j := fun i j => by
            rw [h6, h5, h4, h3, h2, h1]; simp only [base3]; omega
          refine TriF.then gets ?_
          rintro _ c7 (⟨a, rfl, hw, rfl⟩ | ⟨th, rfl, h7⟩)
          · exact ret hw (by decide) (releaseMain_tri g hb)
          dsimp only
          refine TriF.then (spawn_tri g (by rw [h7, h6]; omega)) ?_
          rintro ⟨a, o⟩ c8 ⟨ts, h8, hs⟩
          have hall : ∀ i j, c8 i j = total threadOwn ts i j + one th .mem i j + base3 mc wc m arr cf al i j + c i j :=
            fun i j => by rw [h8, h7, hb]; omega
          dsimp only at hs ⊢
          rcases hs with ⟨rfl, rfl, hlen⟩ | ⟨ha, hw, l, rfl⟩
          · rw [if_neg (by simp)]
            apply TriF.then (P := fun _ c9 => c8 = c9)
              (Tri.use (by rw [hall]; simp only [base3, Two.own, one_self]; omega) rfl)
            rintro _ _ rfl
            refine TriF.then (P := fun a c9 => (e.Willing → a = SUCCESS) ∧ c8 = c9) (Tri.ask fun _ h => ⟨h, rfl⟩) ?_
            rintro a _ ⟨ha, rfl⟩
            apply TriF.ite
            · intro hne
              have hw : ¬ e.Willing := fun w => hne (ha w)
              refine TriF.of ((cleanupThreads_tri g (by decide) hall).mono ?_)
              rintro o c9 (h | rfl | rfl | rfl)
              · exact .inr ⟨hw, .inr (.inl ⟨_, _, by decide, h⟩)⟩
              all_goals exact .inr ⟨hw, .inr (.inr ⟨_, by decide, rfl⟩)⟩
            · intro _
              apply TriF.bind
              refine (frames_tri (by rw [hall]; simp only [base3, one_self]; omega) hn ?_).mono ?_
              · intro q hq
                rw [hall]; simp only [base3, Config.own, hq, one_self]; omega
              intro _ c9 h9
              refine TriF.of ((cleanupConfig_tri (b := fun i j => total threadOwn ts i j + one th .mem i j + mc.own .pcond i j +
                wc.own .pcond i j + m.own .pmutex i j + one arr .mem i j + c i j) fun i j => by
                  rw [h9, hall]; simp only [base3]; omega).mono ?_)
              rintro o c10 ⟨rfl, h10⟩
              exact .inl ⟨rfl, ts, th, mc, wc, m, arr, cf.p, hlen, fun i j => by rw [h10]; simp only [leftover]; omega⟩
          · rw [if_pos ha]
            refine (cleanupThreads_fault g hw (by decide) hall).mono ?_
            rintro o c9 (rfl | rfl | rfl)
            all_goals exact .inr ⟨hw, .inr (.inr ⟨_, by decide, rfl⟩)⟩
        · dsimp only at ho; subst ho
          exact ret hw (by decide) (releaseWorker_tri g fun i j => by rw [h6, h5, h4, h3, h2, h1]; omega)
      · dsimp only at ho; subst ho
        exact ret hw (by decide) (releaseMutex_tri g fun i j => by rw [h5, h4, h3, h2, h1]; omega)
    · dsimp only at ho; subst ho
      exact ret hw (by decide) (freeArray_tri fun i j => by rw [h4, h3, h2, h1]; omega)
  · dsimp only at ho
    subst ho
    refine TriF.of ((cleanupAllocator_tri (b := c) fun i j => by rw [h2, h1]).mono ?_)
    rintro o c3 ⟨rfl, h3⟩
    exact .inr ⟨hw, .inl ⟨.inr rfl, h3⟩⟩

/-- a heap as a list of things -/
def pile (l : List (Nat × Kind)) : Heap := fun i j => l.count (i, j)

theorem pile_one (x : Nat × Kind) (l : List (Nat × Kind)) (i : Nat) (j : Kind) :
    pile (x :: l) i j = one x.1 x.2 i j + pile l i j := by
  obtain ⟨p, k⟩ := x
  simp only [pile, one, List.count_cons, beq_iff_eq, Prod.mk.injEq]
  by_cases h : i = p ∧ j = k
  · rw [if_pos h, if_pos ⟨h.1.symm, h.2.symm⟩]; omega
  · rw [if_neg h, if_neg fun x => h ⟨x.1.symm, x.2.symm⟩]; omega

/-- what belongs to the threads -/
def threadThings (ts : List Thread) : List (Nat × Kind) := ts.flatMap fun t => [(t.p, .mem), (t.t, .thread)]

theorem pile_threads (ts : List Thread) (i : Nat) (j : Kind) : pile (threadThings ts) i j = total threadOwn ts i j := by
  induction ts with
  | nil => simp [pile, threadThings, total]
  | cons t ts ih =>
    have : threadThings (t :: ts) = (t.p, .mem) :: (t.t, .thread) :: threadThings ts := rfl
    rw [this, pile_one, pile_one, ih]
    simp only [total, threadOwn]; omega

/-! ### C96 -/

/-- C96 (part): when `main` returns an error, nothing is left of what it acquired if the error is 1 or 2, and else
exactly one block, the structure of the configuration. 3, 9, 10 and 12 are never returned, nor are the numbers
for failures of the clean-up if releases are not refused. -/
theorem error_returns_partial (g : e.Good) {cfg : Cfg} {exits : Nat → Status} {s s' : St} (hs : s.Ok) {code : Nat}
    (h : main cfg exits e s = some (.returned code, s')) (hc : code ≠ 0) :
    (code ∈ [1, 2] ∧ ∀ i, s'.live i = s.live i) ∨
    (code ∈ [4, 5, 6, 7, 8, 11] ∧ ∃ p, s.live p = none ∧ s'.live p = some .mem ∧ ∀ i, i ≠ p → s'.live i = s.live i) := by
  have hh := counted hs
  rcases main_triF g (cfg := cfg) (exits := exits) s hh with ⟨h1, _⟩ | ⟨o, s1, c1, h1, h2, h3⟩
  · rw [h] at h1; cases h1
  rw [h] at h1
  cases h1
  rcases h3 with ⟨h3, _⟩ | ⟨_, ⟨h3, h4⟩ | ⟨n, p, h3, h4, h5⟩ | ⟨n, _, h3⟩⟩
  · cases h3; exact absurd rfl hc
  · refine .inl ⟨by rcases h3 with h3 | h3 <;> cases h3 <;> decide, ?_⟩
    have : c1 = _ := funext fun i => funext fun j => h4 i j
    subst this
    exact held_same hh h2
  · cases h4
    refine .inr ⟨h3, p, ?_, (held_iff h2 p .mem).2 (by rw [h5, one_self]; omega), ?_⟩
    · cases x : s.live p with
      | none => rfl
      | some k =>
        exfalso
        have k1 := h5 p k
        have k2 := h5 p .mem
        have k3 : s'.live p = some k := (held_iff h2 p k).2 (by rw [k1]; simp [x])
        have k4 : s'.live p = some .mem := (held_iff h2 p .mem).2 (by rw [k2, one_self]; omega)
        have : k = .mem := by rw [k3] at k4; exact Option.some.inj k4
        subst this
        have := h2.eq p .mem
        rw [k2, one_self] at this
        simp [x, k3] at this
    · intro i hi
      have key : ∀ k, s'.live i = some k ↔ s.live i = some k := fun k => by
        rw [held_iff h2, h5]
        have : one p .mem i k = 0 := by unfold one; rw [if_neg fun x => hi x.1]
        rw [this]
        by_cases y : s.live i = some k <;> simp [y]
      cases x : s'.live i with
      | some k => exact ((key k).1 x).symm
      | none =>
        cases y : s.live i with
        | none => rfl
        | some k => rw [(key k).2 y] at x; cases x
  · cases h3

/-- C96 (part): when nothing is refused `main` can be carried out and returns 0, whatever the numbers of jobs,
lines and frames. -/
theorem main_runs_partial (g : e.Good) (hw : e.Willing) {cfg : Cfg} {exits : Nat → Status} {s : St} (hs : s.Ok) :
    ∃ s', main cfg exits e s = some (.returned 0, s') := by
  rcases main_triF g (cfg := cfg) (exits := exits) s (counted hs) with ⟨_, h1⟩ | ⟨o, s1, c1, h1, h2, h3⟩
  · exact absurd hw h1
  rcases h3 with ⟨rfl, _⟩ | ⟨h3, _⟩
  · exact ⟨s1, h1⟩
  · exact absurd hw h3

/-- C96 fails: whenever `main` returns 0 it leaves the structure of the configuration, the array of lines, the
mutex, both conditions, the array of threads and all threads; exactly these. -/
theorem success_leaves_violated (g : e.Good) {cfg : Cfg} {exits : Nat → Status} {s s' : St} (hs : s.Ok)
    (h : main cfg exits e s = some (.returned 0, s')) :
    ∃ l : List (Nat × Kind), l.Nodup ∧ (∀ x ∈ l, s.live x.1 = none) ∧
      (∀ i k, s'.live i = some k ↔ s.live i = some k ∨ (i, k) ∈ l) ∧
      l.map (·.2) = [.mem, .mem, .mem, .pmutex, .mem, .pcond, .mem, .pcond, .mem] ++
        (List.replicate cfg.jobs [Kind.mem, Kind.thread]).flatten := by
  rcases main_triF g (cfg := cfg) (exits := exits) s (counted hs) with ⟨h1, _⟩ | ⟨o, s1, c1, h1, h2, h3⟩
  · rw [h] at h1; cases h1
  rw [h] at h1
  cases h1
  rcases h3 with ⟨_, ts, th, mc, wc, m, arr, p, hlen, h3⟩ | ⟨_, ⟨h3 | h3, _⟩ | ⟨n, p, h3, h4, h5⟩ | ⟨n, _, h3⟩⟩
  · let l := (p, Kind.mem) :: (arr, .mem) :: (m.p, .mem) :: (m.q, .pmutex) :: (wc.p, .mem) :: (wc.q, .pcond) ::
      (mc.p, .mem) :: (mc.q, .pcond) :: (th, .mem) :: threadThings ts
    have hl : ∀ i j, leftover ts th mc wc m arr p i j = pile l i j := fun i j => by
      simp only [l, pile_one, pile_threads, leftover, Two.own]; omega
    have hc : ∀ i j, c1 i j = l.count (i, j) + if s.live i = some j then 1 else 0 := fun i j => by rw [h3, hl]; rfl
    have mem : ∀ i k, (i, k) ∈ l ↔ l.count (i, k) ≠ 0 := fun i k => by
      rw [← List.count_pos_iff]; omega
    have iff : ∀ i k, s'.live i = some k ↔ s.live i = some k ∨ (i, k) ∈ l := fun i k => by
      rw [held_iff h2, hc, mem]
      by_cases y : s.live i = some k <;> simp [y]
    refine ⟨l, List.nodup_iff_count.2 fun ⟨i, k⟩ => ?_, fun ⟨i, k⟩ hx => ?_, iff, ?_⟩
    · have := h2.eq i k
      rw [hc] at this
      split at this <;> split at this <;> omega
    · cases y : s.live i with
      | none => rfl
      | some k' =>
        exfalso
        have k1 := (iff i k).2 (.inr hx)
        have k2 := (iff i k').2 (.inl y)
        rw [k1] at k2
        obtain rfl := Option.some.inj k2
        have := h2.eq i k
        rw [hc, if_pos y, if_pos k1] at this
        have := (mem i k).1 hx
        omega
    · have : (threadThings ts).map (·.2) = (List.replicate ts.length [Kind.mem, Kind.thread]).flatten := by
        clear h3 hl hc mem iff l hlen
        induction ts with
        | nil => rfl
        | cons t ts ih =>
          have : threadThings (t :: ts) = (t.p, .mem) :: (t.t, .thread) :: threadThings ts := rfl
          rw [this, List.map_cons, List.map_cons, ih]
          rfl
      simp only [l, List.map_cons, this, hlen]
      rfl
  · cases h3
  · cases h3
  · cases h4; exact absurd h3 (by decide)
  · cases h3

/-- C96 fails: if a thread cannot be created, `main` never returns: it releases a thread that is NULL, unless it
gives up before that. -/
theorem thread_refused_violated (g : e.Good) {cfg : Cfg} {exits : Nat → Status} {s s' : St} (hs : s.Ok) :
    main cfg exits e s ≠ some (.returned 9, s') := by
  intro h
  rcases error_returns_partial g hs h (by decide) with ⟨h1, _⟩ | ⟨h1, _⟩ <;> revert h1 <;> decide

/-! ### Cases -/

def empty : St := ⟨fun _ => none, 0, 0, 0⟩
def small : Cfg := ⟨2, 3, 4, 2⟩

example : empty.Ok ∧ (refuse 7).Good ∧ ¬ (refuse 7).Willing ∧ (refuse 1000).Good :=
  ⟨fun _ _ => rfl, fun _ => rfl, fun w => absurd (w 7) (by decide), fun _ => rfl⟩

/-- How `main` ends, and what is left. -/
def survey (e : Env) (x : Status) : Option (Outcome × List Kind) :=
  (main small (fun _ => x) e empty).map fun r => (r.1, (List.range r.2.next).filterMap r.2.live)

-- all is well
example : survey (refuse 1000) SUCCESS = some (.returned 0,
    [.mem, .mem, .mem, .pmutex, .mem, .pcond, .mem, .pcond, .mem, .mem, .thread, .mem, .thread]) := by decide +kernel
-- no allocator, no configuration, no array, no mutex, no conditions, no array for the threads
example : (List.range 11).map (fun n => survey (refuse n) SUCCESS) =
    [some (.returned 1, []), some (.returned 2, []), none, some (.returned 4, [.mem]), some (.returned 5, [.mem]),
      some (.returned 5, [.mem]), some (.returned 6, [.mem]), some (.returned 6, [.mem]), some (.returned 7, [.mem]),
      some (.returned 7, [.mem]), some (.returned 8, [.mem])] := by decide +kernel
-- no first or no second thread: undefined
example : (List.range 8).map (fun n => survey (refuse (11 + n)) SUCCESS) = List.replicate 8 none := by decide +kernel
-- no lock: the threads are joined, also if they failed
example : survey (refuse 19) SUCCESS = some (.returned 11, [.mem]) := by decide +kernel
example : survey (refuse 19) ERROR_THREAD_MUTEX_LOCK = some (.returned 11, [.mem]) := by decide +kernel
-- no line, no file: undefined
example : survey (refuse 21) SUCCESS = none ∧ survey (refuse 23) SUCCESS = none := by decide +kernel
-- no lock the second time
example : (main small (fun _ => SUCCESS) ⟨fun i => if i = 19 ∨ i = 20 then ERROR_THREAD_MUTEX_LOCK else SUCCESS, fun _ => SUCCESS⟩
    empty).map (·.1) = some (.exited 99) := by decide +kernel

end Rcpr.MandelLife
