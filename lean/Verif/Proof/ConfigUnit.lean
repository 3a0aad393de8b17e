import Verif.Proof.ConfigDecls

/-!
# Translation units

What the closed forms of `Verif.Proof.ConfigDecls` say about translation units that include any headers in any order.
-/

set_option linter.unusedSimpArgs false

namespace Verif.Config
open Verif.Preproc Macro

variable {E : Env Macro}

theorem unit_view (fs : List File) (saved : List Bool) {f : File} (hf : f ∈ (unit E fs saved).files) :
    SameView owners f (unit E fs saved) (unit E [f]) :=
  (includes_view owners text E text_scope' closed fs (saved := saved)).2.1 f hf

theorem unit_decls (fs : List File) (saved : List Bool) {f : File} (hf : f ∈ (unit E fs saved).files) :
    declsOf (unit E fs saved) f = (own E f).2.reverse.map (·.what) := by
  have : (unit E fs saved).decls.filter (fun d => d.by_ = f) = (alone text E f).decls.filter (fun d => d.by_ = f) :=
    (unit_view fs saved hf).decls
  rw [declsOf, this, alone_decls, List.map_reverse]

theorem unit_has {fs : List File} {saved : List Bool} {f : File} {m : Macro} (hf : f ∈ (unit E fs saved).files) (hm : ownerMacro m = some f) :
    (unit E fs saved).env m = (own E f).1 m := by
  rw [(unit_view fs saved hf).env m hm, unit_one, alone_env hm]

theorem unit_files {fs : List File} {saved : List Bool} {f : File} (hf : f ∈ fs) : f ∈ (unit E fs saved).files :=
  (includes_view owners text E text_scope' closed fs (saved := saved)).2.2.2 hf

theorem platform_windows : platform E = .windows ↔ onWindows E := by
  simp only [platform, onWindows]
  cases E.has BOOST_SYNC_USE_PTHREAD <;> cases E.has BOOST_WINDOWS <;> simp
  split <;> try split
  all_goals simp

theorem platform_linux : platform E = .linux ↔ onLinux E := by
  simp only [platform, onLinux]
  cases E.has BOOST_SYNC_USE_PTHREAD <;> cases E.has BOOST_WINDOWS <;> cases E.has linux__ <;> cases E.has linux_ <;> cases E.has linux <;> simp
  split <;> simp

theorem platform_mach : platform E = .mach ↔ onApple E := by
  simp only [platform, onApple, onLinux]
  cases E.has BOOST_SYNC_USE_PTHREAD <;> cases E.has BOOST_WINDOWS <;> cases E.has linux__ <;> cases E.has linux_ <;> cases E.has linux <;>
    cases E.has macintosh <;> cases E.has APPLE <;> cases E.has APPLE_CC <;> simp

theorem dispatch_iff : dispatch E = true ↔ hasDispatch E := by
  simp only [dispatch, hasDispatch, Bool.and_eq_true, decide_eq_true_eq, platform_mach]
  cases E.has MAC_OS_X_VERSION_MIN_REQUIRED <;> simp

theorem posixSem_iff : posixSem E = true ↔ hasPosixSemaphores E := by
  simp [posixSem, hasPosixSemaphores]

theorem ctor_declared (h : Clean E) {g : File} (hg : g ∈ [File.mutex, .cv, .semaphore]) : ∃ c, ⟨g, .ctor c⟩ ∈ (unit E [g]).decls := by
  have key : ∀ {c}, ⟨g, .ctor c⟩ ∈ (own E g).2.reverse → ⟨g, .ctor c⟩ ∈ (unit E [g]).decls := by
    intro c hc
    rw [List.mem_reverse, ← alone_decls] at hc
    exact (List.mem_filter.1 hc).1
  simp only [List.mem_cons, List.not_mem_nil, or_false] at hg
  rcases hg with rfl | rfl | rfl
  · exact ⟨mutexConstexpr E, key (by rw [(mutex_own h).2.2]; split <;> simp)⟩
  · exact ⟨cvConstexpr E, key (by rw [(cv_own h).2.2]; split <;> simp)⟩
  · exact ⟨false, key (by rw [semaphore_own h]; repeat' split
                          all_goals simp)⟩

theorem declared_before {fs : List File} {saved : List Bool} {f g : File} {l : List Decl}
    (hl : ⟨f, .member (.cls g)⟩ :: l <:+ (unit E fs saved).decls) :
    ∀ d ∈ (unit E [g]).decls, d.by_ = g → d ∈ l := by
  intro d hd hg
  have := includes_ready owners text E text_scope' closed fs (saved := saved) _ l hl g (by simp [owners])
  exact this.subset (List.mem_filter.2 ⟨hd, by simp [owners, hg]⟩)

theorem decl_of {s : St Macro File Decl} {f : File} {w : What} (h : w ∈ declsOf s f) : ⟨f, w⟩ ∈ s.decls := by
  simp only [declsOf, List.mem_reverse, List.mem_map, List.mem_filter, decide_eq_true_eq] at h
  obtain ⟨⟨b, w⟩, ⟨h1, h2⟩, h3⟩ := h
  simp only at h2 h3
  subst h2 h3; exact h1

/-- The header of the class of a member is included. -/
theorem class_included (h : Clean E) {fs : List File} {saved : List Bool} {f g : File} (hg : g ∈ [File.mutex, .cv, .semaphore])
    (hm : .member (.cls g) ∈ declsOf (unit E fs saved) f) : g ∈ (unit E fs saved).files := by
  obtain ⟨a, b, hab⟩ := List.append_of_mem (decl_of hm)
  have hs : Decl.mk f (.member (.cls g)) :: b <:+ (unit E fs saved).decls := ⟨a, hab.symm⟩
  obtain ⟨c, hc⟩ := ctor_declared h hg
  have hc' := declared_before hs _ hc rfl
  by_cases hn : g ∈ (unit E fs saved).files
  · exact hn
  · have := ((includes_view owners text E text_scope' closed fs (saved := saved)).2.2.1 _ hn).decls
    have hx : ⟨g, .ctor c⟩ ∈ (unit E fs saved).decls.filter (fun d => owners.decl d = g) :=
      List.mem_filter.2 ⟨hs.subset (List.mem_cons_of_mem _ hc'), by simp [owners]⟩
    simp only [unit] at hx
    rw [this] at hx; simp [start] at hx

/-- Macros of config.hpp in a translation unit. -/
theorem unit_cfg (h : Clean E) {fs : List File} {saved : List Bool} (hf : .config ∈ (unit E fs saved).files) {m : Macro}
    (hm : ownerMacro m = some .config) : (unit E fs saved).env m = cfg E m := by
  rw [(unit_view fs saved hf).env m hm, unit_one, config_env h]

/-- Running a program leaves the saved diagnostics states alone, in an environment whose macros from outside are those of `E`. -/
def Neutral (E : Env Macro) (p : P) : Prop :=
  ∀ s : St Macro File Decl, (∀ m, ownerMacro m = none → s.env m = E m) → (p.run s).saved = s.saved ∧ ∀ m, ownerMacro m = none → (p.run s).env m = E m

theorem Neutral.skip : Neutral E .skip := fun _ h => ⟨rfl, h⟩
theorem Neutral.decl {d} : Neutral E (.decl d) := fun _ h => ⟨rfl, h⟩
theorem Neutral.define {m v} (hm : ownerMacro m ≠ none) : Neutral E (.define m v) := fun s h => ⟨rfl, fun x hx => by
  have : x ≠ m := by rintro rfl; exact hm hx
  simp only [Prog.run, Env.set, this, if_false, h x hx]⟩
theorem Neutral.undef {m} (hm : ownerMacro m ≠ none) : Neutral E (.undef m) := fun s h => ⟨rfl, fun x hx => by
  have : x ≠ m := by rintro rfl; exact hm hx
  simp only [Prog.run, Env.set, this, if_false, h x hx]⟩
theorem Neutral.seq {p q : P} (hp : Neutral E p) (hq : Neutral E q) : Neutral E (p ;; q) := fun s h =>
  ⟨((hq _ (hp s h).2).1).trans (hp s h).1, (hq _ (hp s h).2).2⟩
theorem Neutral.cond {c} {p q : P} (hp : Neutral E p) (hq : Neutral E q) : Neutral E (.cond c p q) := fun s h => by
  simp only [Prog.run]; cases c.eval s.env
  · exact hq s h
  · exact hp s h
theorem Neutral.when {c} {p : P} (hp : Neutral E p) : Neutral E (.when c p) := hp.cond .skip
theorem Neutral.file {f} {p : P} (hp : Neutral E p) : Neutral E (.file f p) := fun s h => by
  simp only [Prog.run]; split
  · exact ⟨rfl, h⟩
  · exact hp { s with files := f :: s.files } h

/-- Compilers made by Intel. -/
def intel (E : Env Macro) : Bool := E.has INTEL_COMPILER || (E.has ICL || (E.has ICC || E.has ECC))
def gcc46 (E : Env Macro) : Bool := E.has GNUC && decide (406 ≤ E.val GNUC * 100 + E.val GNUC_MINOR)
/-- header.hpp saves the diagnostics state. -/
def opens (E : Env Macro) : Bool := !E.has BOOST_SYNC_ENABLE_WARNINGS && (E.has MSC_VER || (gcc46 E && !intel E))
/-- footer.hpp restores it. -/
def closes (E : Env Macro) : Bool := !E.has BOOST_SYNC_ENABLE_WARNINGS && (E.has MSC_VER || gcc46 E)

theorem header_run {E' : Env Macro} (hE : ∀ m, ownerMacro m = none → E' m = E m) (fs ds sv) :
    headerHpp.run ⟨E', fs, ds, sv⟩ = ⟨E', fs, ds, if opens E then true :: sv else sv⟩ := by
  have e : ∀ m, ownerMacro m = none → E'.has m = E.has m := fun m hm => by simp only [Env.has, hE m hm]
  have v : ∀ m, ownerMacro m = none → E'.val m = E.val m := fun m hm => by simp only [Env.val, hE m hm]
  simp only [opens, gcc46, intel, headerHpp, Prog.when, Prog.run, Cond.eval, Num.eval, gccVersion, e GNUC rfl, e MSC_VER rfl,
    e BOOST_SYNC_ENABLE_WARNINGS rfl, e INTEL_COMPILER rfl, e ICL rfl, e ICC rfl, e ECC rfl, v GNUC rfl, v GNUC_MINOR rfl]
  rcases Bool.eq_false_or_eq_true (E.has BOOST_SYNC_ENABLE_WARNINGS) with a | a <;>
    rcases Bool.eq_false_or_eq_true (E.has MSC_VER) with b | b <;>
    rcases Bool.eq_false_or_eq_true (E.has GNUC) with c | c <;>
    rcases Bool.eq_false_or_eq_true (E.has INTEL_COMPILER || (E.has ICL || (E.has ICC || E.has ECC))) with d | d <;>
    by_cases e : 406 ≤ E.val GNUC * 100 + E.val GNUC_MINOR <;> simp only [a, b, c, d, e] <;> simp

theorem footer_run {E' : Env Macro} (hE : ∀ m, ownerMacro m = none → E' m = E m) (fs ds sv) :
    footerHpp.run ⟨E', fs, ds, sv⟩ = ⟨E', fs, ds, if closes E then pops sv else sv⟩ := by
  have e : ∀ m, ownerMacro m = none → E'.has m = E.has m := fun m hm => by simp only [Env.has, hE m hm]
  have v : ∀ m, ownerMacro m = none → E'.val m = E.val m := fun m hm => by simp only [Env.val, hE m hm]
  simp only [closes, gcc46, footerHpp, Prog.when, Prog.run, Cond.eval, Num.eval, gccVersion, e GNUC rfl, e MSC_VER rfl,
    e BOOST_SYNC_ENABLE_WARNINGS rfl, v GNUC rfl, v GNUC_MINOR rfl]
  rcases Bool.eq_false_or_eq_true (E.has BOOST_SYNC_ENABLE_WARNINGS) with a | a <;>
    rcases Bool.eq_false_or_eq_true (E.has MSC_VER) with b | b <;>
    rcases Bool.eq_false_or_eq_true (E.has GNUC) with c | c <;>
    by_cases e : 406 ≤ E.val GNUC * 100 + E.val GNUC_MINOR <;> simp only [a, b, c, e] <;> simp

theorem Neutral.quiet (h : opens E = closes E) {p : P} (hp : Neutral E p) : Neutral E (quiet p) := by
  rintro ⟨E', fs, ds, sv⟩ hE
  simp only [Config.quiet, Prog.run, header_run hE]
  have h1 := hp ⟨E', fs, ds, if opens E then true :: sv else sv⟩ hE
  generalize p.run ⟨E', fs, ds, if opens E then true :: sv else sv⟩ = t at h1
  obtain ⟨a, b, c, d⟩ := t
  simp only at h1
  rw [footer_run h1.2]
  refine ⟨?_, h1.2⟩
  simp only [h1.1, ← h]
  cases opens E <;> rfl

/-- Each part of a text on its own. -/
macro "neutral" h:term : tactic => `(tactic| repeat' with_reducible first
  | exact Neutral.skip
  | exact Neutral.decl
  | exact Neutral.define (by decide)
  | exact Neutral.undef (by decide)
  | assumption
  | refine Neutral.quiet $h ?_
  | refine Neutral.when ?_
  | refine Neutral.file ?_
  | refine Neutral.seq ?_ ?_
  | refine Neutral.cond ?_ ?_)

theorem text_neutral (h : opens E = closes E) (f : File) : Neutral E (Prog.file f (text f)) := by
  have nConfig : Neutral E configHpp := by
    unfold configHpp configBody platformPart tlsPart abiPart openPart constexprPart; neutral h
  have nNs : ∀ f t, Neutral E (nsMember f t) := fun f t => by unfold nsMember; neutral h
  have nAtomic : Neutral E atomicHpp := by unfold atomicHpp atomicBody; neutral h
  have nSemConf : Neutral E semaphoreConfigHpp := by unfold semaphoreConfigHpp semaphoreConfigBody; neutral h
  have nPthread : Neutral E pthreadHpp := by unfold pthreadHpp pthreadBody; neutral h
  have nCall : ∀ m c, Neutral E (futexCall m c) := fun m c => by unfold futexCall; neutral h
  have nFutex : Neutral E futexHpp := by unfold futexHpp futexBody; neutral h; all_goals exact nCall _ _
  have nPosix : ∀ f ok m, ownerMacro m ≠ none → Neutral E (posixCtor f ok m) := fun f ok m hm => by
    unfold posixCtor; neutral h; exact Neutral.define hm
  have nWindows : ∀ f m, ownerMacro m ≠ none → Neutral E (windowsCtor f m) := fun f m hm => by
    unfold windowsCtor; neutral h; exact Neutral.define hm
  have nBasic : ∀ f, Neutral E (basicMutexMembers f) := fun f => by unfold basicMutexMembers; neutral h
  have nBasicCv : ∀ f, Neutral E (basicCvMembers f) := fun f => by unfold basicCvMembers; neutral h
  have nMutex : Neutral E mutexHpp := by
    unfold mutexHpp mutexBody mutexWindowsHpp mutexPosixHpp; neutral h
    · exact nBasic _
    · exact nWindows _ _ (by decide)
    · exact nPosix _ _ _ (by decide)
  have nCv : Neutral E cvHpp := by
    unfold cvHpp cvBody cvWindowsHpp cvPosixHpp; neutral h
    · exact nBasicCv _
    · exact nWindows _ _ (by decide)
    · exact nPosix _ _ _ (by decide)
  have nSem : Neutral E semaphoreHpp := by
    unfold semaphoreHpp semaphoreBody semaphoreWindowsHpp semaphoreDispatchHpp semaphorePosixHpp semaphoreEmulationHpp; neutral h
  cases f
  · exact nConfig
  · exact nAtomic
  · exact nSemConf
  · exact nPthread
  · exact nFutex
  · show Neutral E linkConfigHpp
    unfold linkConfigHpp linkConfigBody; neutral h
  · exact nMutex
  · show Neutral E timedMutexHpp
    unfold timedMutexHpp timedMutexBody timedMutexWindowsHpp timedMutexPosixHpp; neutral h
    · exact nBasic _
    · exact nWindows _ _ (by decide)
    · exact nPosix _ _ _ (by decide)
  · show Neutral E spinMutexHpp
    unfold spinMutexHpp spinMutexBody spinMutexImplHpp; neutral h
    all_goals exact nNs _ _
  · show Neutral E sharedSpinMutexHpp
    unfold sharedSpinMutexHpp sharedSpinMutexBody; neutral h
    exact nNs _ _
  · exact nCv
  · show Neutral E cvAnyHpp
    unfold cvAnyHpp cvAnyBody cvAnyWindowsHpp cvAnyGenericHpp; neutral h
    · exact nBasicCv _
    · exact nWindows _ _ (by decide)
  · exact nSem
  · show Neutral E autoEventHpp
    unfold autoEventHpp autoEventBody autoEventWindowsHpp autoEventFutexHpp autoEventSemaphoreHpp autoEventEmulationHpp; neutral h
    all_goals exact nNs _ _
  · show Neutral E manualEventHpp
    unfold manualEventHpp manualEventBody manualEventWindowsHpp manualEventFutexHpp manualEventEmulationHpp; neutral h
  · exact Neutral.file Neutral.skip

end Verif.Config
