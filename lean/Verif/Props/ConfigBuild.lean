import Verif.Proof.ConfigUnit

/-!
# C102: builds of the library

What the source files in /repo/src compile to, and how users and the library agree on the way of linking.
-/

set_option linter.unusedSimpArgs false

namespace Verif.Config
open Verif.Preproc Macro

variable {E : Env Macro}

/-- A definition of the functions of tss.hpp. -/
def What.isTss : What → Bool
  | .tssPthread | .tssWindows => true
  | _ => false
/-- The place where a thread keeps its pointer to its context. -/
def What.isStorage : What → Bool
  | .tssVariable | .tssSlot => true
  | _ => false
/-- Code that calls `on_thread_exit` when a thread ends. -/
def What.isHook : What → Bool
  | .tssHookDll | .tssHookPe => true
  | _ => false

/-- The compiler has a way to call functions before a thread of a program ends: MinGW or Visual C++ but not for Windows CE. -/
def hasTlsCallbacks (E : Env Macro) : Prop :=
  (E.has MINGW32 = true ∧ E.has WIN64 = false ∨ E.has MINGW64 = true ∨ E.val MINGW64_VERSION_MAJOR ≠ 0) ∨
    (E.has MSC_VER = true ∧ E.has UNDER_CE = false)

/-- What the build system defines: a static or a shared library. /repo/build/Jamfile.v2:63-65 -/
def JamBuild (E : Env Macro) : Prop :=
  E.has BOOST_SYNC_BUILDING = true ∧ (E.has BOOST_SYNC_STATIC_LINK = true ↔ E.has BOOST_SYNC_DYN_LINK = false)

private abbrev src (E : Env Macro) (p : P) : List What :=
  (((Prog.file .source p).run (start E [])).decls.filter (fun d => d.by_ = .source)).map (·.what)

private theorem found_tls (h : Clean E) : (fnd E .source).has BOOST_SYNC_DETAIL_TLS = (cfg E).has BOOST_SYNC_DETAIL_TLS := by
  rw [Env.has, found_cfg h (m := BOOST_SYNC_DETAIL_TLS) rfl (by decide)]; rfl

private theorem src_pthread (h : Clean E) : src E tssPthreadCpp = if platform E = .windows then [] else
    [if (cfg E).has BOOST_SYNC_DETAIL_TLS then .tssVariable else .tssSlot, .tssPthread] := by
  have hs : ((Prog.file .source tssPthreadCpp).scope owners .source []).isSome = true := by decide +kernel
  obtain ⟨K, hK⟩ := Option.isSome_iff_exists.1 hs
  have hc : tssPthreadCpp.Closed text := by
    repeat' first | exact True.intro | exact rfl | refine And.intro ?_ ?_
  have := (file_own owners text E hK hc).2
  simp only [src]
  rw [show ((Prog.file .source tssPthreadCpp).run (start E [])).decls.filter (fun d => d.by_ = .source) = _ from this]
  have x1 := found_tls h
  have x2 := found_winapi h (f := .source) (by decide)
  simp only [tssPthreadCpp, Prog.when, own_seq, own_quiet, configHpp, linkConfigHpp, mutexHpp, cvHpp, Prog.own, Cond.eval, x1, x2]
  by_cases hw : platform E = .windows <;> rcases Bool.eq_false_or_eq_true ((cfg E).has BOOST_SYNC_DETAIL_TLS) with a | a <;> simp [hw, a, own_quiet, own_seq, Prog.own, Cond.eval, x1]

private theorem src_windows (h : Clean E) : src E tssWindowsCpp = if platform E = .windows then
    [if (cfg E).has BOOST_SYNC_DETAIL_TLS then .tssVariable else .tssSlot, .tssWindows] else [] := by
  have hs : ((Prog.file .source tssWindowsCpp).scope owners .source []).isSome = true := by decide +kernel
  obtain ⟨K, hK⟩ := Option.isSome_iff_exists.1 hs
  have hc : tssWindowsCpp.Closed text := by
    repeat' first | exact True.intro | exact rfl | refine And.intro ?_ ?_
  have := (file_own owners text E hK hc).2
  simp only [src]
  rw [show ((Prog.file .source tssWindowsCpp).run (start E [])).decls.filter (fun d => d.by_ = .source) = _ from this]
  have x1 := found_tls h
  have x2 := found_winapi h (f := .source) (by decide)
  simp only [tssWindowsCpp, Prog.when, own_seq, own_quiet, configHpp, linkConfigHpp, mutexHpp, cvHpp, Prog.own, Cond.eval, x1, x2]
  by_cases hw : platform E = .windows <;> rcases Bool.eq_false_or_eq_true ((cfg E).has BOOST_SYNC_DETAIL_TLS) with a | a <;> simp [hw, a, own_quiet, own_seq, Prog.own, Cond.eval, x1]

private theorem src_dll (h : Clean E) : src E tssWindowsDllCpp = if platform E = .windows ∧ E.has BOOST_SYNC_DYN_LINK = true then [.tssHookDll] else [] := by
  have := config_run h.cfg (fs := [.source]) (ds := []) (sv := []) (by simp)
  have x1 : (cfg E).has BOOST_SYNC_DETAIL_PLATFORM_WINAPI = decide (platform E = .windows) := by simp only [Env.has, cfg]; split <;> simp_all
  have x2 : (cfg E).has BOOST_SYNC_DYN_LINK = E.has BOOST_SYNC_DYN_LINK := rfl
  simp only [src, Prog.run, tssWindowsDllCpp, Prog.when, start, List.contains_nil, Bool.false_eq_true, if_false, this, Cond.eval, x1, x2]
  by_cases hw : platform E = .windows <;> rcases Bool.eq_false_or_eq_true (E.has BOOST_SYNC_DYN_LINK) with a | a <;> simp [hw, a]

private theorem src_pe (h : Clean E) : (¬ (platform E = .windows ∧ E.has BOOST_SYNC_STATIC_LINK = true ∧ hasTlsCallbacks E) → src E tssWindowsPeCpp = []) ∧
    (platform E = .windows ∧ E.has BOOST_SYNC_STATIC_LINK = true ∧ hasTlsCallbacks E → src E tssWindowsPeCpp = [.tssHookPe]) := by
  have := config_run h.cfg (fs := [.source]) (ds := []) (sv := []) (by simp)
  have x1 : (cfg E).has BOOST_SYNC_DETAIL_PLATFORM_WINAPI = decide (platform E = .windows) := by simp only [Env.has, cfg]; split <;> simp_all
  have x2 : (cfg E).has BOOST_SYNC_STATIC_LINK = E.has BOOST_SYNC_STATIC_LINK := rfl
  have x3 : (cfg E).has MINGW32 = E.has MINGW32 := rfl
  have x4 : (cfg E).has WIN64 = E.has WIN64 := rfl
  have x5 : (cfg E).has MINGW64 = E.has MINGW64 := rfl
  have x6 : (cfg E).val MINGW64_VERSION_MAJOR = E.val MINGW64_VERSION_MAJOR := rfl
  have x7 : (cfg E).has MSC_VER = E.has MSC_VER := rfl
  have x8 : (cfg E).has UNDER_CE = E.has UNDER_CE := rfl
  simp only [src, Prog.run, tssWindowsPeCpp, Prog.when, start, List.contains_nil, Bool.false_eq_true, if_false, this, Cond.eval, Num.eval, x1, x2, x3, x4, x5, x6, x7, x8, hasTlsCallbacks]
  by_cases hw : platform E = .windows <;> by_cases hv : E.val MINGW64_VERSION_MAJOR = 0 <;>
    rcases Bool.eq_false_or_eq_true (E.has BOOST_SYNC_STATIC_LINK) with a | a <;>
    rcases Bool.eq_false_or_eq_true (E.has MINGW32) with b | b <;> rcases Bool.eq_false_or_eq_true (E.has WIN64) with c | c <;>
    rcases Bool.eq_false_or_eq_true (E.has MINGW64) with d | d <;> rcases Bool.eq_false_or_eq_true (E.has MSC_VER) with e | e <;>
    rcases Bool.eq_false_or_eq_true (E.has UNDER_CE) with f | f <;> simp [hw, hv, a, b, c, d, e, f]

private theorem built_windows : built true E = src E tssWindowsDllCpp ++ (src E tssWindowsPeCpp ++ (src E tssWindowsCpp ++ src E tssPthreadCpp)) := by
  simp [built, sources, src]
private theorem built_other : built false E = src E tssPthreadCpp := by
  simp [built, sources, src]

private theorem pe_cases (h : Clean E) : src E tssWindowsPeCpp = [] ∨ src E tssWindowsPeCpp = [.tssHookPe] := by
  by_cases c : platform E = .windows ∧ E.has BOOST_SYNC_STATIC_LINK = true ∧ hasTlsCallbacks E
  · exact .inr ((src_pe h).2 c)
  · exact .inl ((src_pe h).1 c)

/-- Every build has one definition of the functions of tss.hpp, over the system's own API. -/
theorem C102_one_tss (h : Clean E) {windows : Bool} (hw : windows = false → E.has BOOST_WINDOWS = false) :
    (onWindows E → (built windows E).filter What.isTss = [.tssWindows]) ∧
    (¬ onWindows E → (built windows E).filter What.isTss = [.tssPthread]) := by
  rw [← platform_windows]
  cases windows
  · have hn : platform E ≠ .windows := by
      intro hp; rw [platform_windows, onWindows, hw rfl] at hp; simp at hp
    rw [built_other, src_pthread h]
    simp only [hn, if_false, false_imp_iff, not_false_eq_true, true_imp_iff, true_and]
    split <;> rfl
  · rw [built_windows, src_pthread h, src_windows h, src_dll h]
    rcases pe_cases h with hp | hp <;> rw [hp] <;> by_cases hw : platform E = .windows <;> simp only [hw, if_true, if_false, true_and, false_and] <;>
      by_cases hd : E.has BOOST_SYNC_DYN_LINK = true <;> cases (cfg E).has BOOST_SYNC_DETAIL_TLS <;> simp [hd, List.filter, What.isTss]

/-- Every build keeps the pointer of a thread in one place: in a variable where config.hpp says how to declare one, otherwise in a slot. -/
theorem C102_one_storage (h : Clean E) {windows : Bool} (hw : windows = false → E.has BOOST_WINDOWS = false) :
    (built windows E).filter What.isStorage = [if (unit E [.config]).env.has BOOST_SYNC_DETAIL_TLS then .tssVariable else .tssSlot] := by
  have : (unit E [.config]).env.has BOOST_SYNC_DETAIL_TLS = (cfg E).has BOOST_SYNC_DETAIL_TLS := by
    rw [unit_one, config_env h]
  rw [this]
  cases windows
  · have hn : platform E ≠ .windows := by
      intro hp; rw [platform_windows, onWindows, hw rfl] at hp; simp at hp
    rw [built_other, src_pthread h]
    simp only [hn, if_false]
    split <;> rfl
  · rw [built_windows, src_pthread h, src_windows h, src_dll h]
    rcases pe_cases h with hp | hp <;> rw [hp] <;> by_cases hw : platform E = .windows <;> simp only [hw, if_true, if_false, true_and, false_and] <;>
      by_cases hd : E.has BOOST_SYNC_DYN_LINK = true <;> cases (cfg E).has BOOST_SYNC_DETAIL_TLS <;> simp [hd, List.filter, What.isStorage]

/-- Where the build system tells the way of linking, Windows builds have one hook for the end of threads: that of a DLL in a shared library,
and that of a program in a static library, if the compiler has one. Other builds have none.

Missing: builds where only `BOOST_ALL_DYN_LINK` is defined, see `C102_hook_refuted`. -/
theorem C102_hook_partial (h : Clean E) (hj : JamBuild E) :
    (onWindows E → E.has BOOST_SYNC_DYN_LINK = true → (built true E).filter What.isHook = [.tssHookDll]) ∧
    (onWindows E → E.has BOOST_SYNC_DYN_LINK = false → hasTlsCallbacks E → (built true E).filter What.isHook = [.tssHookPe]) ∧
    (¬ onWindows E → ∀ windows, (built windows E).filter What.isHook = []) := by
  rw [← platform_windows]
  have hq : ∀ b : Bool, What.isHook (if b then .tssVariable else .tssSlot) = false := by intro b; cases b <;> rfl
  refine ⟨fun hw hd => ?_, fun hw hd ht => ?_, fun hw windows => ?_⟩
  · have hs : E.has BOOST_SYNC_STATIC_LINK = false := by
      have := hj.2; rw [hd] at this; simpa using this
    rw [built_windows, src_pthread h, src_windows h, src_dll h, (src_pe h).1 (by simp [hs])]
    simp [hw, hd, List.filter_cons, hq]; rfl
  · have hs : E.has BOOST_SYNC_STATIC_LINK = true := hj.2.2 hd
    rw [built_windows, src_pthread h, src_windows h, src_dll h, (src_pe h).2 ⟨hw, hs, ht⟩]
    simp [hw, hd, List.filter_cons, hq]; rfl
  · cases windows
    · rw [built_other, src_pthread h]
      simp [hw, List.filter_cons, hq]; rfl
    · rw [built_windows, src_pthread h, src_windows h, src_dll h, (src_pe h).1 (by simp [hw])]
      simp [hw, List.filter_cons, hq]; rfl

/-- What `BOOST_SYNC_API` says: the library exports its symbols (2) while users import them (1), as long as both define the same macros. -/
theorem C102_api (h : Clean E) {fs : List File} {saved : List Bool} (hf : .linkConfig ∈ (unit E fs saved).files) :
    (unit E fs saved).env BOOST_SYNC_API =
      some (if E.has BOOST_SYNC_DYN_LINK = true ∨ E.has BOOST_ALL_DYN_LINK = true then if E.has BOOST_SYNC_BUILDING then 2 else 1 else 0) := by
  rw [unit_has hf rfl, (linkConfig_own h).1]; simp [dynLink]

/-- Users that link automatically link the library that they are compiled for: the shared one if and only if they import its symbols.
The library does not link itself. -/
theorem C102_auto_link (h : Clean E) {fs : List File} {saved : List Bool} (hf : .linkConfig ∈ (unit E fs saved).files) :
    declsOf (unit E fs saved) .linkConfig =
      if E.has BOOST_SYNC_BUILDING = true ∨ E.has BOOST_SYNC_NO_LIB = true ∨ E.has BOOST_ALL_NO_LIB = true then []
      else [.autoLink (decide ((unit E fs saved).env BOOST_SYNC_API = some 1))] := by
  rw [unit_decls fs saved hf, (linkConfig_own h).2, C102_api h hf]
  simp only [noLib, dynLink]
  rcases Bool.eq_false_or_eq_true (E.has BOOST_SYNC_BUILDING) with a | a <;> rcases Bool.eq_false_or_eq_true (E.has BOOST_SYNC_NO_LIB) with b | b <;>
    rcases Bool.eq_false_or_eq_true (E.has BOOST_ALL_NO_LIB) with c | c <;> rcases Bool.eq_false_or_eq_true (E.has BOOST_SYNC_DYN_LINK) with d | d <;>
    rcases Bool.eq_false_or_eq_true (E.has BOOST_ALL_DYN_LINK) with e | e <;> simp [a, b, c, d, e]

/-! Examples and the witness -/

/-- A shared library with MinGW. -/
def dllMingw : List (Macro × Int) := (BOOST_SYNC_BUILDING, 1) :: (BOOST_SYNC_DYN_LINK, 1) :: windowsMingw
/-- The same where the way of linking is told by `BOOST_ALL_DYN_LINK`, for all libraries of Boost. -/
def allDllMingw : List (Macro × Int) := (BOOST_SYNC_BUILDING, 1) :: (BOOST_ALL_DYN_LINK, 1) :: windowsMingw

/-- link_config.hpp takes `BOOST_ALL_DYN_LINK` for `BOOST_SYNC_DYN_LINK`, but tss_windows_dll.cpp does not include it. A library whose
symbols are exported has no hook for the end of threads (and does not link, since tss_windows.cpp calls a function of the hook). -/
theorem C102_hook_refuted : ¬ (∀ E, Clean E → onWindows E → E.has BOOST_SYNC_BUILDING = true → (unit E [.linkConfig]).env BOOST_SYNC_API = some 2 →
    (built true E).filter What.isHook ≠ []) := by
  intro h
  exact h (envOf allDllMingw) (clean_of _ (by decide)) (by unfold onWindows; decide) (by decide) (by decide +kernel) (by decide +kernel)

example : Clean (envOf dllMingw) ∧ JamBuild (envOf dllMingw) ∧ onWindows (envOf dllMingw) := ⟨clean_of _ (by decide), by unfold JamBuild; decide, by unfold onWindows; decide⟩
example : (built true (envOf dllMingw)).filter What.isHook = [.tssHookDll] ∧ (built true (envOf dllMingw)).filter What.isTss = [.tssWindows] := by decide +kernel
example : (built false (envOf linuxGcc)) = [.tssSlot, .tssPthread] := by decide +kernel
example : declsOf (unit (envOf ((BOOST_ALL_DYN_LINK, 1) :: windowsMsvc)) [.linkConfig]) .linkConfig = [.autoLink true] := by decide +kernel
example : declsOf (unit (envOf windowsMsvc) [.linkConfig]) .linkConfig = [.autoLink false] := by decide +kernel

end Verif.Config
