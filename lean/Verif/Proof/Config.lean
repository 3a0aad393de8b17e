import Verif.Model.Config
import Verif.Proof.Preproc

set_option linter.unusedSimpArgs false

namespace Verif.Config
open Verif.Preproc Macro

/-- The platform that config.hpp decides on. -/
inductive Platform
  | posix | windows | linux | mach
  deriving DecidableEq

def platform (E : Env Macro) : Platform :=
  if E.has BOOST_SYNC_USE_PTHREAD then .posix
  else if E.has BOOST_WINDOWS then .windows
  else if E.has linux__ || (E.has linux_ || E.has linux) then .linux
  else if E.has macintosh || (E.has APPLE || E.has APPLE_CC) then .mach
  else .posix

def win6 (E : Env Macro) : Bool := decide (E.val BOOST_WINAPI_VERSION_WIN6 ≤ E.val BOOST_USE_WINAPI_VERSION)
def tlsAsked (E : Env Macro) : Bool := E.has BOOST_SYNC_USE_COMPILER_TLS || (decide (platform E = .windows) && win6 E)
def noLiteral (E : Env Macro) : Bool := E.has BOOST_MSVC || (E.has BOOST_WINDOWS && E.has clang)

/-- The macros after config.hpp. -/
def cfg (E : Env Macro) : Env Macro := fun m => match m with
  | BOOST_SYNC_DETAIL_PLATFORM_POSIX => if platform E = .posix then some 1 else none
  | BOOST_SYNC_DETAIL_PLATFORM_WINAPI => if platform E = .windows then some 1 else none
  | BOOST_SYNC_DETAIL_PLATFORM_LINUX => if platform E = .linux then some 1 else none
  | BOOST_SYNC_DETAIL_PLATFORM_MACH => if platform E = .mach then some 1 else none
  | BOOST_SYNC_USE_COMPILER_TLS =>
    if tlsAsked E && (E.has GNUC || E.has SUNPRO_CC || E.has BOOST_MSVC) then (if E.has BOOST_SYNC_USE_COMPILER_TLS then E m else some 1) else none
  | BOOST_SYNC_DETAIL_TLS =>
    if tlsAsked E then (if E.has GNUC || E.has SUNPRO_CC then some 1 else if E.has BOOST_MSVC then some 2 else none) else none
  | BOOST_SYNC_DETAIL_ABI_NAMESPACE => some (match platform E with
      | .posix => 1 | .linux => 2 | .windows => if win6 E then 3 else 4 | .mach => 5)
  | BOOST_SYNC_DETAIL_OPEN_ABI_NAMESPACE => some (if !E.has BOOST_NO_CXX11_INLINE_NAMESPACES then 1
      else if E.has BOOST_GCC && decide (40400 ≤ E.val BOOST_GCC) then 2 else 3)
  | BOOST_SYNC_DETAIL_NO_CONSTEXPR_WITH_NON_LITERAL_BASE => if noLiteral E then some 1 else none
  | BOOST_SYNC_DETAIL_CONSTEXPR_WITH_NON_LITERAL_BASE => some (if noLiteral E then 0 else 1)
  | _ => E m

def cfgMacros : List Macro := [BOOST_SYNC_DETAIL_PLATFORM_POSIX, BOOST_SYNC_DETAIL_PLATFORM_WINAPI, BOOST_SYNC_DETAIL_PLATFORM_LINUX,
  BOOST_SYNC_DETAIL_PLATFORM_MACH, BOOST_SYNC_DETAIL_TLS, BOOST_SYNC_DETAIL_ABI_NAMESPACE, BOOST_SYNC_DETAIL_OPEN_ABI_NAMESPACE,
  BOOST_SYNC_DETAIL_NO_CONSTEXPR_WITH_NON_LITERAL_BASE, BOOST_SYNC_DETAIL_CONSTEXPR_WITH_NON_LITERAL_BASE]

theorem set_self {E : Env Macro} {m : Macro} {v : Option Int} (h : v = E m) : E.set m v = E := by
  funext x; simp only [Env.set]; split
  · rename_i e; rw [e, h]
  · rfl

theorem set_has (E : Env Macro) (m x : Macro) (v : Option Int) : (E.set m v).has x = if x = m then v.isSome else E.has x := by
  simp only [Env.has, Env.set]; split <;> rfl

theorem set_val (E : Env Macro) (m x : Macro) (v : Option Int) : (E.set m v).val x = if x = m then v.getD 0 else E.val x := by
  simp only [Env.val, Env.set]; split <;> rfl

theorem platformPart_run (E : Env Macro) (fs ds sv) : platformPart.run ⟨E, fs, ds, sv⟩ =
    ⟨E.set (match platform E with
      | .posix => BOOST_SYNC_DETAIL_PLATFORM_POSIX | .windows => BOOST_SYNC_DETAIL_PLATFORM_WINAPI
      | .linux => BOOST_SYNC_DETAIL_PLATFORM_LINUX | .mach => BOOST_SYNC_DETAIL_PLATFORM_MACH) (some 1), fs, ds, sv⟩ := by
  simp only [platformPart, Prog.run, Cond.eval, platform]
  rcases Bool.eq_false_or_eq_true (E.has BOOST_SYNC_USE_PTHREAD) with h1 | h1 <;>
    rcases Bool.eq_false_or_eq_true (E.has BOOST_WINDOWS) with h2 | h2 <;>
    rcases Bool.eq_false_or_eq_true (E.has linux__ || (E.has linux_ || E.has linux)) with h3 | h3 <;>
    rcases Bool.eq_false_or_eq_true (E.has macintosh || (E.has APPLE || E.has APPLE_CC)) with h4 | h4 <;>
    simp only [h1, h2, h3, h4, if_true, Bool.false_eq_true, if_false]

theorem tlsPart_run (E : Env Macro) (fs ds sv) (h : E BOOST_SYNC_DETAIL_TLS = none) : tlsPart.run ⟨E, fs, ds, sv⟩ =
    ⟨let asked := E.has BOOST_SYNC_USE_COMPILER_TLS || (E.has BOOST_SYNC_DETAIL_PLATFORM_WINAPI && win6 E)
     (E.set BOOST_SYNC_USE_COMPILER_TLS (if asked && (E.has GNUC || E.has SUNPRO_CC || E.has BOOST_MSVC)
        then (if E.has BOOST_SYNC_USE_COMPILER_TLS then E BOOST_SYNC_USE_COMPILER_TLS else some 1) else none)).set BOOST_SYNC_DETAIL_TLS
        (if asked then (if E.has GNUC || E.has SUNPRO_CC then some 1 else if E.has BOOST_MSVC then some 2 else none) else none), fs, ds, sv⟩ := by
  simp only [tlsPart, Prog.when, Prog.run, Cond.eval, Num.eval, win6]
  rcases Bool.eq_false_or_eq_true (E.has BOOST_SYNC_USE_COMPILER_TLS) with h1 | h1 <;>
    rcases Bool.eq_false_or_eq_true (E.has BOOST_SYNC_DETAIL_PLATFORM_WINAPI) with h2 | h2 <;>
    by_cases h3 : E.val BOOST_WINAPI_VERSION_WIN6 ≤ E.val BOOST_USE_WINAPI_VERSION <;>
    rcases Bool.eq_false_or_eq_true (E.has GNUC) with h4 | h4 <;>
    rcases Bool.eq_false_or_eq_true (E.has SUNPRO_CC) with h5 | h5 <;>
    rcases Bool.eq_false_or_eq_true (E.has BOOST_MSVC) with h6 | h6 <;>
    simp only [h1, h2, h3, h4, h5, h6, if_true, Bool.false_eq_true, if_false, Bool.not_true, Bool.not_false, Bool.and_true, Bool.and_false,
      Bool.true_and, Bool.false_and, Bool.or_true, Bool.or_false, Bool.true_or, Bool.false_or, decide_true, decide_false] <;>
    simp [set_has, h1, h4, h5, h6] <;> (funext x; simp only [Env.set]; repeat' split) <;> simp_all [Env.has]

theorem abiPart_run (E : Env Macro) (p : Platform) (h1 : E.has BOOST_SYNC_DETAIL_PLATFORM_POSIX = decide (p = .posix))
    (h2 : E.has BOOST_SYNC_DETAIL_PLATFORM_LINUX = decide (p = .linux))
    (h3 : E.has BOOST_SYNC_DETAIL_PLATFORM_WINAPI = decide (p = .windows))
    (h4 : E.has BOOST_SYNC_DETAIL_PLATFORM_MACH = decide (p = .mach)) (fs ds sv) : abiPart.run ⟨E, fs, ds, sv⟩ =
    ⟨E.set BOOST_SYNC_DETAIL_ABI_NAMESPACE (some (match p with
      | .posix => 1 | .linux => 2 | .windows => if win6 E then 3 else 4 | .mach => 5)), fs, ds, sv⟩ := by
  simp only [abiPart, Prog.run, Cond.eval, h1, h2, h3, h4, Num.eval, win6]
  cases p <;> simp only [reduceCtorEq, decide_true, decide_false, if_true, if_false, Bool.false_eq_true]
  by_cases h : E.val BOOST_WINAPI_VERSION_WIN6 ≤ E.val BOOST_USE_WINAPI_VERSION <;> simp [h]

theorem openPart_run (E : Env Macro) (fs ds sv) : openPart.run ⟨E, fs, ds, sv⟩ =
    ⟨E.set BOOST_SYNC_DETAIL_OPEN_ABI_NAMESPACE (some (if !E.has BOOST_NO_CXX11_INLINE_NAMESPACES then 1
      else if E.has BOOST_GCC && decide (40400 ≤ E.val BOOST_GCC) then 2 else 3)), fs, ds, sv⟩ := by
  simp only [openPart, Prog.run, Cond.eval, Num.eval]
  rcases Bool.eq_false_or_eq_true (E.has BOOST_NO_CXX11_INLINE_NAMESPACES) with h1 | h1 <;>
    rcases Bool.eq_false_or_eq_true (E.has BOOST_GCC) with h2 | h2 <;> by_cases h3 : 40400 ≤ E.val BOOST_GCC <;> simp [h1, h2, h3]

theorem constexprPart_run (E : Env Macro) (h : E BOOST_SYNC_DETAIL_NO_CONSTEXPR_WITH_NON_LITERAL_BASE = none) (fs ds sv) :
    constexprPart.run ⟨E, fs, ds, sv⟩ =
    ⟨(E.set BOOST_SYNC_DETAIL_NO_CONSTEXPR_WITH_NON_LITERAL_BASE (if noLiteral E then some 1 else none)).set
      BOOST_SYNC_DETAIL_CONSTEXPR_WITH_NON_LITERAL_BASE (some (if noLiteral E then 0 else 1)), fs, ds, sv⟩ := by
  have h' : E.has BOOST_SYNC_DETAIL_NO_CONSTEXPR_WITH_NON_LITERAL_BASE = false := by simp [Env.has, h]
  simp only [constexprPart, Prog.when, Prog.run, Cond.eval, noLiteral]
  rcases Bool.eq_false_or_eq_true (E.has BOOST_MSVC || (E.has BOOST_WINDOWS && E.has clang)) with h1 | h1 <;>
    simp only [h1, if_true, if_false, Bool.false_eq_true]
  · simp [set_has]
  · rw [set_self h.symm]; simp [h']

/-- config.hpp defines what `cfg` tells. -/
theorem config_run {E : Env Macro} (hE : ∀ m ∈ cfgMacros, E m = none) {fs ds sv} (hf : File.config ∉ fs) :
    configHpp.run ⟨E, fs, ds, sv⟩ = ⟨cfg E, .config :: fs, ds, sv⟩ := by
  have n : ∀ m ∈ cfgMacros, E.has m = false := fun m hm => by simp [Env.has, hE m hm]
  simp only [cfgMacros, List.mem_cons, List.not_mem_nil, or_false, forall_eq_or_imp, forall_eq] at hE n
  obtain ⟨e1, e2, e3, e4, e5, e6, e7, e8, e9⟩ := hE
  obtain ⟨n1, n2, n3, n4, n5, n6, n7, n8, n9⟩ := n
  simp only [configHpp, Prog.run, if_neg hf, configBody, platformPart_run]
  have w : ∀ m v, m ≠ BOOST_WINAPI_VERSION_WIN6 → m ≠ BOOST_USE_WINAPI_VERSION → win6 (E.set m v) = win6 E := by
    intro m v a b
    simp only [win6, set_val, if_neg a.symm, if_neg b.symm]
  generalize hp : platform E = p
  rw [tlsPart_run _ _ _ _ (by cases p <;> simp [Env.set, e5])]
  rw [abiPart_run _ p (by cases p <;> simp [set_has, *]) (by cases p <;> simp [set_has, *]) (by cases p <;> simp [set_has, *]) (by cases p <;> simp [set_has, *])]
  rw [openPart_run, constexprPart_run _ (by cases p <;> simp [Env.set, *])]
  congr 1
  funext m
  cases p <;> cases m <;> simp [Env.set, cfg, hp, e1, e2, e3, e4, e5, e6, e7, e8, e9, n1, n2, n3, n4, tlsAsked, noLiteral, set_has, set_val, win6]

end Verif.Config
