import Verif.Proof.ConfigUnit

/-!
# C100: headers leave the diagnostics of the compiler as they found them

header.hpp saves the state of the diagnostics and footer.hpp restores it.  The two ask for different things: header.hpp leaves out
compilers made by Intel, footer.hpp does not.  There the headers take away states saved by the user.
-/

set_option linter.unusedSimpArgs false

namespace Verif.Config
open Verif.Preproc Macro

variable {E : Env Macro}

/-- The compiler is made by Intel, says that it is like GCC 4.6 or later and not like Visual C++. -/
def IntelLikeGcc (E : Env Macro) : Prop :=
  (E.has INTEL_COMPILER = true ∨ E.has ICL = true ∨ E.has ICC = true ∨ E.has ECC = true) ∧ E.has MSC_VER = false ∧ E.has GNUC = true ∧
    406 ≤ E.val GNUC * 100 + E.val GNUC_MINOR

/-- With other compilers, or if the user wants the warnings, any headers in any order leave the saved states as they were. -/
theorem C100_diagnostics_partial (h : E.has BOOST_SYNC_ENABLE_WARNINGS = true ∨ ¬ IntelLikeGcc E) (fs : List File) (saved : List Bool) :
    (unit E fs saved).saved = saved := by
  have ho : opens E = closes E := by
    simp only [opens, closes, intel, gcc46]
    rcases h with h | h
    · simp [h]
    · simp only [IntelLikeGcc] at h
      by_cases hv : 406 ≤ E.val GNUC * 100 + E.val GNUC_MINOR <;> simp only [hv, and_true, and_false, decide_true, decide_false] at h ⊢ <;>
      revert h <;> cases E.has BOOST_SYNC_ENABLE_WARNINGS <;> cases E.has MSC_VER <;> cases E.has INTEL_COMPILER <;> cases E.has ICL <;> cases E.has ICC <;>
        cases E.has ECC <;> cases E.has GNUC <;> simp
  have main : ∀ (fs : List File) (s : St Macro File Decl), (∀ m, ownerMacro m = none → s.env m = E m) → ((includes text fs).run s).saved = s.saved := by
    intro fs
    induction fs with
    | nil => intro s _; rfl
    | cons f fs ih =>
      intro s hs
      have := text_neutral ho f s hs
      simp only [includes, Prog.run] at this ⊢
      rw [ih _ this.2, this.1]
  exact main fs _ (fun _ _ => rfl)

/-- With a compiler of Intel like GCC the headers take away a state that the user has saved. -/
theorem C100_diagnostics_refuted :
    ∃ E f, Clean E ∧ IntelLikeGcc E ∧ (unit E [f] [false]).saved = [] :=
  ⟨envOf ((ICC, 1) :: linuxGcc), .mutex, clean_of _ (by decide), by simp [IntelLikeGcc]; decide, by decide +kernel⟩

example : ¬ IntelLikeGcc (envOf linuxGcc) := by simp [IntelLikeGcc]; decide
/-- With GCC something happens between the two. -/
example : (headerHpp.run (start (envOf linuxGcc) [false])).saved = [true, false] := by decide +kernel
example : (unit (envOf linuxGcc) [.autoEvent, .cvAny] [false]).saved = [false] := by decide +kernel

end Verif.Config
