import Verif.Proof.Instantiate

/-!
# C109: every timed function accepts every supported type of time

False of the code in two ways: a time point of a clock other than `system_clock` is only accepted if its duration can represent the times of the clock
without loss, and `manual_reset_event` on futexes accepts no such time point at all.
-/

namespace Verif.Instantiate

/-- Exactly which calls compile: those with a supported type of the right kind, except for time points of other clocks that are coarser than the clock and
except for all time points of other clocks with `manual_reset_event` on futexes.  All classes, functions, headers and types. -/
theorem C109_exact (h : Headers) (c : Cls) (f : Fn) (t : Time) (hc : Public c) (ho : Offers c f) :
    Compiles h c f (.user t) ↔ Supported h t ∧ Fits f t ∧
      ∀ l native d, t = .point l false native d → c ≠ .manualFutex ∧ Lossless native d := by
  constructor
  · intro hk
    obtain ⟨hs, hf⟩ := (resolve_iff hc ho).1 (resolve_of_compiles hk)
    refine ⟨hs, hf, ?_⟩
    rintro l native d rfl
    rw [supported_iff] at hs
    have hl : h.chrono l = true := by
      by_cases hl : h.chrono l = true
      · exact hl
      · simp [traits, hl] at hs
    have ht : traits h (.user (.point l false native d)) = some (.point, .chronoPoint l native d) := by simp [traits, hl]
    have hg := fits_point (g := .point) hf (by simp) (fun _ => ⟨trivial, id⟩)
    rw [reach (P := c ≠ .manualFutex ∧ Lossless native d) hc ho ht (by simp) hg.1 hg.2] at hk
    · exact hk
    · intro q hq
      have : passed f .point (.chronoPoint l native d) = .chronoPoint l native d := by cases f <;> rfl
      rw [this]
      exact core_chrono hl hq
  · rintro ⟨hs, hf, hx⟩
    rw [supported_iff] at hs
    obtain ⟨⟨g, u⟩, ht⟩ := Option.isSome_iff_exists.1 hs
    cases g with
    | duration =>
      obtain ⟨h1, h2, rfl⟩ := traits_duration ht
      have hg := fits_point (g := .duration) hf (fun _ => ⟨h1, h2⟩) (by simp)
      refine (reach (P := True) hc ho ht (fun _ => rfl) hg.1 hg.2 ?_).2 trivial
      intro q hq
      have : passed f .duration .sysDuration = .sysDuration ∨ passed f .duration .sysDuration = .sysPoint := by cases f <;> simp [passed]
      rcases this with e | e <;> rw [e]
      · simpa using core_sysDuration hq
      · simpa using core_sysPoint hq
    | point =>
      obtain ⟨h1, h2, hu⟩ := traits_point ht
      have hg := fits_point (g := .point) hf (by simp) (fun _ => ⟨h1, h2⟩)
      refine (reach (P := True) hc ho ht (by simp) hg.1 hg.2 ?_).2 trivial
      intro q hq
      have : passed f .point u = u := by cases f <;> rfl
      rw [this]
      rcases hu with rfl | ⟨l, native, d, hl, rfl, rfl⟩
      · simpa using core_sysPoint hq
      · simpa using (core_chrono hl hq).2 (hx l native d rfl)

/-- The claim, for everything but time points of other clocks: durations, time points of `system_clock`, Boost.DateTime and `timespec` work with all functions of all
classes. -/
theorem C109_accepts_partial (h : Headers) (c : Cls) (f : Fn) (t : Time) (hc : Public c) (ho : Offers c f)
    (hs : Supported h t) (hf : Fits f t) (ht : ¬ OtherClock t) : Compiles h c f (.user t) :=
  (C109_exact h c f t hc ho).2 ⟨hs, hf, fun l native d e => absurd ⟨l, native, d, e⟩ ht⟩

/-- The claim for time points of other clocks as fine as the clock itself: they work with all functions of all classes but `manual_reset_event` on futexes. -/
theorem C109_clocks_partial (h : Headers) (c : Cls) (f : Fn) (l : Lib) (native d : Dur) (hc : Public c) (ho : Offers c f) (hm : c ≠ .manualFutex)
    (hs : Supported h (.point l false native d)) (hf : Fits f (.point l false native d)) (hd : Lossless native d) :
    Compiles h c f (.user (.point l false native d)) :=
  (C109_exact h c f _ hc ho).2 ⟨hs, hf, fun _ _ _ e => by cases e; exact ⟨hm, hd⟩⟩

/-- Anything else is refused where the function is called, not by an error inside the library: no declaration is chosen exactly if the type is not supported
or not of the kind the function takes. -/
theorem C109_refuses (h : Headers) (c : Cls) (f : Fn) (t : Time) (hc : Public c) (ho : Offers c f) :
    resolve h c f (.user t) = none ↔ ¬ (Supported h t ∧ Fits f t) := by
  rw [← resolve_iff hc ho]
  simp

/-- Functions a class does not have cannot be called. -/
theorem C109_absent (h : Headers) (c : Cls) (f : Fn) (t : Time) (hc : Public c) (ho : ¬ Offers c f) : ¬ Compiles h c f (.user t) := by
  apply compiles_none
  cases c <;> cases f <;>
    first
    | exact hc.elim
    | exact absurd trivial ho
    | (simp [resolve, decls, converting, delegating, waiting, overloads, accepts]; done)
    | exact absurd ⟨_, rfl⟩ (show ¬ ∃ w, Cls.uniqueLock _ = .uniqueLock w from ho)

/-- All headers included. -/
def allHeaders : Headers := ⟨true, true, true, true⟩

/-- Durations in nanoseconds, milliseconds, and seconds as a floating point number. -/
def nanoseconds : Dur := ⟨false, 1, 1000000000⟩
def milliseconds : Dur := ⟨false, 1, 1000⟩
def floatSeconds : Dur := ⟨true, 1, 1⟩

/-- `time_point< steady_clock, milliseconds >`, as `time_point_cast` gives it, is a time point of a supported library, but no function of any class can be called with it:
the body contains `time_point now = clock::now()`, which would lose nanoseconds. -/
theorem C109_coarse_refuted (c : Cls) (hc : Public c) (l : Lib) :
    Supported allHeaders (.point l false nanoseconds milliseconds) ∧ Fits .until_ (.point l false nanoseconds milliseconds) ∧
    (resolve allHeaders c .until_ (.user (.point l false nanoseconds milliseconds))).isSome = true ∧
    ∀ f, ¬ Compiles allHeaders c f (.user (.point l false nanoseconds milliseconds)) := by
  have hs : Supported allHeaders (.point l false nanoseconds milliseconds) := by cases l <;> rfl
  refine ⟨hs, trivial, (resolve_iff (f := .until_) hc trivial).2 ⟨hs, trivial⟩, fun f hk => ?_⟩
  by_cases ho : Offers c f
  · obtain ⟨_, h1⟩ := ((C109_exact _ _ _ _ hc ho).1 hk).2.2 l _ _ rfl
    rcases h1 with h1 | ⟨_, k, hk⟩
    · cases h1
    · simp only [nanoseconds, milliseconds] at hk
      omega
  · exact C109_absent _ _ _ _ hc ho hk

/-- `manual_reset_event` on futexes cannot wait for any time point of another clock, not even `steady_clock::time_point`: its loop calls `timed_wait` with a
`system_duration`, which no declaration accepts. -/
theorem C109_manual_refuted (h : Headers) (f : Fn) (l : Lib) (native d : Dur) :
    ¬ Compiles h .manualFutex f (.user (.point l false native d)) := by
  intro hk
  by_cases ho : Offers .manualFutex f
  · exact (((C109_exact _ .manualFutex _ _ trivial ho).1 hk).2.2 l native d rfl).1 rfl
  · exact C109_absent _ .manualFutex _ _ trivial ho hk

/-! Cases: a duration in floating point, a time point of the steady clock, one in floating point seconds. -/

example : Compiles allHeaders .semPosix .for_ (.user (.duration .std floatSeconds)) :=
  C109_accepts_partial _ _ _ _ trivial trivial rfl trivial (by rintro ⟨_, _, _, h⟩; cases h)
example : Compiles allHeaders .cvAnyGeneric .timedPred (.user .dateTimeDuration) :=
  C109_accepts_partial _ _ _ _ trivial trivial rfl (.inl trivial) (by rintro ⟨_, _, _, h⟩; cases h)
example : Compiles allHeaders (.uniqueLock true) .construct (.user .timespec) :=
  C109_accepts_partial _ _ _ _ trivial ⟨_, rfl⟩ rfl (.inr trivial) (by rintro ⟨_, _, _, h⟩; cases h)
example : Compiles allHeaders .autoSemMach .until_ (.user (.point .std false nanoseconds nanoseconds)) :=
  C109_clocks_partial _ _ _ _ _ _ trivial trivial (by simp) rfl trivial (.inr ⟨rfl, 1, rfl⟩)
example : Compiles allHeaders .cvPosix .untilPred (.user (.point .boost false nanoseconds floatSeconds)) :=
  C109_clocks_partial _ _ _ _ _ _ trivial trivial (by simp) rfl trivial (.inl rfl)
example : Compiles allHeaders .timedMutexWindows .until_ (.user (.point .std false milliseconds nanoseconds)) :=
  C109_clocks_partial _ _ _ _ _ _ trivial trivial (by simp) rfl trivial (.inr ⟨rfl, 1000000, rfl⟩)
/-- A time point given to `wait_for`, or a type whose header is missing. -/
example : resolve allHeaders .semWindows .for_ (.user .timespec) = none :=
  (C109_refuses _ .semWindows .for_ _ trivial trivial).2 (fun h => h.2)
example : resolve ⟨false, true, true, true⟩ .semWindows .timed (.user (.duration .std milliseconds)) = none :=
  (C109_refuses _ .semWindows .timed _ trivial trivial).2 (fun h => by cases h.1)
example : ¬ Compiles allHeaders .semWindows .forPred (.user .dateTimeDuration) := C109_absent _ _ _ _ trivial (fun h => h)

end Verif.Instantiate
