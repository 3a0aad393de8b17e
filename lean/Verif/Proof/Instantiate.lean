import Verif.Spec.Instantiate

namespace Verif.Instantiate

theorem compiles_iff {h c f t} : Compiles h c f t ↔ ∃ d calls, resolve h c f t = some d ∧
    d.body.mapM (call h t) = some calls ∧ ∀ q ∈ calls, Compiles h q.1 q.2.1 q.2.2 := by
  constructor
  · rintro ⟨d, calls, h1, h2, h3⟩; exact ⟨d, calls, h1, h2, h3⟩
  · rintro ⟨d, calls, h1, h2, h3⟩; exact .intro d calls h1 h2 h3

/-- A declaration is chosen whose body has no calls. -/
theorem compiles_nil {h c f t p} (hr : resolve h c f t = some ⟨p, []⟩) : Compiles h c f t :=
  .intro _ [] hr rfl (by simp)

/-- A declaration is chosen whose body makes one call. -/
theorem compiles_one {h c f t p u} (hr : resolve h c f t = some ⟨p, [u]⟩) :
    Compiles h c f t ↔ ∃ q, call h t u = some q ∧ Compiles h q.1 q.2.1 q.2.2 := by
  rw [compiles_iff]
  constructor
  · rintro ⟨d, calls, h1, h2, h3⟩
    rw [hr] at h1
    cases h1
    cases hq : call h t u with
    | none => simp [hq] at h2
    | some q =>
      simp [hq] at h2
      subst h2
      exact ⟨q, rfl, h3 q (by simp)⟩
  · rintro ⟨q, hq, hc⟩
    exact ⟨_, [q], hr, by simp [hq], by simpa using hc⟩

theorem compiles_none {h c f t} (hr : resolve h c f t = none) : ¬ Compiles h c f t := by
  rintro ⟨d, calls, h1, _⟩
  rw [hr] at h1
  cases h1

theorem convertible_iff (a b : Dur) : convertible a b = true ↔ Lossless a b := by
  have : a.den * b.num ∣ a.num * b.den ↔ Multiple a b := by
    constructor
    · rintro ⟨k, hk⟩
      exact ⟨k, by rw [hk, Nat.mul_comm a.den, Nat.mul_comm]⟩
    · rintro ⟨k, hk⟩
      exact ⟨k, by rw [hk, Nat.mul_comm b.num, Nat.mul_comm]⟩
  simp [convertible, Lossless, this]

/-- The function that does the waiting, in each class. -/
def core : Cls → Option (Cls × Fn)
  | .timedMutexPosix => some (.timedMutexPosix, .priv)
  | .timedMutexWindows => some (.timedMutexWindows, .priv)
  | .uniqueLock w => some (if w then .timedMutexWindows else .timedMutexPosix, .priv)
  | .manualFutex => some (.manualFutex, .priv)
  | .autoFutex => some (.autoFutex, .priv)
  | .manualWindows | .autoWindows => some (.basicEventWindows, .timed)
  | .manualEmulation | .autoEmulation | .semEmulation | .cvPosix | .cvAnyGeneric => some (.cvPosix, .priv)
  | .autoSemPosix | .semPosix => some (.semPosix, .priv)
  | .autoSemDispatch | .semDispatch => some (.semDispatch, .priv)
  | .autoSemMach | .semMach => some (.basicSemMach, .timed)
  | .semWindows => some (.semWindows, .priv)
  | .cvWindows | .cvAnyWindows => some (.basicCvWindows, .timed)
  | .basicEventWindows | .basicSemMach | .basicCvWindows => none

theorem core_sysPoint {h c q} (hq : core c = some q) : Compiles h q.1 q.2 .sysPoint := by
  have key : ∀ b g p u, resolve h b g .sysPoint = some ⟨p, u⟩ → u = [] → Compiles h b g .sysPoint := by
    intro b g p u h1 h2; subst h2; exact compiles_nil h1
  cases c <;> simp only [core, Option.some.injEq, reduceCtorEq] at hq <;> subst hq <;>
    first
    | exact compiles_nil (p := .sysPoint) rfl
    | (rename_i w; cases w <;> exact compiles_nil (p := .sysPoint) rfl)
    | exact (compiles_one (p := .sysPoint) rfl).2 ⟨_, rfl, compiles_nil (p := .sysDuration) rfl⟩

theorem core_sysDuration {h c q} (hq : core c = some q) : Compiles h q.1 q.2 .sysDuration := by
  have hp := core_sysPoint (h := h) hq
  cases c <;> simp only [core, Option.some.injEq, reduceCtorEq] at hq <;> subst hq <;>
    first
    | exact compiles_nil (p := .sysDuration) rfl
    | exact (compiles_one (p := .sysDuration) rfl).2 ⟨_, rfl, hp⟩
    | (rename_i w; cases w <;>
        first
        | exact compiles_nil (p := .sysDuration) rfl
        | exact (compiles_one (p := .sysDuration) rfl).2 ⟨_, rfl, hp⟩)

theorem core_chrono {h c q l native d} (hl : h.chrono l = true) (hq : core c = some q) :
    Compiles h q.1 q.2 (.chronoPoint l native d) ↔ c ≠ .manualFutex ∧ Lossless native d := by
  have hd := core_sysDuration (h := h) hq
  rw [← convertible_iff]
  by_cases hm : c = .manualFutex
  · subst hm
    simp only [core, Option.some.injEq] at hq
    subst hq
    rw [compiles_one (p := .chronoPoint) (u := .polls .manualFutex .timed) rfl]
    simp only [ne_eq, not_true_eq_false, false_and, iff_false, not_exists, not_and]
    intro q hc
    simp only [call] at hc
    split at hc
    · simp only [traits, hl, if_true, Option.map_some, Option.some.injEq] at hc
      subst hc
      exact compiles_none (by simp [resolve, decls, converting, accepts, traits])
    · exact absurd hc (by simp)
  · have hr : resolve h q.1 q.2 (.chronoPoint l native d) = some ⟨.chronoPoint, [.polls q.1 q.2]⟩ := by
      cases c <;> simp only [core, Option.some.injEq, reduceCtorEq] at hq <;> subst hq <;>
        first
        | rfl
        | (rename_i w; cases w <;> rfl)
        | exact absurd rfl hm
    rw [compiles_one hr]
    simp only [call]
    by_cases hc : convertible native d = true
    · simp [hc, hm, traits, hl]
      exact hd
    · simp [hc]

/-- The unit a timeout of the user is converted to. -/
def unitOf (h : Headers) (t : Time) : Option Ty := (traits h (.user t)).map (·.2)

theorem supported_iff (h : Headers) (t : Time) : Supported h t ↔ (traits h (.user t)).isSome = true := by
  cases t with
  | duration l d =>
    cases l
    · by_cases hs : h.stdChrono = true <;> simp [Supported, traits, Headers.chrono, hs]
    · by_cases hs : h.boostChrono = true <;> simp [Supported, traits, Headers.chrono, hs]
  | point l s n d =>
    cases l
    · by_cases hs : h.stdChrono = true <;> simp [Supported, traits, Headers.chrono, hs]
    · by_cases hs : h.boostChrono = true <;> simp [Supported, traits, Headers.chrono, hs]
  | dateTimeDuration | dateTimePoint => by_cases hs : h.dateTime = true <;> simp [Supported, traits, hs]
  | timespec => by_cases hs : h.posixTime = true <;> simp [Supported, traits, hs]
  | other => simp [Supported, traits]

theorem traits_duration {h t u} (ht : traits h (.user t) = some (.duration, u)) : IsDuration t ∧ ¬ IsPoint t ∧ u = .sysDuration := by
  cases t <;> simp_all [traits, IsDuration, IsPoint]

theorem traits_point {h t u} (ht : traits h (.user t) = some (.point, u)) : IsPoint t ∧ ¬ IsDuration t ∧
    (u = .sysPoint ∨ ∃ l native d, h.chrono l = true ∧ t = .point l false native d ∧ u = .chronoPoint l native d) := by
  cases t with
  | point l s n d =>
    simp only [traits] at ht
    split at ht
    · next hl =>
      cases s
      · simp only [Option.some.injEq, Prod.mk.injEq, true_and, Bool.false_eq_true, if_false] at ht
        exact ⟨trivial, id, .inr ⟨l, n, d, hl, rfl, ht.symm⟩⟩
      · simp only [Option.some.injEq, Prod.mk.injEq, true_and, if_true] at ht
        exact ⟨trivial, id, .inl ht.symm⟩
    · cases ht
  | _ => simp_all [traits, IsDuration, IsPoint]

theorem accepts_specialised (h t) : accepts h t .specialised = (traits h t).isSome := rfl
theorem accepts_tagged (h t g) : accepts h t (.tagged g) = decide ((traits h t).map (·.1) = some g) := rfl

/-- A call with a type without traits is not accepted. -/
theorem resolve_none {h c f t} (ht : traits h (.user t) = none) : resolve h c f (.user t) = none := by
  have : ∀ d ∈ decls c f, accepts h (.user t) d.param = false := by
    intro d _
    cases d.param <;> simp [accepts, ht]
  have : (decls c f).filter (fun d => accepts h (.user t) d.param) = [] := List.filter_eq_nil_iff.2 fun d hd => by simp [this d hd]
  simp only [resolve, this]

/-- The type the waiting function is called with. -/
def passed (f : Fn) (g : Tag) (u : Ty) : Ty :=
  match f, g with
  | .timedPred, .duration | .forPred, .duration => .sysPoint
  | _, _ => u

/-- The calls in the body of the declaration chosen. -/
def step (h : Headers) (c : Cls) (f : Fn) (t : Ty) : Option (List (Cls × Fn × Ty)) :=
  (resolve h c f t).bind fun d => d.body.mapM (call h t)

theorem compiles_step {h c f t} : Compiles h c f t ↔ ∃ calls, step h c f t = some calls ∧ ∀ q ∈ calls, Compiles h q.1 q.2.1 q.2.2 := by
  rw [compiles_iff]
  constructor
  · rintro ⟨d, calls, h1, h2, h3⟩
    exact ⟨calls, by simp [step, h1, h2], h3⟩
  · rintro ⟨calls, h1, h3⟩
    simp only [step, Option.bind_eq_some_iff] at h1
    obtain ⟨d, h1, h2⟩ := h1
    exact ⟨d, calls, h1, h2, h3⟩

theorem compiles_call {h c f t q} (hs : step h c f t = some [q]) : Compiles h c f t ↔ Compiles h q.1 q.2.1 q.2.2 := by
  rw [compiles_step, hs]
  constructor
  · rintro ⟨calls, h1, h2⟩
    cases h1
    exact h2 q (by simp)
  · intro h1
    exact ⟨[q], rfl, by simpa using h1⟩

/-- A call that fits leads to the function that does the waiting. -/
theorem reach {h c f t g u P} (hc : Public c) (ho : Offers c f) (ht : traits h (.user t) = some (g, u)) (hu : g = .duration → u = .sysDuration)
    (hg : (f = .until_ ∨ f = .untilPred) → g = .point) (hg' : (f = .for_ ∨ f = .forPred) → g = .duration)
    (hP : ∀ q, core c = some q → (Compiles h q.1 q.2 (passed f g u) ↔ P)) : Compiles h c f (.user t) ↔ P := by
  have e1 : f = .until_ → g = .point := fun e => hg (.inl e)
  have e2 : f = .untilPred → g = .point := fun e => hg (.inr e)
  have e3 : f = .for_ → g = .duration := fun e => hg' (.inl e)
  have e4 : f = .forPred → g = .duration := fun e => hg' (.inr e)
  clear hg hg'
  cases c <;> cases f <;> (first | exact hc.elim | exact ho.elim | (obtain ⟨_, hw⟩ := ho; cases hw; done) | skip) <;>
    cases g <;> (first | (cases e1 rfl; done) | (cases e2 rfl; done) | (cases e3 rfl; done) | (cases e4 rfl; done) | (cases hu rfl) | clear hu) <;>
    clear e1 e2 e3 e4 <;> (have := hP _ rfl) <;> simp only [passed] at this <;> (try (rename_i w; cases w)) <;>
     (repeat
      first
      | exact this
      | rw [compiles_call (by simp [step, resolve, decls, converting, delegating, waiting, accepts, call, ht] <;> rfl)])

theorem resolve_some {h c f t g u} (hc : Public c) (ho : Offers c f) (ht : traits h (.user t) = some (g, u)) :
    (resolve h c f (.user t)).isSome = true ↔
      ((f = .until_ ∨ f = .untilPred) → g = .point) ∧ ((f = .for_ ∨ f = .forPred) → g = .duration) := by
  cases c <;> cases f <;> (first | exact hc.elim | exact ho.elim | (obtain ⟨_, hw⟩ := ho; cases hw; done) | skip) <;> cases g <;>
    simp [resolve, decls, converting, delegating, waiting, accepts, ht]

theorem resolve_iff {h c f t} (hc : Public c) (ho : Offers c f) :
    (resolve h c f (.user t)).isSome = true ↔ Supported h t ∧ Fits f t := by
  rw [supported_iff]
  cases ht : traits h (.user t) with
  | none => simp [resolve_none ht]
  | some q =>
    obtain ⟨g, u⟩ := q
    rw [resolve_some hc ho ht]
    cases g with
    | duration =>
      obtain ⟨h1, h2, -⟩ := traits_duration ht
      cases f <;> simp [Fits, h1, h2]
      exact ho.elim
    | point =>
      obtain ⟨h1, h2, -⟩ := traits_point ht
      cases f <;> simp [Fits, h1, h2]
      exact ho.elim

theorem resolve_of_compiles {h c f t} (hc : Compiles h c f t) : (resolve h c f t).isSome = true := by
  obtain ⟨d, _, hd, _⟩ := hc
  simp [hd]

theorem fits_point {f : Fn} {g : Tag} {t : Time} (hf : Fits f t) (hd : g = .duration → IsDuration t ∧ ¬ IsPoint t) (hp : g = .point → IsPoint t ∧ ¬ IsDuration t) :
    ((f = .until_ ∨ f = .untilPred) → g = .point) ∧ ((f = .for_ ∨ f = .forPred) → g = .duration) := by
  cases g <;> cases f <;> simp_all [Fits]

end Verif.Instantiate
