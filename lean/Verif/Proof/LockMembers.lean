import Verif.Spec.LockMembers

namespace Verif.LockMembers

theorem usable_iff {has l m} : Usable has l m ↔ ∃ us, body l m = some us ∧ (∀ u ∈ us, accessible has l u) ∧ ∀ m', .own m' ∈ us → Usable has l m' := by
  constructor
  · rintro ⟨us, h1, h2, h3⟩; exact ⟨us, h1, h2, h3⟩
  · rintro ⟨us, h1, h2, h3⟩; exact .intro us h1 h2 h3

theorem usable_of_body {has l m us} (hb : body l m = some us) :
    Usable has l m ↔ (∀ u ∈ us, accessible has l u) ∧ ∀ m', .own m' ∈ us → Usable has l m' := by
  rw [usable_iff]
  constructor
  · rintro ⟨us', h1, h2⟩
    rw [hb] at h1
    cases h1
    exact h2
  · exact fun h => ⟨us, hb, h⟩

theorem simple_members {has l} :
    (Usable has l .lock ↔ has ("lock" ++ suffix l)) ∧ (Usable has l .tryLock ↔ has ("try_lock" ++ suffix l)) ∧
    (Usable has l .timedLock ↔ has ("timed_lock" ++ suffix l)) ∧ (Usable has l .dtor ↔ has ("unlock" ++ suffix l)) ∧ Usable has l .swap := by
  cases l <;> refine ⟨?_, ?_, ?_, ?_, ?_⟩ <;> rw [usable_of_body rfl] <;> simp [accessible, suffix]

theorem not_convert {has l s} : ¬ Usable has l (.convert s) := by
  intro h
  obtain ⟨us, hb, ha, -⟩ := usable_iff.1 h
  cases l <;> cases s <;> simp only [body, common, Option.some.injEq, reduceCtorEq] at hb <;> subst hb <;> simp [accessible] at ha

theorem not_assignFrom {has l s} : ¬ Usable has l (.assignFrom s) := by
  intro h
  obtain ⟨us, hb, -, ho⟩ := usable_iff.1 h
  cases l <;> cases s <;> simp only [body, common, Option.some.injEq, reduceCtorEq] at hb <;> subst hb <;>
    exact not_convert (ho _ (.head _))

end Verif.LockMembers
