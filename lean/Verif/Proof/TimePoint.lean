import Verif.Spec.TimePoint
import Verif.Props.Time

/-! Lemmas about the conversion of time points. -/

namespace Verif.TimePoint

open Verif.Time

theorem truncates_one {frac num den : Nat} {count r : Int} (h : Truncates frac num den count r) (hn : 0 < num) :
    Truncates frac 1 den (count * num) r := by
  have e : count * (num : Int) * (((1 : Nat) : Int) * frac) = count * (num * frac) := by simp [Int.mul_assoc]
  have hn' : (0 : Int) < num := by omega
  refine ⟨by rw [e]; exact h.close, fun hs => ?_, fun hs => ?_⟩
  · rw [e]; exact h.nonneg (Int.nonneg_of_mul_nonneg_left hs hn')
  · rw [e]; exact h.nonpos (Int.nonpos_of_mul_nonpos_left hs hn')

theorem signed_some {x r : Int} (h : signed x = some r) : r = x ∧ InS64 x := by
  unfold signed at h
  split at h
  · next hi => exact ⟨by simpa using h.symm, hi⟩
  · cases h

/-- The duration since 1970 is the time, truncated toward zero, and an `int64_t`. -/
theorem since_trunc {frac : Nat} {p : Point} {r : Int} (hf : 0 < frac) (hok : p.Ok frac) (h : since1970 frac p = some r) :
    Truncates frac 1 p.time.den p.time.num r := by
  cases p with
  | chrono num den count => exact truncates_one (C47_chrono_truncates hok.2 h) hok.1
  | chronoFrom offset num den count =>
    simp only [since1970] at h
    split at h
    · next hd =>
      simp only [Option.bind_eq_bind, Option.bind_eq_some_iff] at h
      obtain ⟨o, ho, c, hc, h⟩ := h
      have := truncates_one (C47_chrono_truncates hok.2 h) hok.1
      obtain ⟨rfl, -⟩ := signed_some ho
      obtain ⟨rfl, -⟩ := signed_some hc
      have e : (count + offset * ((den / num : Nat) : Int)) * num = count * num + offset * den := by
        have : ((den / num : Nat) : Int) * num = den := by exact_mod_cast Nat.div_mul_cancel hd
        rw [Int.add_mul, Int.mul_assoc, this]
      rw [e] at this
      exact this
    · cases h
  | dateTime tps ticks => exact C47_date_time_truncates_partial hf hok.1 hok.2.1 h
  | timespec t => cases h

theorem tdiv_in {x : Int} {b : Nat} (h : InS64 x) : InS64 (x.tdiv b) := by
  unfold InS64 at *
  rcases Int.le_total 0 x with hx | hx
  · have h1 : 0 ≤ x.tdiv b := Int.tdiv_nonneg hx (Int.natCast_nonneg _)
    have h2 : x.tdiv b ≤ x := Int.tdiv_le_self _ hx
    omega
  · have e : x.tdiv b = -((-x).tdiv b) := by rw [Int.neg_tdiv]; omega
    have h1 : 0 ≤ (-x).tdiv b := Int.tdiv_nonneg (by omega) (Int.natCast_nonneg _)
    have h2 : (-x).tdiv b ≤ -x := Int.tdiv_le_self _ (by omega)
    omega

theorem chrono_in {frac num den : Nat} {count r : Int} (h : ofChrono frac num den count = some r) : InS64 r := by
  simp only [ofChrono, Option.bind_eq_bind, Option.pure_def, Option.bind_eq_some_iff, Option.some.injEq] at h
  obtain ⟨q, hq, rfl⟩ := h
  obtain ⟨rfl, hi⟩ := signed_some hq
  exact tdiv_in hi

theorem since_in {frac : Nat} {p : Point} {r : Int} (hok : p.Ok frac) (h : since1970 frac p = some r) : InS64 r := by
  cases p with
  | chrono num den count => exact chrono_in h
  | chronoFrom offset num den count =>
    simp only [since1970] at h
    split at h
    · simp only [Option.bind_eq_bind, Option.bind_eq_some_iff] at h
      obtain ⟨o, -, c, -, h⟩ := h
      exact chrono_in h
    · cases h
  | dateTime tps ticks =>
    simp only [since1970, ofDateTime] at h
    split at h
    · simp only [Option.some.injEq] at h
      rw [← h]; exact tdiv_in hok.2.2
    · obtain ⟨rfl, hi⟩ := signed_some h; exact hi
  | timespec t => cases h

/-- Truncation of a time that is not negative rounds down. -/
theorem down {frac den : Nat} {num r : Int} (h : Truncates frac 1 den num r) (h0 : 0 ≤ num) : Seconds.RoundedDown ⟨num, den⟩ frac r := by
  obtain ⟨h1, -⟩ := h.close
  obtain ⟨-, h2⟩ := h.nonneg h0
  simp only [Int.natCast_one, Int.one_mul] at h1 h2
  exact ⟨h2, by simp only [Int.add_mul, Int.one_mul]; omega⟩

theorem ofTimespec_ok {t : Timespec} (h : t.Normal) : ofTimespec t = t := C47_timespec h

theorem winOfDuration_some {r v : Int} (h : winOfDuration r = some v) : InS64 (r * 10000) ∧ v = toU64 (r * 10000 + 116444736000000000) := by
  simp only [winOfDuration, Option.bind_eq_bind, Option.pure_def, Option.bind_eq_some_iff, Option.some.injEq] at h
  obtain ⟨q, hq, rfl⟩ := h
  obtain ⟨rfl, hi⟩ := signed_some hq
  refine ⟨hi, ?_⟩
  unfold toU64
  omega

/-- What a time point becomes on Windows: if the arithmetic does not overflow, units of 100 ns since 1601, less than one millisecond off. -/
theorem win_near {p : Point} {v : Int} (hok : p.Ok 1000) (h : win p = some v) (ht : ∀ t, p = .timespec t → -900000000000 ≤ t.sec ∧ t.sec ≤ 900000000000) :
    ∃ n, InS64 n ∧ v = toU64 (n + from1601 * 10000000) ∧ p.time.Near 10000000 10000 n ∧ (0 ≤ p.time.num → n * p.time.den ≤ p.time.num * 10000000) := by
  have key : ∀ r, since1970 1000 p = some r → winOfDuration r = some v →
      ∃ n, InS64 n ∧ v = toU64 (n + from1601 * 10000000) ∧ p.time.Near 10000000 10000 n ∧ (0 ≤ p.time.num → n * p.time.den ≤ p.time.num * 10000000) := by
    intro r hr hv
    have htr := since_trunc (by decide) hok hr
    obtain ⟨h1, h2⟩ := winOfDuration_some hv
    refine ⟨r * 10000, h1, h2, ?_, fun h0 => ?_⟩
    · obtain ⟨c1, c2⟩ := htr.close
      simp only [Int.natCast_one, Int.one_mul] at c1 c2
      have e : r * 10000 * (p.time.den : Int) = r * p.time.den * 10000 := by rw [Int.mul_assoc, Int.mul_comm 10000, Int.mul_assoc]
      simp only [Seconds.Near, Int.sub_mul, Int.add_mul, e]
      constructor <;> omega
    · obtain ⟨-, c⟩ := htr.nonneg h0
      simp only [Int.natCast_one, Int.one_mul] at c
      have e : r * 10000 * (p.time.den : Int) = r * p.time.den * 10000 := by rw [Int.mul_assoc, Int.mul_comm 10000, Int.mul_assoc]
      rw [e]
      omega
  cases p with
  | timespec u =>
    simp only [win, Option.some.injEq] at h
    have hs := ht u rfl
    have hlo := hok.lo; have hhi := hok.hi
    refine ⟨u.sec * 10000000 + u.nsec / 100, ?_, ?_, ?_, ?_⟩
    · unfold InS64 at *; omega
    · rw [← h]; unfold winOfTimeT toU64 from1601; omega
    · simp only [Seconds.Near, Point.time, Timespec.ns]; constructor <;> omega
    · intro _; simp only [Point.time, Timespec.ns]; omega
  | chrono num den count =>
    simp only [win, Option.bind_eq_some_iff] at h
    obtain ⟨r, hr, hv⟩ := h
    exact key r hr hv
  | chronoFrom offset num den count =>
    simp only [win, Option.bind_eq_some_iff] at h
    obtain ⟨r, hr, hv⟩ := h
    exact key r hr hv
  | dateTime tps ticks =>
    simp only [win, Option.bind_eq_some_iff] at h
    obtain ⟨r, hr, hv⟩ := h
    exact key r hr hv

end Verif.TimePoint
