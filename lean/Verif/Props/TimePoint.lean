import Verif.Proof.TimePoint

/-!
# Time points given by the user: property C108

For all time points of all types.
-/

namespace Verif.TimePoint

open Verif.Time

/-- **C108**, POSIX: a time point not before 1970 (any, if it is a `timespec`) reaches the system as a normalised time, rounded down to nanoseconds, if the arithmetic does
not overflow.  Missing: other time points before 1970. -/
theorem C108_posix_partial {p : Point} {t : Timespec} (hok : p.Ok 1000000000) (h : posix p = some t)
    (h0 : 0 ≤ p.time.num ∨ ∃ u, p = .timespec u) : t.Normal ∧ p.time.RoundedDown 1000000000 t.ns := by
  have key : ∀ r, since1970 1000000000 p = some r → t = ofDuration r → 0 ≤ p.time.num →
      t.Normal ∧ p.time.RoundedDown 1000000000 t.ns := by
    intro r hr ht h0
    have htr := since_trunc (by decide) hok hr
    obtain ⟨hn, hns⟩ := C43_of_duration_partial (htr.nonneg h0).1 (since_in hok hr)
    rw [ht, hns]
    exact ⟨hn, down htr h0⟩
  cases p with
  | timespec u =>
    simp only [posix, Option.some.injEq] at h
    have hu : t = u := by rw [← h]; exact ofTimespec_ok hok
    rw [hu]
    refine ⟨hok, ?_⟩
    simp only [Seconds.RoundedDown, Point.time]
    constructor <;> omega
  | chrono num den count =>
    simp only [posix, Option.map_eq_some_iff] at h
    obtain ⟨r, hr, rfl⟩ := h
    exact key r hr rfl (by simpa using h0)
  | chronoFrom offset num den count =>
    simp only [posix, Option.map_eq_some_iff] at h
    obtain ⟨r, hr, rfl⟩ := h
    exact key r hr rfl (by simpa using h0)
  | dateTime tps ticks =>
    simp only [posix, Option.map_eq_some_iff] at h
    obtain ⟨r, hr, rfl⟩ := h
    exact key r hr rfl (by simpa using h0)

/-- 18:00 on 1 January 1970 as a time point in hours. -/
example : posix (.chrono 3600 1 18) = some ⟨64800, 0⟩ ∧ (Point.chrono 3600 1 18).Ok 1000000000 ∧ 0 ≤ (Point.chrono 3600 1 18).time.num := by
  refine ⟨by decide, by simp [Point.Ok], by decide⟩
/-- A clock that counts microseconds from 2001, and one with milliseconds in Boost.DateTime. -/
example : posix (.chronoFrom 978307200 1 1000000 1500000) = some ⟨978307201, 500000000⟩ ∧ posix (.dateTime 1000 1700000000123) = some ⟨1700000000, 123000000⟩ := by decide
example : posix (.timespec ⟨-5, 3⟩) = some ⟨-5, 3⟩ := by decide

/-- **C108**, POSIX: a time point that is a whole number of nanoseconds reaches the system unchanged. -/
theorem C108_posix_exact {p : Point} {t : Timespec} (hok : p.Ok 1000000000) (h : posix p = some t) (h0 : 0 ≤ p.time.num ∨ ∃ u, p = .timespec u)
    (hw : ∃ n : Int, p.time.num * 1000000000 = n * p.time.den) : t.ns * p.time.den = p.time.num * 1000000000 := by
  obtain ⟨-, h1, h2⟩ := C108_posix_partial hok h h0
  obtain ⟨n, hn⟩ := hw
  have hn' : p.time.num * (1000000000 : Nat) = n * p.time.den := hn
  rw [hn'] at h1 h2
  rw [hn]
  by_cases hd : p.time.den = 0
  · simp [hd]
  have hd' : (0 : Int) < p.time.den := by omega
  have := Int.le_of_mul_le_mul_right h1 hd'
  have := Int.lt_of_mul_lt_mul_right h2 (by omega)
  rw [show t.ns = n by omega]

example : ∃ n : Int, (Point.chrono 1 1000 7).time.num * 1000000000 = n * (Point.chrono 1 1000 7).time.den := ⟨7000000, by decide⟩

/-- **C108 is false on POSIX for time points before 1970** (that are not a `timespec`): whatever the time, the system gets one after the year 2262, so that the wait blocks instead of
failing at once.  `time_point::min()` is such a time point. -/
theorem C108_posix_refuted {p : Point} {t : Timespec} (hok : p.Ok 1000000000) (h : posix p = some t) (hp : ∀ u, p ≠ .timespec u)
    (h0 : p.time.num * 1000000000 ≤ -p.time.den) (hd : 0 < p.time.den) : 2 ^ 63 ≤ t.ns := by
  have key : ∀ r, since1970 1000000000 p = some r → t = ofDuration r → 2 ^ 63 ≤ t.ns := by
    intro r hr ht
    have htr := since_trunc (by decide) hok hr
    have hin := since_in hok hr
    have hneg : r < 0 := by
      obtain ⟨h1, -⟩ := htr.nonpos (by omega)
      rcases Int.lt_or_eq_of_le h1 with hlt | heq
      · exact hlt
      · obtain ⟨-, hc⟩ := htr.close
        rw [heq] at hc
        simp only [Int.natCast_one, Int.one_mul, Int.zero_mul] at hc
        omega
    rw [ht, C43_of_duration_refuted hneg hin]
    unfold InS64 at hin
    omega
  cases p with
  | timespec u => exact absurd rfl (hp u)
  | chrono num den count =>
    simp only [posix, Option.map_eq_some_iff] at h
    obtain ⟨r, hr, rfl⟩ := h
    exact key r hr rfl
  | chronoFrom offset num den count =>
    simp only [posix, Option.map_eq_some_iff] at h
    obtain ⟨r, hr, rfl⟩ := h
    exact key r hr rfl
  | dateTime tps ticks =>
    simp only [posix, Option.map_eq_some_iff] at h
    obtain ⟨r, hr, rfl⟩ := h
    exact key r hr rfl

/-- `system_clock::time_point::min()` with nanoseconds, and one second before 1970. -/
example : posix (.chrono 1 1000000000 (-2 ^ 63)) = some ⟨9223372036, 854775808⟩ ∧ posix (.chrono 1 1 (-1)) = some ⟨18446744072, 709551616⟩ := by decide

/-- **C108**, Windows: a time point between 1601 and the year 30800 becomes an absolute time of the timer, off by less than a millisecond, and not after the time point if that is not before
1970.  Missing: other times. -/
theorem C108_windows_partial {p : Point} {v : Int} (hok : p.Ok 1000) (h : win p = some v) (ht : ∀ t, p = .timespec t → -900000000000 ≤ t.sec ∧ t.sec ≤ 900000000000)
    (hd : 0 < p.time.den) (h1 : (1 - from1601 * 1000) * p.time.den ≤ p.time.num * 1000) (h2 : p.time.num * 1000 ≤ 910000000000000 * p.time.den) :
    winTimer v = .at v ∧ p.time.Near 10000000 10000 (v - from1601 * 10000000) ∧
      (0 ≤ p.time.num → (v - from1601 * 10000000) * p.time.den ≤ p.time.num * 10000000) := by
  obtain ⟨n, hn, hv, hnear, hle⟩ := win_near hok h ht
  have hd' : (0 : Int) < p.time.den := by omega
  have b1 : -from1601 * 10000000 < n := by
    have := hnear.2
    simp only [Int.add_mul, Int.sub_mul] at this h1
    have h3 : (-from1601 * 10000000) * (p.time.den : Int) < n * p.time.den := by unfold from1601 at *; omega
    exact Int.lt_of_mul_lt_mul_right h3 (by omega)
  have b2 : n < 9100000000000010000 := by
    have := hnear.1
    simp only [Int.sub_mul] at this
    have h3 : n * (p.time.den : Int) < 9100000000000010000 * p.time.den := by omega
    exact Int.lt_of_mul_lt_mul_right h3 (by omega)
  have e : v = n + from1601 * 10000000 := by rw [hv]; unfold toU64 from1601 at *; omega
  have e' : v - from1601 * 10000000 = n := by omega
  rw [e']
  refine ⟨?_, hnear, hle⟩
  unfold winTimer
  rw [if_pos]
  unfold from1601 at *; omega

/-- 100 ns ticks, and a `timespec` of 1965. -/
example : win (.chrono 1 10000000 17000000000000000) = some 133444736000000000 ∧ win (.timespec ⟨-157766400, 300⟩) = some 114867072000000003 := by decide
example : (Point.chrono 1 10000000 17000000000000000).Ok 1000 ∧
    (1 - from1601 * 1000) * (Point.chrono 1 10000000 17000000000000000).time.den ≤ (Point.chrono 1 10000000 17000000000000000).time.num * 1000 := by
  refine ⟨by simp [Point.Ok], by decide⟩

/-- **C108 is false on Windows for fractions of a millisecond:** a time point of a clock with ticks of 100 ns (that of the system) that is not a whole number of milliseconds is reached too early by the timer. -/
theorem C108_windows_early_refuted {count v : Int} (h0 : 0 ≤ count) (hf : count % 10000 ≠ 0) (h : win (.chrono 1 10000000 count) = some v)
    (hb : count ≤ 9000000000000000000) : winTimer v = .at v ∧ v < count + from1601 * 10000000 := by
  have ht : ∀ t, Point.chrono 1 10000000 count = .timespec t → -900000000000 ≤ t.sec ∧ t.sec ≤ 900000000000 := fun t ht => by cases ht
  obtain ⟨ha, -, hle⟩ := C108_windows_partial (p := .chrono 1 10000000 count) (by simp [Point.Ok]) h ht (by simp [Point.time]) (by simp only [Point.time]; unfold from1601; omega)
    (by simp only [Point.time]; omega)
  refine ⟨ha, ?_⟩
  have hle := hle (by simpa [Point.time] using h0)
  simp only [Point.time] at hle
  simp only [win, Option.bind_eq_some_iff] at h
  obtain ⟨r, hr, hv⟩ := h
  have hr0 := ((since_trunc (p := .chrono 1 10000000 count) (by decide) (by simp [Point.Ok]) hr).nonneg (by simpa [Point.time] using h0)).1
  obtain ⟨hi, hv⟩ := winOfDuration_some hv
  have hu : v = r * 10000 + 116444736000000000 := by
    rw [hv]; exact Int.emod_eq_of_lt (by omega) (by unfold InS64 at hi; omega)
  have hm : (v - from1601 * 10000000) % 10000 = 0 := by
    rw [show v - from1601 * 10000000 = r * 10000 by unfold from1601; omega, Int.mul_emod_left]
  have : (v - from1601 * 10000000) ≤ count := by omega
  have : (v - from1601 * 10000000) ≠ count := by intro e; rw [e] at hm; exact hf hm
  omega

example : win (.chrono 1 10000000 17000000000009999) = some (133444736000000000) := by decide

/-- **C108 is false on Windows for time points before 1601:** the timer takes them for durations; the wait blocks for as long as the time point precedes 1601 (less a millisecond at most).  `time_point::min()` is one. -/
theorem C108_windows_refuted {p : Point} {v : Int} (hok : p.Ok 1000) (h : win p = some v) (ht : ∀ t, p = .timespec t → -900000000000 ≤ t.sec ∧ t.sec ≤ 900000000000)
    (hd : 0 < p.time.den) (h1 : p.time.num * 1000 ≤ -(from1601 * 1000 + 1) * p.time.den) :
    ∃ d, winTimer v = .after d ∧ 0 < d ∧ (d + 10000) * p.time.den > -(p.time.num + from1601 * p.time.den) * 10000000 := by
  obtain ⟨n, hn, hv, hnear, -⟩ := win_near hok h ht
  have b1 : n < -from1601 * 10000000 := by
    have := hnear.1
    simp only [Int.sub_mul, Int.neg_mul, Int.add_mul] at this h1
    have h3 : n * (p.time.den : Int) < (-from1601 * 10000000) * p.time.den := by unfold from1601 at *; omega
    exact Int.lt_of_mul_lt_mul_right h3 (by omega)
  have e : v = n + from1601 * 10000000 + 2 ^ 64 := by rw [hv]; unfold toU64 from1601 InS64 at *; omega
  refine ⟨-(n + from1601 * 10000000), ?_, by omega, ?_⟩
  · unfold winTimer
    rw [if_neg (by unfold InS64 from1601 at *; omega), e]
    congr 1
    omega
  · have := hnear.1
    simp only [Int.sub_mul, Int.add_mul, Int.neg_mul] at this ⊢
    unfold from1601
    omega

/-- `system_clock::time_point::min()`: the wait takes 28858 years. -/
example : (win (.chrono 1 10000000 (-2 ^ 63))).map winTimer = some (.after 9106927300854770000) := by decide

end Verif.TimePoint
