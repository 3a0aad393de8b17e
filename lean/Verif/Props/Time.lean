import Verif.Proof.Time

/-! # C43-C47, C52: time arithmetic -/

namespace Verif.Time

/-! ## C43: adding a duration (POSIX) -/

/-- Adding is exact and the result normalised as long as the nanoseconds of the sum stay within `[0, 2^63)`.  Missing: negative
durations that exceed the nanoseconds of the time point (`C43_refuted`), and durations within one second of the largest one
(`C43_overflow_refuted`). -/
theorem C43_add_exact_partial {t : Timespec} {dur : Int} (ht : t.Normal) (h0 : 0 ≤ t.nsec + dur) (h1 : t.nsec + dur < 2 ^ 63)
    (hr : Representable (t.ns + dur)) : ∃ r, add t dur = some r ∧ r.Normal ∧ r.ns = t.ns + dur := by
  have := add_general ht (dur := dur) ⟨by omega, h1⟩ (by rw [if_neg (by omega), Int.add_zero]; exact hr)
  rw [if_neg (by omega), Int.add_zero] at this
  exact this

theorem C43_sub_exact_partial {t : Timespec} {dur : Int} (ht : t.Normal) (hd : InS64 (-dur)) (h0 : 0 ≤ t.nsec - dur)
    (h1 : t.nsec - dur < 2 ^ 63) (hr : Representable (t.ns - dur)) :
    ∃ r, sub t dur = some r ∧ r.Normal ∧ r.ns = t.ns - dur := by
  have := C43_add_exact_partial (dur := -dur) ht (by omega) (by omega) (by rw [← Int.sub_eq_add_neg]; exact hr)
  rw [← Int.sub_eq_add_neg] at this
  simpa only [sub, signed, hd, if_true, Option.bind_eq_bind, Option.bind_some] using this

/-- The time point at a non-negative distance from the epoch. -/
theorem C43_of_duration_partial {dur : Int} (h0 : 0 ≤ dur) (h : InS64 dur) :
    (ofDuration dur).Normal ∧ (ofDuration dur).ns = dur := by
  unfold InS64 at h
  unfold ofDuration FRAC
  rw [toU64_of_nonneg h0 (by omega), toS64_of_in (by unfold InS64; omega), toS64_of_in (by unfold InS64; omega)]
  exact ⟨⟨by unfold InS64; simp only; omega, by simp only; omega, by simp only; omega⟩, by unfold Timespec.ns; simp only; omega⟩

/-- Whenever a negative duration exceeds the nanoseconds of the time point, the result is wrong: 2^64 ns (584 years) late.
(`%` and `/` are unsigned because `subsecond_fraction` is; the correction for negative remainders is never executed.) -/
theorem C43_refuted {t : Timespec} {dur : Int} (ht : t.Normal) (hd : InS64 dur) (hn : t.nsec + dur < 0)
    (hr : Representable (t.ns + dur + 2 ^ 64)) :
    ∃ r, add t dur = some r ∧ r.Normal ∧ r.ns = t.ns + dur + 2 ^ 64 := by
  have h0 := ht.lo
  have hin : InS64 (t.nsec + dur) := by unfold InS64 at *; omega
  have := add_general ht hin (by rw [if_pos hn]; exact hr)
  rw [if_pos hn] at this
  exact this

/-- Likewise time points before the epoch. -/
theorem C43_of_duration_refuted {dur : Int} (h0 : dur < 0) (h : InS64 dur) : (ofDuration dur).ns = dur + 2 ^ 64 := by
  unfold InS64 at h
  unfold ofDuration FRAC
  rw [toU64_of_neg h0 (by omega), toS64_of_in (by unfold InS64; omega), toS64_of_in (by unfold InS64; omega)]
  unfold Timespec.ns
  simp only
  omega

/-- The sum of nanoseconds may overflow although the sum of the times is representable. -/
theorem C43_overflow_refuted : ∃ (t : Timespec) (dur : Int), t.Normal ∧ InS64 dur ∧ Representable (t.ns + dur) ∧ add t dur = none :=
  ⟨⟨0, 1⟩, 2 ^ 63 - 1, ⟨by decide, by decide, by decide⟩, by decide, (representable_iff _).mpr (by decide), by decide⟩

example : add ⟨1700000000, 999999999⟩ 1500000001 = some ⟨1700000002, 500000000⟩ := by decide
example : add ⟨1700000000, 5⟩ (-1000000000) = some ⟨20146744072, 709551621⟩ := by decide
example : Timespec.Normal ⟨1700000000, 5⟩ ∧ InS64 (-1000000000) ∧ (5 : Int) + -1000000000 < 0 ∧
    Representable ((⟨1700000000, 5⟩ : Timespec).ns + -1000000000 + 2 ^ 64) :=
  ⟨⟨by decide, by decide, by decide⟩, by decide, by decide, (representable_iff _).mpr (by decide)⟩

/-! ## C44: difference (POSIX) -/

/-- The difference is the exact signed number of nanoseconds. -/
theorem C44_difference_exact {a b : Timespec} (ha : a.Normal) (hb : b.Normal) (h : InS64 (a.ns - b.ns)) :
    diff a b = some (a.ns - b.ns) := diff_exact ha hb h

/-- `b + (a - b)` is `a` unless `a` lies so far before `b` that `C43_refuted` applies. -/
theorem C44_inverse_partial {a b : Timespec} (ha : a.Normal) (hb : b.Normal) (h0 : 0 ≤ b.nsec + (a.ns - b.ns))
    (h1 : b.nsec + (a.ns - b.ns) < 2 ^ 63) : (diff a b).bind (add b) = some a := by
  have k0 := hb.lo
  have k1 := hb.hi
  rw [diff_exact ha hb (by unfold InS64; omega), Option.bind_some]
  obtain ⟨r, h1, h2, h3⟩ := C43_add_exact_partial hb h0 h1 (by
    rw [show b.ns + (a.ns - b.ns) = a.ns by omega]; exact ⟨a, ha, rfl⟩)
  rw [h1, ns_inj h2 ha (by omega)]

/-- It is not `a` for instance one second back. -/
theorem C44_refuted : ∃ a b : Timespec, a.Normal ∧ b.Normal ∧ InS64 (a.ns - b.ns) ∧ (diff a b).bind (add b) ≠ some a :=
  ⟨⟨1699999999, 0⟩, ⟨1700000000, 0⟩, ⟨by decide, by decide, by decide⟩, ⟨by decide, by decide, by decide⟩, by decide, by decide⟩

example : (diff ⟨1700000001, 1⟩ ⟨1700000000, 999999999⟩) = some 2 ∧
    (diff ⟨1700000001, 1⟩ ⟨1700000000, 999999999⟩).bind (add ⟨1700000000, 999999999⟩) = some ⟨1700000001, 1⟩ := by decide

/-! ## C45: non-positive relative timeouts do not block -/

/-- On futexes, Windows, libdispatch and Mach a non-positive timeout requests no waiting; on POSIX this holds as long as the
timeout does not exceed the nanoseconds of the current time. -/
theorem C45_no_blocking_partial {i : Impl} {now : Timespec} {dur : Int} (hn : now.Normal) (h0 : dur ≤ 0)
    (hp : i = .posix → 0 ≤ now.nsec + dur ∧ Representable (now.ns + dur)) :
    ∃ r, request i now dur = some r ∧ r.blocks now ≤ 0 := by
  have hlt := hn.hi
  cases i with
  | posix =>
    obtain ⟨h1, h2⟩ := hp rfl
    obtain ⟨r, hr, _, hns⟩ := C43_add_exact_partial hn h1 (by omega) h2
    refine ⟨.absolute r, by simp [request, hr], ?_⟩
    simp only [Request.blocks]
    omega
  | futex => exact ⟨.nothing, by simp [request, h0], Int.le_refl _⟩
  | windows =>
    refine ⟨_, rfl, ?_⟩
    simp only [Request.blocks]
    split <;> omega
  | dispatch =>
    refine ⟨_, rfl, ?_⟩
    rw [if_neg (by omega)]
    exact Int.le_refl _
  | mach =>
    refine ⟨_, rfl, ?_⟩
    simp only [Request.blocks]
    split <;> omega

/-- A duration that does not lead to an earlier second, and one that does, on a platform where that is no problem. -/
example : ∃ now : Timespec, now.Normal ∧ (-1000 : Int) ≤ 0 ∧ 0 ≤ now.nsec + -1000 ∧ Representable (now.ns + -1000) ∧ now.nsec + -1000000000 < 0 :=
  ⟨⟨1700000000, 5000⟩, ⟨by decide, by decide, by decide⟩, by decide, by decide, (representable_iff _).mpr (by decide), by decide⟩

/-- Any other non-positive timeout (e.g. every one of a second or more) makes `timed_mutex`, `condition_variable` and
`semaphore` on POSIX wait for at least 292 years. -/
theorem C45_refuted {now : Timespec} {dur : Int} (hn : now.Normal) (hd : InS64 dur) (h : now.nsec + dur < 0)
    (hr : Representable (now.ns + dur + 2 ^ 64)) :
    ∃ r, request .posix now dur = some r ∧ r.blocks now ≥ 2 ^ 63 := by
  obtain ⟨r, h1, _, h2⟩ := C43_refuted hn hd h hr
  refine ⟨.absolute r, by simp [request, h1], ?_⟩
  unfold InS64 at hd
  simp only [Request.blocks]
  omega

example : ∃ r, request .posix ⟨1700000000, 123⟩ (-1000000000) = some r ∧ r.blocks ⟨1700000000, 123⟩ ≥ 2 ^ 63 :=
  C45_refuted ⟨by decide, by decide, by decide⟩ (by decide) (by decide) ((representable_iff _).mpr (by decide))

/-! ## C46: Windows -/

/-- Adding and subtracting durations whose length in 100 ns units fits is exact modulo 2^64. -/
theorem C46_add_exact {t dur : Int} (hp : InS64 (dur * 10000)) :
    ∃ r k, winAdd t dur = some r ∧ InU64 r ∧ r = t + dur * 10000 + k * 2 ^ 64 := by
  refine ⟨toU64 (t + toU64 (dur * 10000)), -((t + dur * 10000) / 2 ^ 64), by simp [winAdd, signed, hp], ?_, ?_⟩
  · unfold InU64 toU64; omega
  · unfold toU64; omega

theorem C46_sub_exact {t dur : Int} (hp : InS64 (dur * 10000)) :
    ∃ r k, winSub t dur = some r ∧ InU64 r ∧ r = t - dur * 10000 + k * 2 ^ 64 := by
  refine ⟨toU64 (t - toU64 (dur * 10000)), -((t - dur * 10000) / 2 ^ 64), by simp [winSub, signed, hp], ?_, ?_⟩
  · unfold InU64 toU64; omega
  · unfold toU64; omega

/-- In particular the sum is exact if it is a time point. -/
theorem C46_add_in_range {t dur : Int} (hp : InS64 (dur * 10000)) (hr : InU64 (t + dur * 10000)) :
    winAdd t dur = some (t + dur * 10000) := by
  obtain ⟨r, k, h1, h2, h3⟩ := C46_add_exact (t := t) hp
  have : r = t + dur * 10000 := by unfold InU64 at *; omega
  rw [h1, this]

/-- Time points from the Unix epoch: 11644473600 seconds after 1601-01-01. -/
theorem C46_epoch {dur : Int} (hp : InS64 (dur * 10000)) (hr : InU64 (dur * 10000 + 11644473600 * 10000000)) :
    winOfDuration dur = some (dur * 10000 + 11644473600 * 10000000) := by
  simp only [winOfDuration, signed, hp, if_true, Option.bind_eq_bind, Option.bind_some, Option.pure_def, Option.some.injEq]
  unfold toU64 InU64 at *
  omega

theorem C46_time_t {t sub : Int} (hr : InU64 (t * 10000000 + sub + 11644473600 * 10000000)) :
    winOfTimeT t sub = t * 10000000 + sub + 11644473600 * 10000000 := by
  unfold winOfTimeT toU64 InU64 at *
  omega

example : InS64 (86400000 * 10000) ∧ InU64 (86400000 * 10000 + 11644473600 * 10000000) ∧ winOfDuration 86400000 = some 116445600000000000 ∧
    InU64 (-5 * 10000000 + 7 + 11644473600 * 10000000) ∧ winOfTimeT (-5) 7 = 116444735950000007 := by decide

/-- The difference of two time points less than 2^63 units apart is their distance in milliseconds, truncated toward zero. -/
theorem C46_difference {a b : Int} (h : InS64 (a - b)) : Truncates 1000 1 10000000 (a - b) (winDiff a b) := by
  have e : toS64 (toU64 (a - b)) = a - b := by unfold toS64 toU64 InS64 at *; omega
  obtain ⟨h1, h2⟩ := tdiv_spec (a := a - b) (b := 10000) (by decide)
  rw [show ((10000 : Nat) : Int) = 10000 from rfl] at h1 h2
  unfold winDiff
  rw [e]
  rcases Int.le_total 0 (a - b) with hs | hs
  · obtain ⟨k1, k2, k3⟩ := h1 hs
    refine ⟨by constructor <;> omega, fun _ => ⟨k1, by omega⟩, fun hz => ?_⟩
    have : a - b = 0 := by omega
    rw [this]; simp
  · obtain ⟨k1, k2, k3⟩ := h2 hs
    refine ⟨by constructor <;> omega, fun hz => ?_, fun _ => ⟨k1, by omega⟩⟩
    have : a - b = 0 := by omega
    rw [this]; simp

example : winAdd 133444736000000000 (-5000) = some (133444736000000000 - 50000000) ∧
    winDiff 133444736000000000 133444736000019999 = -1 := by decide

/-! ## C47: conversion of user durations -/

theorem chrono_parts {frac num den : Nat} (hd : 0 < den) :
    ∃ A B g : Nat, g = Nat.gcd (num * frac) den ∧ num * frac / g = A ∧ den / g = B ∧ num * frac = A * g ∧ den = B * g ∧
      0 < g ∧ 0 < B := by
  have hg : 0 < Nat.gcd (num * frac) den := Nat.gcd_pos_of_pos_right _ hd
  refine ⟨_, _, _, rfl, rfl, rfl, (Nat.div_mul_cancel (Nat.gcd_dvd_left _ _)).symm,
    (Nat.div_mul_cancel (Nat.gcd_dvd_right _ _)).symm, hg, ?_⟩
  exact Nat.div_pos (Nat.le_of_dvd hd (Nat.gcd_dvd_right _ _)) hg

/-- A chrono duration is truncated toward zero by less than one unit, whenever the intermediate product fits. -/
theorem C47_chrono_truncates {frac num den : Nat} {count r : Int} (hd : 0 < den) (h : ofChrono frac num den count = some r) :
    Truncates frac num den count r := by
  obtain ⟨A, B, g, hg, hA, hB, e1, e2, hgp, hBp⟩ := chrono_parts (frac := frac) (num := num) hd
  simp only [ofChrono, ← hg, hA, hB, Option.bind_eq_bind, Option.pure_def, Option.bind_eq_some_iff, Option.some.injEq, signed] at h
  obtain ⟨p, hp, rfl⟩ := h
  split at hp
  · next hin =>
    simp only [Option.some.injEq] at hp
    subst hp
    have hg' : (0 : Int) < g := by omega
    have hA0 : (0 : Int) ≤ A := by omega
    have c1 : count * (num * frac : Int) = count * A * g := by
      have : (num : Int) * frac = A * g := by exact_mod_cast e1
      rw [this, Int.mul_assoc]
    have c2 : ∀ x : Int, x * (den : Int) = x * B * g := by
      intro x
      have : (den : Int) = B * g := by exact_mod_cast e2
      rw [this, Int.mul_assoc]
    have c3 : (den : Int) = B * g := by exact_mod_cast e2
    obtain ⟨k1, k2⟩ := tdiv_spec (a := count * A) hBp
    have scale : ∀ {x y : Int}, x < y → x * g < y * g := fun h => Int.mul_lt_mul_of_pos_right h hg'
    have scale' : ∀ {x y : Int}, x ≤ y → x * g ≤ y * g := fun h => Int.mul_le_mul_of_nonneg_right h (by omega)
    rcases Int.le_total 0 count with hs | hs
    · have hca : 0 ≤ count * A := Int.mul_nonneg hs hA0
      obtain ⟨j1, j2, j3⟩ := k1 hca
      have j2' := scale' j2
      have j3' := scale j3
      rw [Int.add_mul] at j3'
      refine ⟨?_, fun _ => ⟨j1, by rw [c1, c2]; exact j2'⟩, fun hz => ?_⟩
      · rw [c1, c2, c3]
        have : (0 : Int) < B * g := Int.mul_pos (by omega) hg'
        omega
      · have : count = 0 := by omega
        subst this
        simp
    · have hca : count * A ≤ 0 := Int.mul_nonpos_of_nonpos_of_nonneg hs hA0
      obtain ⟨j1, j2, j3⟩ := k2 hca
      have j2' := scale' j2
      have j3' := scale j3
      rw [Int.sub_mul] at j3'
      refine ⟨?_, fun hz => ?_, fun _ => ⟨j1, by rw [c1, c2]; exact j2'⟩⟩
      · rw [c1, c2, c3]
        have : (0 : Int) < B * g := Int.mul_pos (by omega) hg'
        omega
      · have : count = 0 := by omega
        subst this
        simp
  · cases hp

/-- It is exact when a tick is a whole number of units. -/
theorem C47_chrono_exact {frac num den : Nat} {count r : Int} (hd : 0 < den) (hfine : den ∣ num * frac)
    (h : ofChrono frac num den count = some r) : r * den = count * (num * frac) := by
  have hg : Nat.gcd (num * frac) den = den := Nat.gcd_eq_right hfine
  simp only [ofChrono, hg, Nat.div_self hd, Option.bind_eq_bind, Option.pure_def, Option.bind_eq_some_iff,
    Option.some.injEq, signed] at h
  obtain ⟨p, hp, rfl⟩ := h
  split at hp
  · simp only [Option.some.injEq] at hp
    subst hp
    obtain ⟨q, hq⟩ := hfine
    have e : (num : Int) * frac = den * q := by exact_mod_cast hq
    have hdiv : num * frac / den = q := by rw [hq, Nat.mul_div_cancel_left _ hd]
    rw [hdiv, e]
    simp [Int.mul_comm, Int.mul_left_comm]
  · cases hp

/-- The product fits and the conversion succeeds if the result and the count are small enough; it is monotone. -/
theorem C47_chrono_monotone {frac num den : Nat} {c c' r r' : Int} (hd : 0 < den) (hc : c ≤ c')
    (h : ofChrono frac num den c = some r) (h' : ofChrono frac num den c' = some r') : r ≤ r' := by
  obtain ⟨A, B, g, hg, hA, hB, e1, e2, hgp, hBp⟩ := chrono_parts (frac := frac) (num := num) hd
  simp only [ofChrono, ← hg, hA, hB, Option.bind_eq_bind, Option.pure_def, Option.bind_eq_some_iff, Option.some.injEq, signed] at h h'
  obtain ⟨p, hp, rfl⟩ := h
  obtain ⟨p', hp', rfl⟩ := h'
  split at hp
  · split at hp'
    · simp only [Option.some.injEq] at hp hp'
      subst hp hp'
      exact tdiv_mono hBp (Int.mul_le_mul_of_nonneg_right hc (by omega))
    · cases hp'
  · cases hp

/-- date_time durations are truncated toward zero by less than one unit if the resolution divides the unit or vice versa, as
for all resolutions of Boost.DateTime (powers of ten). -/
theorem C47_date_time_truncates_partial {frac tps : Nat} {ticks r : Int} (hf : 0 < frac) (ht : 0 < tps)
    (hdiv : tps ∣ frac ∨ frac ∣ tps) (h : ofDateTime frac tps ticks = some r) : Truncates frac 1 tps ticks r := by
  have hmul : ∀ q : Nat, tps * q = frac → r = ticks * q → Truncates frac 1 tps ticks r := by
    intro q hq hr
    have e : (frac : Int) = tps * q := by exact_mod_cast hq.symm
    have he : r * (tps : Int) = ticks * (((1 : Nat) : Int) * frac) := by
      rw [hr, e]; simp [Int.mul_comm, Int.mul_left_comm]
    have hq0 : (0 : Int) ≤ q := by omega
    refine ⟨by constructor <;> omega, fun hs => ⟨?_, by omega⟩, fun hs => ⟨?_, by omega⟩⟩
    · rw [hr]; exact Int.mul_nonneg hs hq0
    · rw [hr]; exact Int.mul_nonpos_of_nonpos_of_nonneg hs hq0
  unfold ofDateTime at h
  split at h
  · next hge =>
    simp only [Option.some.injEq] at h
    have hdiv' : frac ∣ tps := by
      rcases hdiv with hd | hd
      · have := Nat.le_of_dvd hf hd
        have : tps = frac := by omega
        rw [this]; exact Nat.dvd_refl _
      · exact hd
    obtain ⟨q, hq⟩ := hdiv'
    have hq0 : 0 < q := by
      rcases Nat.eq_zero_or_pos q with h0 | h0
      · rw [h0] at hq; omega
      · exact h0
    rw [hq, Nat.mul_div_cancel_left _ hf] at h
    have e : (tps : Int) = q * frac := by rw [hq, Nat.mul_comm]; exact_mod_cast rfl
    have hf' : (0 : Int) < frac := by omega
    obtain ⟨k1, k2⟩ := tdiv_spec (a := ticks) hq0
    rw [h] at k1 k2
    have c2 : ∀ x : Int, x * (tps : Int) = x * q * frac := by intro x; rw [e, Int.mul_assoc]
    have scale : ∀ {x y : Int}, x < y → x * frac < y * frac := fun h => Int.mul_lt_mul_of_pos_right h hf'
    have scale' : ∀ {x y : Int}, x ≤ y → x * frac ≤ y * frac := fun h => Int.mul_le_mul_of_nonneg_right h (by omega)
    have hpos : (0 : Int) < q * frac := Int.mul_pos (by omega) hf'
    have c1 : ticks * (((1 : Nat) : Int) * frac) = ticks * frac := by simp
    rcases Int.le_total 0 ticks with hs | hs
    · obtain ⟨j1, j2, j3⟩ := k1 hs
      have j2' := scale' j2
      have j3' := scale j3
      rw [Int.add_mul] at j3'
      refine ⟨by rw [c1, c2, e]; omega, fun _ => ⟨j1, by rw [c1, c2]; exact j2'⟩, fun hz => ?_⟩
      have hz : ticks = 0 := by omega
      rw [hz] at h
      rw [hz, ← h]; simp
    · obtain ⟨j1, j2, j3⟩ := k2 hs
      have j2' := scale' j2
      have j3' := scale j3
      rw [Int.sub_mul] at j3'
      refine ⟨by rw [c1, c2, e]; omega, fun hz => ?_, fun _ => ⟨j1, by rw [c1, c2]; exact j2'⟩⟩
      have hz : ticks = 0 := by omega
      rw [hz] at h
      rw [hz, ← h]; simp
  · next hlt =>
    unfold signed at h
    split at h
    · simp only [Option.some.injEq] at h
      have hdiv' : tps ∣ frac := by
        rcases hdiv with hd | hd
        · exact hd
        · exact absurd (Nat.le_of_dvd ht hd) (by omega)
      obtain ⟨q, hq⟩ := hdiv'
      rw [hq, Nat.mul_div_cancel_left _ ht] at h
      exact hmul q hq.symm h.symm
    · cases h

theorem C47_date_time_monotone {frac tps : Nat} {c c' r r' : Int} (hf : 0 < frac) (hc : c ≤ c')
    (h : ofDateTime frac tps c = some r) (h' : ofDateTime frac tps c' = some r') : r ≤ r' := by
  unfold ofDateTime at h h'
  split at h
  · next hge =>
    simp only [hge, if_true] at h'
    simp only [Option.some.injEq] at h h'
    subst h h'
    exact tdiv_mono (Nat.div_pos hge hf) hc
  · next hlt =>
    simp only [hlt, if_false, signed] at h h'
    split at h
    · split at h'
      · simp only [Option.some.injEq] at h h'
        subst h h'
        exact Int.mul_le_mul_of_nonneg_right hc (Int.natCast_nonneg _)
      · cases h'
    · cases h

/-- For other resolutions the ratio itself is truncated and the error grows with the duration: with 3 ticks per second, one
year is almost a tenth of a second short. -/
theorem C47_date_time_refuted : ofDateTime 1000000000 3 (3 * 31536000) = some (31536000 * 1000000000 - 31536000) := by decide

/-- `timespec` time points are taken over unchanged. -/
theorem C47_timespec {t : Timespec} (ht : t.Normal) : ofTimespec t = t := by
  have := ht.lo; have := ht.hi
  unfold ofTimespec
  rw [show t.nsec % 2 ^ 32 = t.nsec by omega]

example : ofChrono 1000000000 1 1000 (-7) = some (-7000000) ∧ ofChrono 1000 1 1000000000 (-1999999) = some (-1) ∧
    ofChrono 1000000000 60 1 5 = some 300000000000 ∧ ofChrono 1000 1 3 2 = some 666 ∧
    ofDateTime 1000000000 1000000 12 = some 12000 ∧ ofDateTime 1000 1000000 (-1500) = some (-1) := by decide
example : (1000000 ∣ 1000000000) ∧ (1000 ∣ 1000 * 1000000000) := by decide

/-! ## C52: the timeout handed to the futex -/

theorem C52_futex_timeout {n : Int} (h0 : 0 < n) (h : InS64 n) :
    (futexTimeout n).Normal ∧ (futexTimeout n).ns = n := by
  unfold InS64 at h
  unfold futexTimeout
  rw [toU64_of_nonneg (by omega) (by omega), toS64_of_in (by unfold InS64; omega), toS64_of_in (by unfold InS64; omega)]
  exact ⟨⟨by unfold InS64; simp only; omega, by simp only; omega, by simp only; omega⟩, by unfold Timespec.ns; simp only; omega⟩

example : futexTimeout 1999999999 = ⟨1, 999999999⟩ ∧ futexTimeout (2 ^ 63 - 1) = ⟨9223372036, 854775807⟩ := by decide

/-! ## The Mach semaphore -/

/-- The timeout given to the Mach kernel is exact below 2^32 seconds (136 years). -/
theorem C71_mach_timeout_partial {n : Int} (h0 : 0 ≤ n) (h : n < 2 ^ 32 * 1000000000) : (machTimeout n).ns = n := by
  unfold machTimeout FRAC
  simp only [if_neg (show ¬ n < 0 by omega)]
  rw [toU64_of_nonneg (by omega) (by omega), toS64_of_in (by unfold InS64; omega), toS64_of_in (by unfold InS64; omega)]
  unfold Timespec.ns
  simp only
  omega

example : (0 : Int) ≤ 4294967295999999999 ∧ (4294967295999999999 : Int) < 2 ^ 32 * 1000000000 ∧ (machTimeout 4294967295999999999).ns = 4294967295999999999 := by decide

/-- Above, the seconds are truncated to 32 bits: a wait of 2^32 seconds becomes one of zero seconds. -/
theorem C71_refuted : InS64 (2 ^ 32 * 1000000000) ∧ (machTimeout (2 ^ 32 * 1000000000)).ns = 0 := by decide

end Verif.Time
