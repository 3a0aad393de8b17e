import Verif.Spec.Time

namespace Verif.Time

theorem toU64_of_nonneg {x : Int} (h0 : 0 ≤ x) (h1 : x < 2 ^ 64) : toU64 x = x := by unfold toU64; omega

theorem toU64_of_neg {x : Int} (h0 : x < 0) (h1 : -2 ^ 64 ≤ x) : toU64 x = x + 2 ^ 64 := by unfold toU64; omega

theorem toS64_of_in {x : Int} (h : InS64 x) : toS64 x = x := by unfold toS64; unfold InS64 at h; omega

/-- The branch `tv_nsec < 0` of `operator+=` is never taken, and the result is the quotient and remainder of the sum of
nanoseconds converted to `uint64_t`. -/
theorem add_eq {t : Timespec} {dur : Int} (h : InS64 (t.nsec + dur)) :
    add t dur = some ⟨toS64 (toU64 (toU64 t.sec + toU64 (t.nsec + dur) / 1000000000)), toU64 (t.nsec + dur) % 1000000000⟩ := by
  have h1 : toS64 (toU64 (t.nsec + dur) % 1000000000) = toU64 (t.nsec + dur) % 1000000000 := by
    unfold toS64 toU64; omega
  have h2 : ¬ toU64 (t.nsec + dur) % 1000000000 < 0 := by unfold toU64; omega
  simp only [add, signed, h, if_true, FRAC, h1, h2, if_false, Option.bind_eq_bind, Option.bind_some, Option.pure_def]

theorem add_none {t : Timespec} {dur : Int} (h : ¬ InS64 (t.nsec + dur)) : add t dur = none := by
  simp [add, signed, h]

/-- The seconds are added modulo 2^64 and converted back. -/
theorem sec_eq (s q : Int) : toS64 (toU64 (toU64 s + q)) = toS64 (s + q) := by
  unfold toS64 toU64; omega

theorem representable_iff (n : Int) : Representable n ↔ -9223372036854775808000000000 ≤ n ∧ n < 9223372036854775808000000000 := by
  constructor
  · rintro ⟨t, ⟨h1, h2, h3⟩, rfl⟩
    unfold InS64 at h1; unfold Timespec.ns; omega
  · intro h
    refine ⟨⟨n / 1000000000, n % 1000000000⟩, ⟨?_, ?_, ?_⟩, ?_⟩
    · unfold InS64; simp only; omega
    · simp only; omega
    · simp only; omega
    · unfold Timespec.ns; simp only; omega

/-- Normalised time points are determined by what they denote. -/
theorem ns_inj {a b : Timespec} (ha : a.Normal) (hb : b.Normal) (h : a.ns = b.ns) : a = b := by
  obtain ⟨as, an⟩ := a
  obtain ⟨bs, bn⟩ := b
  have h1 := ha.lo; have h2 := ha.hi; have h3 := hb.lo; have h4 := hb.hi
  simp only [Timespec.ns] at h h1 h2 h3 h4
  have : as = bs := by omega
  have : an = bn := by omega
  simp_all

/-- What adding a duration yields in general: the exact sum if the nanoseconds stay non-negative, and 2^64 ns more if they
become negative. -/
theorem add_general {t : Timespec} {dur : Int} (ht : t.Normal) (h : InS64 (t.nsec + dur))
    (hr : Representable (t.ns + dur + if t.nsec + dur < 0 then 2 ^ 64 else 0)) :
    ∃ r, add t dur = some r ∧ r.Normal ∧ r.ns = t.ns + dur + if t.nsec + dur < 0 then 2 ^ 64 else 0 := by
  rw [representable_iff] at hr
  have h1 := ht.sec; have h2 := ht.lo; have h3 := ht.hi
  refine ⟨_, add_eq h, ?_⟩
  unfold InS64 at h h1
  unfold Timespec.ns at hr
  by_cases hn : t.nsec + dur < 0
  · rw [if_pos hn] at hr
    rw [if_pos hn, toU64_of_neg hn (by omega), sec_eq,
      toS64_of_in (by unfold InS64; omega)]
    refine ⟨⟨?_, ?_, ?_⟩, ?_⟩
    · unfold InS64; simp only; omega
    · simp only; omega
    · simp only; omega
    · unfold Timespec.ns; simp only; omega
  · rw [if_neg hn] at hr
    rw [if_neg hn, toU64_of_nonneg (x := t.nsec + dur) (by omega) (by omega), sec_eq,
      toS64_of_in (by unfold InS64; omega)]
    refine ⟨⟨?_, ?_, ?_⟩, ?_⟩
    · unfold InS64; simp only; omega
    · simp only; omega
    · simp only; omega
    · unfold Timespec.ns; simp only; omega

theorem diff_exact {a b : Timespec} (ha : a.Normal) (hb : b.Normal) (h : InS64 (a.ns - b.ns)) :
    diff a b = some (a.ns - b.ns) := by
  have h1 := ha.sec; have h2 := ha.lo; have h3 := ha.hi
  have k1 := hb.sec; have k2 := hb.lo; have k3 := hb.hi
  have hs : InS64 (a.sec - b.sec) := by
    unfold InS64 Timespec.ns at *; omega
  have hn : InS64 (a.nsec - b.nsec) := by unfold InS64; omega
  simp only [diff, signed, hs, hn, if_true, Option.bind_eq_bind, Option.bind_some, Option.pure_def, Option.some.injEq, FRAC]
  unfold toS64 toU64 InS64 Timespec.ns at *
  omega

/-! ## Truncating division -/

/-- `tdiv` by a positive number, without division. -/
theorem tdiv_spec {a : Int} {b : Nat} (hb : 0 < b) :
    (0 ≤ a → 0 ≤ a.tdiv b ∧ a.tdiv b * b ≤ a ∧ a < a.tdiv b * b + b) ∧
    (a ≤ 0 → a.tdiv b ≤ 0 ∧ a ≤ a.tdiv b * b ∧ a.tdiv b * b - b < a) := by
  have hb' : (0 : Int) < b := by omega
  have pos : ∀ {x : Int}, 0 ≤ x → 0 ≤ x.tdiv b ∧ x.tdiv b * b ≤ x ∧ x < x.tdiv b * b + b := by
    intro x hx
    rw [Int.tdiv_eq_ediv_of_nonneg hx]
    refine ⟨Int.ediv_nonneg hx (by omega), Int.ediv_mul_le _ (by omega), ?_⟩
    have := Int.lt_ediv_add_one_mul_self x hb'
    rw [Int.add_mul, Int.one_mul] at this
    exact this
  constructor
  · exact pos
  · intro ha
    have := pos (x := -a) (by omega)
    rw [Int.neg_tdiv] at this
    obtain ⟨h1, h2, h3⟩ := this
    rw [Int.neg_mul] at h2 h3
    omega

theorem tdiv_mono {a b : Int} {n : Nat} (hn : 0 < n) (h : a ≤ b) : a.tdiv n ≤ b.tdiv n := by
  exact Int.tdiv_le_tdiv (by omega) h

end Verif.Time
