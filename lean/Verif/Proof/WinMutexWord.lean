import Verif.Spec.WinMutex

/-! The fields of the word of the Windows mutex and how the operations change them. -/

namespace Verif.WinMutex

/-- Lock bit. -/
def L (w : UInt32) : Nat := w.toNat / 2147483648
/-- Event bit. -/
def F (w : UInt32) : Nat := w.toNat / 1073741824 % 2
/-- Waiter count. -/
def C (w : UInt32) : Nat := w.toNat % 1073741824

theorem F_lt (w : UInt32) : F w < 2 := Nat.mod_lt _ (by omega)
theorem C_lt (w : UInt32) : C w < 1073741824 := Nat.mod_lt _ (by omega)
theorem L_lt (w : UInt32) : L w < 2 := by have := w.toNat_lt; unfold L; omega
theorem toNat_eq (w : UInt32) : w.toNat = L w * 2147483648 + F w * 1073741824 + C w := by unfold L F C; omega

theorem fields {w : UInt32} {l f c : Nat} (h : w.toNat = l * 2147483648 + f * 1073741824 + c) (hf : f < 2)
    (hc : c < 1073741824) : L w = l ∧ F w = f ∧ C w = c := by
  unfold L F C; omega

theorem word_eq {w v : UInt32} (h1 : L w = L v) (h2 : F w = F v) (h3 : C w = C v) : w = v := by
  apply UInt32.toNat_inj.mp
  rw [toNat_eq w, toNat_eq v, h1, h2, h3]

theorem L_zero : L 0 = 0 := rfl
theorem F_zero : F 0 = 0 := rfl
theorem C_zero : C 0 = 0 := rfl

theorem or_lock_toNat (w : UInt32) : (w ||| lockFlag).toNat = 2147483648 + w.toNat % 2147483648 := by
  rw [UInt32.toNat_or]
  show w.toNat ||| 2 ^ 31 = _
  have hw := w.toNat_lt
  have h1 : (w.toNat ||| 2 ^ 31) % 2 ^ 31 = w.toNat % 2 ^ 31 := by rw [Nat.or_mod_two_pow]; simp
  have h2 : (w.toNat ||| 2 ^ 31) / 2 ^ 31 = 1 := by
    rw [Nat.or_div_two_pow]
    show w.toNat / 2 ^ 31 ||| 1 = 1
    have : w.toNat / 2 ^ 31 = 0 ∨ w.toNat / 2 ^ 31 = 1 := by omega
    rcases this with h | h <;> rw [h] <;> decide
  omega

theorem or_flag_toNat (w : UInt32) : (w ||| eventFlag).toNat =
    w.toNat / 2147483648 * 2147483648 + 1073741824 + w.toNat % 1073741824 := by
  rw [UInt32.toNat_or]
  show w.toNat ||| 2 ^ 30 = _
  have hw := w.toNat_lt
  have h1 : (w.toNat ||| 2 ^ 30) % 2 ^ 30 = w.toNat % 2 ^ 30 := by rw [Nat.or_mod_two_pow]; simp
  have h2 : (w.toNat ||| 2 ^ 30) / 2 ^ 30 = w.toNat / 2 ^ 31 * 2 + 1 := by
    rw [Nat.or_div_two_pow]
    show w.toNat / 2 ^ 30 ||| 1 = _
    have : w.toNat / 2 ^ 30 = 0 ∨ w.toNat / 2 ^ 30 = 1 ∨ w.toNat / 2 ^ 30 = 2 ∨ w.toNat / 2 ^ 30 = 3 := by omega
    rcases this with h | h | h | h <;> rw [h] <;> simp <;> omega
  omega

theorem and_notFlag_toNat (w : UInt32) : (w &&& ~~~ eventFlag).toNat =
    w.toNat / 2147483648 * 2147483648 + w.toNat % 1073741824 := by
  rw [UInt32.toNat_and]
  show w.toNat &&& 3221225471 = _
  have hw := w.toNat_lt
  have h1 : (w.toNat &&& 3221225471) % 2 ^ 30 = w.toNat % 2 ^ 30 := by
    rw [Nat.and_mod_two_pow]
    show w.toNat % 2 ^ 30 &&& (2 ^ 30 - 1) = _
    rw [Nat.and_two_pow_sub_one_eq_mod]; omega
  have h2 : (w.toNat &&& 3221225471) / 2 ^ 30 = w.toNat / 2 ^ 31 * 2 := by
    rw [Nat.and_div_two_pow]
    show w.toNat / 2 ^ 30 &&& 2 = _
    have : w.toNat / 2 ^ 30 = 0 ∨ w.toNat / 2 ^ 30 = 1 ∨ w.toNat / 2 ^ 30 = 2 ∨ w.toNat / 2 ^ 30 = 3 := by omega
    rcases this with h | h | h | h <;> rw [h] <;> simp <;> omega
  omega

theorem and_lock_toNat (w : UInt32) : (w &&& lockFlag).toNat = w.toNat / 2147483648 * 2147483648 := by
  rw [UInt32.toNat_and]
  show w.toNat &&& 2147483648 = _
  have hw := w.toNat_lt
  have h1 : (w.toNat &&& 2147483648) % 2 ^ 31 = 0 := by
    rw [Nat.and_mod_two_pow]; simp
  have h2 : (w.toNat &&& 2147483648) / 2 ^ 31 = w.toNat / 2 ^ 31 := by
    rw [Nat.and_div_two_pow]
    show w.toNat / 2 ^ 31 &&& 1 = _
    have : w.toNat / 2 ^ 31 = 0 ∨ w.toNat / 2 ^ 31 = 1 := by omega
    rcases this with h | h <;> rw [h] <;> simp
  omega

theorem and_flag_toNat (w : UInt32) : (w &&& eventFlag).toNat = F w * 1073741824 := by
  unfold F
  rw [UInt32.toNat_and]
  show w.toNat &&& 1073741824 = _
  have hw := w.toNat_lt
  have h1 : (w.toNat &&& 1073741824) % 2 ^ 30 = 0 := by
    rw [Nat.and_mod_two_pow]; simp
  have h2 : (w.toNat &&& 1073741824) / 2 ^ 30 = w.toNat / 2 ^ 30 % 2 := by
    rw [Nat.and_div_two_pow]
    show w.toNat / 2 ^ 30 &&& 1 = _
    rw [Nat.and_one_is_mod]
  omega

theorem isLocked_iff {w : UInt32} : isLocked w = true ↔ L w = 1 := by
  have := L_lt w
  simp only [isLocked, bne_iff_ne, ne_eq]
  rw [← UInt32.toNat_inj, and_lock_toNat]
  show ¬ _ = 0 ↔ _
  change L w * 2147483648 ≠ 0 ↔ _
  omega
theorem isLocked_false {w : UInt32} : isLocked w = false ↔ L w = 0 := by
  have := isLocked_iff (w := w)
  have := L_lt w
  cases h : isLocked w
  · simp [h] at *; omega
  · simp [h] at *; omega
theorem isFlagged_iff {w : UInt32} : isFlagged w = true ↔ F w = 1 := by
  have := F_lt w
  simp only [isFlagged, bne_iff_ne, ne_eq]
  rw [← UInt32.toNat_inj, and_flag_toNat]
  show ¬ _ = 0 ↔ _
  omega
theorem isFlagged_false {w : UInt32} : isFlagged w = false ↔ F w = 0 := by
  have := isFlagged_iff (w := w)
  have := F_lt w
  cases h : isFlagged w
  · simp [h] at *; omega
  · simp [h] at *; omega

/-- `bit_test_and_set(lock_flag_bit)`. -/
theorem orLock (w : UInt32) : L (w ||| lockFlag) = 1 ∧ F (w ||| lockFlag) = F w ∧ C (w ||| lockFlag) = C w := by
  have := or_lock_toNat w
  have := toNat_eq w
  have := F_lt w
  have := C_lt w
  have := L_lt w
  apply fields <;> omega

/-- `bit_test_and_set(event_set_flag_bit)`. -/
theorem orFlag (w : UInt32) : L (w ||| eventFlag) = L w ∧ F (w ||| eventFlag) = 1 ∧ C (w ||| eventFlag) = C w := by
  have h := or_flag_toNat w
  change _ = L w * 2147483648 + 1073741824 + C w at h
  have := toNat_eq w
  have := F_lt w
  have := C_lt w
  have := L_lt w
  apply fields <;> omega

/-- `fetch_add(lock_flag_value)` on a locked word. -/
theorem addLock {w : UInt32} (h : L w = 1) :
    L (w + lockFlag) = 0 ∧ F (w + lockFlag) = F w ∧ C (w + lockFlag) = C w := by
  have h1 : (w + lockFlag).toNat = (w.toNat + 2147483648) % 4294967296 := by simp [UInt32.toNat_add, lockFlag]
  generalize w + lockFlag = x at *
  have := toNat_eq w
  have := F_lt w
  have := C_lt w
  apply fields <;> omega

theorem addOne {w : UInt32} (h : C w + 1 < 1073741824) :
    L (w + 1) = L w ∧ F (w + 1) = F w ∧ C (w + 1) = C w + 1 := by
  have h1 : (w + 1).toNat = (w.toNat + 1) % 4294967296 := by simp [UInt32.toNat_add]
  generalize w + 1 = x at *
  have := toNat_eq w
  have := F_lt w
  have := L_lt w
  apply fields <;> omega

theorem subOne {w : UInt32} (h : 0 < C w) :
    L (w - 1) = L w ∧ F (w - 1) = F w ∧ C (w - 1) = C w - 1 := by
  have h1 : (w - 1).toNat = (4294967295 + w.toNat) % 4294967296 := by simp [UInt32.toNat_sub]
  generalize w - 1 = x at *
  have := toNat_eq w
  have := F_lt w
  have := L_lt w
  have := C_lt w
  apply fields <;> omega

theorem andNotFlag (w : UInt32) :
    L (w &&& ~~~ eventFlag) = L w ∧ F (w &&& ~~~ eventFlag) = 0 ∧ C (w &&& ~~~ eventFlag) = C w := by
  have h := and_notFlag_toNat w
  exact fields (by rw [h, Nat.zero_mul, Nat.add_zero]; rfl) (by decide) (C_lt w)

/-- Line 135. -/
theorem markNew_locked {w : UInt32} (h : L w = 1) (hc : C w + 1 < 1073741824) :
    L (markNew w) = 1 ∧ F (markNew w) = F w ∧ C (markNew w) = C w + 1 := by
  have hl := isLocked_iff.mpr h
  have := addOne hc
  simp only [markNew, hl, if_true]
  omega
theorem markNew_free {w : UInt32} (h : L w = 0) :
    L (markNew w) = 1 ∧ F (markNew w) = F w ∧ C (markNew w) = C w := by
  have hl := isLocked_false.mpr h
  have := orLock w
  simp only [markNew, hl, Bool.false_eq_true, if_false]
  omega

/-- Line 149. -/
theorem clrNew_locked {w : UInt32} (h : L w = 1) :
    L (clrNew w) = 1 ∧ F (clrNew w) = 0 ∧ C (clrNew w) = C w := by
  have hl := isLocked_iff.mpr h
  have := andNotFlag w
  simp only [clrNew, hl, if_true]
  omega
theorem clrNew_free {w : UInt32} (h : L w = 0) (hc : 0 < C w) :
    L (clrNew w) = 1 ∧ F (clrNew w) = 0 ∧ C (clrNew w) = C w - 1 := by
  have hl := isLocked_false.mpr h
  have h1 := subOne hc
  have h2 := orLock (w - 1)
  have h3 := andNotFlag ((w - 1) ||| lockFlag)
  simp only [clrNew, hl, Bool.false_eq_true, if_false]
  omega

theorem gt_lock_iff {w : UInt32} (hl : L w = 1) (hf : F w = 0) : decide (w > lockFlag) = true ↔ 0 < C w := by
  have := toNat_eq w
  simp only [decide_eq_true_eq, gt_iff_lt, UInt32.lt_iff_toNat_lt]
  show 2147483648 < _ ↔ _
  omega

theorem countOf_eq (w : UInt32) : countOf w = C w := rfl

attribute [irreducible] L F C

end Verif.WinMutex
