import Verif.Model.SemName

/-! C67: the name of the semaphore tells processes apart. -/

namespace Verif.SemName

/-- The sixteen halves of a byte. -/
theorem digit_inj : ∀ a b : Fin 16, digit (UInt8.ofNat a) = digit (UInt8.ofNat b) → a = b := by decide

theorem digit_inj' {a b : UInt8} (ha : a.toNat < 16) (hb : b.toNat < 16) (h : digit a = digit b) : a.toNat = b.toNat := by
  have h1 : UInt8.ofNat a.toNat = a := by simp
  have h2 : UInt8.ofNat b.toNat = b := by simp
  have := digit_inj ⟨a.toNat, ha⟩ ⟨b.toNat, hb⟩ (by simp only; rw [h1, h2]; exact h)
  simpa using this

theorem digit_range : ∀ a : Fin 16, 48 ≤ digit (UInt8.ofNat a) ∧ digit (UInt8.ofNat a) ≤ 102 := by decide

theorem digit_pos {a : UInt8} (ha : a.toNat < 16) : digit a ≠ 0 := by
  have h1 : UInt8.ofNat a.toNat = a := by simp
  have := digit_range ⟨a.toNat, ha⟩
  simp only [h1] at this
  omega

theorem hi_lt (b : UInt8) : (b >>> 4).toNat < 16 := by
  have := b.toNat_lt
  simp [UInt8.toNat_shiftRight, Nat.shiftRight_eq_div_pow]
  omega

theorem lo_lt (b : UInt8) : (b &&& 0x0f).toNat < 16 := by
  have h : (b &&& 0x0f).toNat = b.toNat % 16 := by
    simp only [UInt8.toNat_and, show (0x0f : UInt8).toNat = 2 ^ 4 - 1 from rfl, Nat.and_two_pow_sub_one_eq_mod]
  omega

/-- A byte is given by its halves. -/
theorem halves {a b : UInt8} (h1 : (a >>> 4).toNat = (b >>> 4).toNat) (h2 : (a &&& 0x0f).toNat = (b &&& 0x0f).toNat) :
    a.toNat = b.toNat := by
  have e : ∀ x : UInt8, (x &&& 0x0f).toNat = x.toNat % 16 := fun x => by
    simp only [UInt8.toNat_and, show (0x0f : UInt8).toNat = 2 ^ 4 - 1 from rfl, Nat.and_two_pow_sub_one_eq_mod]
  have f : ∀ x : UInt8, (x >>> 4).toNat = x.toNat / 16 := fun x => by
    simp [UInt8.toNat_shiftRight, Nat.shiftRight_eq_div_pow]
  rw [e, e] at h2
  rw [f, f] at h1
  omega

theorem byte_toNat (pid : UInt32) :
    (byte pid 0).toNat = pid.toNat / 16777216 % 256 ∧ (byte pid 1).toNat = pid.toNat / 65536 % 256 ∧
      (byte pid 2).toNat = pid.toNat / 256 % 256 ∧ (byte pid 3).toNat = pid.toNat % 256 := by
  refine ⟨?_, ?_, ?_, ?_⟩ <;>
    simp [byte, UInt32.toNat_shiftRight, Nat.shiftRight_eq_div_pow]

/-- The name written out. -/
theorem semName_eq (pid : UInt32) :
    semName pid = "boost_sync_tls_".toList.map Char.toNat ++
      [digit (byte pid 0 >>> 4), digit (byte pid 0 &&& 0x0f), digit (byte pid 1 >>> 4), digit (byte pid 1 &&& 0x0f),
       digit (byte pid 2 >>> 4), digit (byte pid 2 &&& 0x0f), digit (byte pid 3 >>> 4), digit (byte pid 3 &&& 0x0f), 0] := by
  rfl

/-- **C67**: different processes use different names. -/
theorem C67_injective (p q : UInt32) (h : semName p = semName q) : p = q := by
  rw [semName_eq, semName_eq] at h
  have h := List.append_cancel_left h
  simp only [List.cons.injEq, and_true] at h
  obtain ⟨h0, h0', h1, h1', h2, h2', h3, h3'⟩ := h
  have e0 := halves (digit_inj' (hi_lt _) (hi_lt _) h0) (digit_inj' (lo_lt _) (lo_lt _) h0')
  have e1 := halves (digit_inj' (hi_lt _) (hi_lt _) h1) (digit_inj' (lo_lt _) (lo_lt _) h1')
  have e2 := halves (digit_inj' (hi_lt _) (hi_lt _) h2) (digit_inj' (lo_lt _) (lo_lt _) h2')
  have e3 := halves (digit_inj' (hi_lt _) (hi_lt _) h3) (digit_inj' (lo_lt _) (lo_lt _) h3')
  obtain ⟨a0, a1, a2, a3⟩ := byte_toNat p
  obtain ⟨b0, b1, b2, b3⟩ := byte_toNat q
  rw [a0, b0] at e0
  rw [a1, b1] at e1
  rw [a2, b2] at e2
  rw [a3, b3] at e3
  have := p.toNat_lt
  have := q.toNat_lt
  apply UInt32.toNat_inj.mp
  omega

/-- **C67**: the name fills the array exactly: all accesses are within its 24 elements, the last one is the terminating
zero and no other one is zero, so the string the OS sees has all the digits. -/
theorem C67_terminated (p : UInt32) :
    (semName p).length = 24 ∧ (semName p)[23]? = some 0 ∧ ∀ i : Nat, i < 23 → ∀ c, (semName p)[i]? = some c → c ≠ 0 := by
  rw [semName_eq]
  refine ⟨rfl, rfl, ?_⟩
  intro i hi c hc
  have hp : ∀ b : UInt8, digit (b >>> 4) ≠ 0 := fun b => digit_pos (hi_lt b)
  have hq : ∀ b : UInt8, digit (b &&& 0x0f) ≠ 0 := fun b => digit_pos (lo_lt b)
  by_cases h15 : i < 15
  · have : ∀ i : Fin 15, ("boost_sync_tls_".toList.map Char.toNat)[i.val]? ≠ some 0 := by decide
    rw [List.getElem?_append_left (by simpa using h15)] at hc
    rintro rfl
    exact this ⟨i, h15⟩ hc
  · obtain ⟨j, rfl⟩ : ∃ j, i = 15 + j := ⟨i - 15, by omega⟩
    rw [List.getElem?_append_right (by simp), show 15 + j - ("boost_sync_tls_".toList.map Char.toNat).length = j by
      simp] at hc
    have : j < 8 := by omega
    match j, this with
    | 0, _ => cases hc; exact hp _
    | 1, _ => cases hc; exact hq _
    | 2, _ => cases hc; exact hp _
    | 3, _ => cases hc; exact hq _
    | 4, _ => cases hc; exact hp _
    | 5, _ => cases hc; exact hq _
    | 6, _ => cases hc; exact hp _
    | 7, _ => cases hc; exact hq _

/-- The lower case hexadecimal digits. -/
def hexDigits : List Nat := "0123456789abcdef".toList.map Char.toNat

theorem digit_hex : ∀ a : Fin 16, hexDigits[a.val]? = some (digit (UInt8.ofNat a)) := by decide

theorem digit_hex' {a : UInt8} {n : Nat} (ha : a.toNat = n) (hn : n < 16) : hexDigits[n]? = some (digit a) := by
  have h1 : UInt8.ofNat a.toNat = a := by simp
  have := digit_hex ⟨n, hn⟩
  simp only [← ha, h1] at this
  rw [← ha]
  exact this

/-- **C67**: the name is the prefix followed by the eight hexadecimal digits of the process id, the most significant one
first. -/
theorem C67_digits (p : UInt32) :
    (semName p).take 15 = "boost_sync_tls_".toList.map Char.toNat ∧
      ∀ j : Nat, j < 8 → (semName p)[15 + j]? = hexDigits[p.toNat / 16 ^ (7 - j) % 16]? := by
  have e : ∀ x : UInt8, (x &&& 0x0f).toNat = x.toNat % 16 := fun x => by
    simp only [UInt8.toNat_and, show (0x0f : UInt8).toNat = 2 ^ 4 - 1 from rfl, Nat.and_two_pow_sub_one_eq_mod]
  have f : ∀ x : UInt8, (x >>> 4).toNat = x.toNat / 16 := fun x => by
    simp [UInt8.toNat_shiftRight, Nat.shiftRight_eq_div_pow]
  obtain ⟨a0, a1, a2, a3⟩ := byte_toNat p
  have hp := p.toNat_lt
  have hm : ∀ j, p.toNat / 16 ^ (7 - j) % 16 < 16 := fun j => Nat.mod_lt _ (by omega)
  rw [semName_eq]
  refine ⟨rfl, ?_⟩
  intro j hj
  have get : ∀ (l : List Nat), ("boost_sync_tls_".toList.map Char.toNat ++ l)[15 + j]? = l[j]? := by
    intro l
    rw [List.getElem?_append_right (by simp), show 15 + j - ("boost_sync_tls_".toList.map Char.toNat).length = j by simp]
  rw [get]
  match j, hj with
  | 0, _ => exact (digit_hex' (by rw [f, a0]; omega) (hm 0)).symm
  | 1, _ => exact (digit_hex' (by rw [e, a0]; omega) (hm 1)).symm
  | 2, _ => exact (digit_hex' (by rw [f, a1]; omega) (hm 2)).symm
  | 3, _ => exact (digit_hex' (by rw [e, a1]; omega) (hm 3)).symm
  | 4, _ => exact (digit_hex' (by rw [f, a2]; omega) (hm 4)).symm
  | 5, _ => exact (digit_hex' (by rw [e, a2]; omega) (hm 5)).symm
  | 6, _ => exact (digit_hex' (by rw [f, a3]; omega) (hm 6)).symm
  | 7, _ => exact (digit_hex' (by rw [e, a3]; omega) (hm 7)).symm

/-- The digits of two processes whose ids differ in one bit of the highest byte. -/
example : semName 0x1a2b3c4d = "boost_sync_tls_1a2b3c4d".toList.map Char.toNat ++ [0] ∧
    semName 0x1a2b3c4d ≠ semName 0x9a2b3c4d := by decide

end Verif.SemName
