import Verif.Float.Text
import Mathlib.Data.Rat.Defs
import Mathlib.Algebra.Order.Field.Basic
import Mathlib.Algebra.Order.Field.Power
import Mathlib.Tactic.Linarith
import Mathlib.Tactic.Positivity
import Mathlib.Tactic.FieldSimp
import Mathlib.Tactic.NormNum
import Mathlib.Tactic.Ring
/-!
# Rounding errors

How far rounding goes, and which ratios are rounded to a given value.
-/
namespace Swrs.Ieee

theorem nearest_err (n : Nat) {d : Nat} (hd : 0 < d) :
    (nearest n d : ℚ) - n / d ≤ 1 / 2 ∧ (n : ℚ) / d - nearest n d ≤ 1 / 2 := by
  have hd' : (0 : ℚ) < d := by exact_mod_cast hd
  have e : (n : ℚ) = d * (n / d : Nat) + (n % d : Nat) := by exact_mod_cast (Nat.div_add_mod n d).symm
  have hr : n % d < d := Nat.mod_lt _ hd
  have key : (n : ℚ) / d = (n / d : Nat) + ((n % d : Nat) : ℚ) / d := by
    rw [e]; field_simp
  have h0 : (0 : ℚ) ≤ ((n % d : Nat) : ℚ) / d := by positivity
  have h1 : ((n % d : Nat) : ℚ) / d ≤ 1 := by
    rw [div_le_one hd']; exact_mod_cast hr.le
  have lo : 2 * (n % d) ≤ d → ((n % d : Nat) : ℚ) / d ≤ 1 / 2 := fun h => by
    rw [div_le_iff₀ hd']
    have : (2 : ℚ) * (n % d : Nat) ≤ d := by exact_mod_cast h
    linarith
  have hi : d ≤ 2 * (n % d) → 1 / 2 ≤ ((n % d : Nat) : ℚ) / d := fun h => by
    rw [le_div_iff₀ hd']
    have : (d : ℚ) ≤ 2 * (n % d : Nat) := by exact_mod_cast h
    linarith
  rw [key]
  unfold nearest
  split
  · next h => have := lo h.le; constructor <;> linarith
  · next h =>
    have h' := hi (not_lt.mp h)
    split
    · push_cast; constructor <;> linarith
    · next h2 =>
      have := lo (not_lt.mp h2)
      split
      · constructor <;> linarith
      · push_cast; constructor <;> linarith

/-- Only one whole number is nearer than a half. -/
theorem nearest_unique {n d m : Nat} (hd : 0 < d) (h1 : (n : ℚ) / d - m < 1 / 2) (h2 : (m : ℚ) - n / d < 1 / 2) :
    nearest n d = m := by
  have ⟨a, b⟩ := nearest_err n hd
  have x : (nearest n d : ℚ) < m + 1 := by linarith
  have y : (m : ℚ) < nearest n d + 1 := by linarith
  have x' : nearest n d < m + 1 := by exact_mod_cast x
  have y' : m < nearest n d + 1 := by exact_mod_cast y
  omega

theorem div_two_pow (n d s : Nat) : (n : ℚ) / ((d * 2 ^ s : Nat) : ℚ) * 2 ^ s = n / d := by
  push_cast
  field_simp

theorem floor_le (n : Nat) {d : Nat} (hd : 0 < d) : ((n / d : Nat) : ℚ) ≤ n / d ∧ (n : ℚ) / d < (n / d : Nat) + 1 := by
  have hd' : (0 : ℚ) < d := by exact_mod_cast hd
  constructor
  · rw [le_div_iff₀ hd']; exact_mod_cast Nat.div_mul_le_self n d
  · rw [div_lt_iff₀ hd']
    have := Nat.lt_mul_div_succ n hd
    have h : n < (n / d + 1) * d := by rw [Nat.mul_comm]; exact this
    exact_mod_cast h

/-- The error of rounding is at most the last bit halved. -/
theorem roundTo_err {p n d : Nat} (hp : p ≠ 0) (hd : 0 < d) (hn : 2 ^ (p - 1) * d ≤ n) :
    (roundTo p n d : ℚ) - n / d ≤ n / d / 2 ^ p ∧ (n : ℚ) / d - roundTo p n d ≤ n / d / 2 ^ p := by
  have hd' : (0 : ℚ) < d := by exact_mod_cast hd
  have hle : 2 ^ (p + shift p (n / d) - 1) ≤ n / d := by
    by_cases h : shift p (n / d) = 0
    · rw [h, Nat.add_zero]; exact (Nat.le_div_iff_mul_le hd).mpr hn
    · exact two_pow_shift_le hp h
  unfold roundTo
  generalize shift p (n / d) = s at *
  have ⟨a, b⟩ := nearest_err n (d := d * 2 ^ s) (Nat.mul_pos hd (Nat.two_pow_pos s))
  have e := div_two_pow n d s
  have hs : (0 : ℚ) < 2 ^ s := by positivity
  have half : (2 : ℚ) ^ s / 2 ≤ n / d / 2 ^ p := by
    rw [le_div_iff₀ (by positivity)]
    have h1 : ((2 ^ (p + s - 1) : Nat) : ℚ) ≤ n / d :=
      le_trans (by exact_mod_cast hle) (floor_le n hd).1
    have h2 : (2 : ℚ) ^ s / 2 * 2 ^ p = ((2 ^ (p + s - 1) : Nat) : ℚ) := by
      obtain ⟨q, rfl⟩ : ∃ q, p = q + 1 := ⟨p - 1, by omega⟩
      have : q + 1 + s - 1 = q + s := by omega
      rw [this]; push_cast; ring
    rw [h2]; exact h1
  push_cast
  have a' := mul_le_mul_of_nonneg_right a hs.le
  have b' := mul_le_mul_of_nonneg_right b hs.le
  rw [sub_mul, e] at a' b'
  constructor <;> linarith

/-- A ratio near enough to a value is rounded to it. -/
theorem roundTo_near {p n d k : Nat} (hd : 0 < d) (hk : Rep p k)
    (h1 : (n : ℚ) / d - k < k / 2 ^ (p + 1)) (h2 : (k : ℚ) - n / d < k / 2 ^ (p + 1)) : roundTo p n d = k := by
  have hd' : (0 : ℚ) < d := by exact_mod_cast hd
  have ⟨fl, fu⟩ := floor_le n hd
  have hpp : (0 : ℚ) < 2 ^ (p + 1) := by positivity
  have hk0 : (0 : ℚ) ≤ k := by positivity
  -- the low bits that are cut are low bits of the value, and what is left of it fits
  have key : 2 ^ shift p (n / d) ∣ k ∧ k ≤ 2 ^ (p + shift p (n / d)) := by
    by_cases hge : k ≤ n / d
    · have hlt : n / d < 2 ^ (p + shift p k) := by
        obtain ⟨m, hm⟩ := hk
        have hb := lt_two_pow_shift p k
        generalize hs : shift p k = s at *
        have hm2 : m + 1 ≤ 2 ^ p := by
          have : 2 ^ s * m < 2 ^ s * 2 ^ p := by rw [← hm, ← Nat.pow_add, Nat.add_comm]; exact hb
          exact Nat.lt_of_mul_lt_mul_left this
        have hb' : (k : ℚ) + 2 ^ s ≤ 2 ^ (p + s) := by
          have : k + 2 ^ s ≤ 2 ^ (p + s) := by
            rw [hm, Nat.pow_add, Nat.mul_comm (2 ^ p), ← Nat.mul_succ]
            exact Nat.mul_le_mul_left _ hm2
          exact_mod_cast this
        have h3 : (k : ℚ) / 2 ^ (p + 1) ≤ 2 ^ s := by
          rw [div_le_iff₀ hpp]
          have : (2 : ℚ) ^ (p + s) ≤ 2 ^ s * 2 ^ (p + 1) := by
            rw [← pow_add]; exact pow_le_pow_right₀ (by norm_num) (by omega)
          have : (0 : ℚ) < 2 ^ s := by positivity
          linarith
        have : ((n / d : Nat) : ℚ) < 2 ^ (p + s) := by linarith
        exact_mod_cast this
      have hs : shift p (n / d) ≤ shift p k := by
        by_cases h0 : n / d = 0
        · rw [h0]; exact shift_le (by omega)
        · have := (Nat.log2_lt h0).mpr hlt
          conv => lhs; unfold shift
          omega
      exact ⟨Nat.dvd_trans (Nat.pow_dvd_pow 2 hs) hk, le_of_lt (lt_of_le_of_lt hge (lt_two_pow_shift _ _))⟩
    · have hs : shift p (n / d) ≤ shift p k := shift_le (by omega)
      have hdv := Nat.dvd_trans (Nat.pow_dvd_pow 2 hs) hk
      refine ⟨hdv, ?_⟩
      by_contra hc
      obtain ⟨m, hm⟩ := hdv
      have hb := lt_two_pow_shift p (n / d)
      generalize shift p (n / d) = s at *
      have hm2 : 2 ^ p + 1 ≤ m := by
        have : 2 ^ s * 2 ^ p < 2 ^ s * m := by rw [← hm, ← Nat.pow_add, Nat.add_comm]; omega
        exact Nat.lt_of_mul_lt_mul_left this
      have hmq : (2 : ℚ) ^ p + 1 ≤ m := by exact_mod_cast hm2
      have hb' : ((n / d : Nat) : ℚ) + 1 ≤ 2 ^ (p + s) := by exact_mod_cast hb
      have hkq : (k : ℚ) = 2 ^ s * m := by exact_mod_cast hm
      have hs0 : (0 : ℚ) < 2 ^ s := by positivity
      have h4 : (2 : ℚ) ^ s * (m - m / 2 ^ (p + 1)) < 2 ^ s * 2 ^ p := by
        have : (2 : ℚ) ^ s * 2 ^ p = 2 ^ (p + s) := by rw [← pow_add, add_comm]
        rw [this]
        have : (2 : ℚ) ^ s * (m - m / 2 ^ (p + 1)) = k - k / 2 ^ (p + 1) := by rw [hkq]; ring
        rw [this]; linarith
      have h5 := lt_of_mul_lt_mul_left h4 hs0.le
      have h6 : (m : ℚ) - m / 2 ^ (p + 1) = m * (1 - 1 / 2 ^ (p + 1)) := by ring
      have hP : (1 : ℚ) ≤ 2 ^ p := one_le_pow₀ (by norm_num)
      have h7 : (0 : ℚ) ≤ 1 - 1 / 2 ^ (p + 1) := by
        rw [sub_nonneg, div_le_one hpp, pow_succ]; linarith
      have h8 := mul_le_mul_of_nonneg_right hmq h7
      have h9 : ((2 : ℚ) ^ p + 1) * (1 - 1 / 2 ^ (p + 1)) = 2 ^ p + 1 / 2 - 1 / (2 * 2 ^ p) := by
        rw [pow_succ]; field_simp; ring
      have h10 : (1 : ℚ) / (2 * 2 ^ p) ≤ 1 / 2 := by
        rw [div_le_div_iff₀ (by positivity) (by norm_num)]; linarith
      rw [h6] at h5
      linarith
  obtain ⟨⟨m, hm⟩, hle⟩ := key
  unfold roundTo
  generalize shift p (n / d) = s at *
  have hs0 : (0 : ℚ) < 2 ^ s := by positivity
  have e := div_two_pow n d s
  have hkq : (k : ℚ) = m * 2 ^ s := by rw [hm]; push_cast; ring
  have hb : (k : ℚ) / 2 ^ (p + 1) ≤ 1 / 2 * 2 ^ s := by
    rw [div_le_iff₀ hpp]
    have h : (k : ℚ) ≤ 2 ^ (p + s) := by exact_mod_cast hle
    have : (1 : ℚ) / 2 * 2 ^ s * 2 ^ (p + 1) = 2 ^ (p + s) := by rw [pow_succ, pow_add]; ring
    rw [this]; exact h
  have hn : nearest n (d * 2 ^ s) = m := by
    refine nearest_unique (Nat.mul_pos hd (Nat.two_pow_pos s)) ?_ ?_
    · refine lt_of_mul_lt_mul_right ?_ hs0.le
      rw [sub_mul, e, ← hkq]; linarith
    · refine lt_of_mul_lt_mul_right ?_ hs0.le
      rw [sub_mul, e, ← hkq]; linarith
  rw [hn, hm, Nat.mul_comm]

theorem nearest_le_abs (n : Nat) {d : Nat} (hd : 0 < d) (m : Nat) : |(nearest n d : ℚ) - n / d| ≤ |(m : ℚ) - n / d| := by
  have ⟨a, b⟩ := nearest_err n hd
  by_cases h : nearest n d = m
  · rw [h]
  · have h1 : |(nearest n d : ℚ) - n / d| ≤ 1 / 2 := abs_le.mpr ⟨by linarith, by linarith⟩
    refine le_trans h1 ?_
    rcases Nat.lt_or_gt_of_ne h with hl | hl
    · have : (nearest n d : ℚ) + 1 ≤ m := by exact_mod_cast hl
      exact le_trans (by linarith) (le_abs_self _)
    · have : (m : ℚ) + 1 ≤ nearest n d := by exact_mod_cast hl
      exact le_trans (by linarith) (neg_le_abs _)

/-- No value of the precision is nearer than the one rounded to. -/
theorem roundTo_nearest {p n d j : Nat} (hp : p ≠ 0) (hd : 0 < d) (hj : Rep p j) :
    |(roundTo p n d : ℚ) - n / d| ≤ |(j : ℚ) - n / d| := by
  have ⟨fl, fu⟩ := floor_le n hd
  have mult : ∀ m : Nat, |(roundTo p n d : ℚ) - n / d| ≤ |((m * 2 ^ shift p (n / d) : Nat) : ℚ) - n / d| := by
    intro m
    unfold roundTo
    generalize shift p (n / d) = s at *
    have e := div_two_pow n d s
    have hs : (0 : ℚ) < 2 ^ s := by positivity
    have := nearest_le_abs n (d := d * 2 ^ s) (Nat.mul_pos hd (Nat.two_pow_pos s)) m
    have := mul_le_mul_of_nonneg_right this hs.le
    rw [← abs_of_pos hs, ← abs_mul, ← abs_mul, sub_mul, sub_mul, e] at this
    push_cast
    exact this
  by_cases h : 2 ^ shift p (n / d) ∣ j
  · obtain ⟨m, hm⟩ := h
    rw [hm, Nat.mul_comm]
    exact mult m
  · have hlt : shift p j < shift p (n / d) := by
      by_contra hc
      exact h (Nat.dvd_trans (Nat.pow_dvd_pow 2 (by omega)) hj)
    have h1 := lt_two_pow_shift p j
    have h2 : 2 ^ (p + shift p j) ≤ 2 ^ (p - 1) * 2 ^ shift p (n / d) := by
      rw [← Nat.pow_add]
      exact Nat.pow_le_pow_right (by decide) (by omega)
    have h3 := two_pow_shift_le hp (k := n / d) (by omega)
    have h4 : p + shift p (n / d) - 1 = p - 1 + shift p (n / d) := by omega
    rw [h4, Nat.pow_add] at h3
    refine le_trans (mult (2 ^ (p - 1))) ?_
    generalize 2 ^ (p - 1) * 2 ^ shift p (n / d) = B at *
    have hB : (B : ℚ) ≤ n / d := le_trans (by exact_mod_cast h3) fl
    have hjB : (j : ℚ) ≤ B := by exact_mod_cast (by omega : j ≤ B)
    rw [abs_of_nonpos (by linarith), abs_of_nonpos (by linarith)]
    linarith

end Swrs.Ieee
