import Verif.Float.Error
import Verif.Float.Read
/-!
# `f32` values survive their text

`serde_json` reads a decimal of nine digits with an error of a few last bits of `f64`; nine digits are enough for `f32`.
-/
namespace Swrs.Ieee

theorem decLen_pos (n : Nat) : 1 ≤ decLen n := by
  have := natStr_ne_nil 10 n
  unfold decLen
  cases h : natStr 10 n with
  | nil => exact absurd h this
  | cons c r => simp

theorem decLen_bounds (n : Nat) : n < 10 ^ decLen n ∧ (n ≠ 0 → 10 ^ (decLen n - 1) ≤ n) := by
  induction n using Nat.strongRecOn with
  | _ n ih =>
    have e : decLen n = if n < 10 then 1 else decLen (n / 10) + 1 := by
      unfold decLen; rw [natStr]
      split
      next h => rw [if_pos (by omega)]; rfl
      next h => rw [if_neg (by omega)]; simp
    rw [e]
    split
    next h => exact ⟨by omega, fun h0 => by simp; omega⟩
    next h =>
      have ⟨a, b⟩ := ih (n / 10) (Nat.div_lt_self (by omega) (by omega))
      have b := b (by omega)
      have hp := decLen_pos (n / 10)
      refine ⟨?_, fun _ => ?_⟩
      · rw [Nat.pow_succ]; omega
      · rw [Nat.add_sub_cancel]
        obtain ⟨L, hL⟩ : ∃ L, decLen (n / 10) = L + 1 := ⟨decLen (n / 10) - 1, by omega⟩
        rw [hL] at b ⊢
        rw [Nat.add_sub_cancel] at b
        rw [Nat.pow_succ]; omega

theorem exp10_spec {n d : Nat} (hn : 0 < n) (hd : 0 < d) :
    (10 : ℚ) ^ exp10 n d ≤ n / d ∧ (n : ℚ) / d < 10 ^ (exp10 n d + 1) := by
  have hd' : (0 : ℚ) < d := by exact_mod_cast hd
  have hn' : (0 : ℚ) < n := by exact_mod_cast hn
  unfold exp10
  split
  · next h =>
    have hm : n / d ≠ 0 := by
      have := (Nat.le_div_iff_mul_le hd).mpr (by omega : 1 * d ≤ n)
      omega
    have ⟨a, b⟩ := decLen_bounds (n / d)
    have b := b hm
    have hp := decLen_pos (n / d)
    have ⟨fl, fu⟩ := floor_le n hd
    obtain ⟨L, hL⟩ : ∃ L, decLen (n / d) = L + 1 := ⟨decLen (n / d) - 1, by omega⟩
    rw [hL] at a b ⊢
    rw [Nat.add_sub_cancel] at b
    have e1 : ((L + 1 : Nat) : ℤ) - 1 = (L : ℤ) := by push_cast; ring
    rw [e1]
    constructor
    · rw [zpow_natCast]
      have : ((10 ^ L : Nat) : ℚ) ≤ (n / d : Nat) := by exact_mod_cast b
      push_cast at this
      linarith
    · have e2 : (L : ℤ) + 1 = ((L + 1 : Nat) : ℤ) := by push_cast; ring
      rw [e2, zpow_natCast]
      have : ((n / d : Nat) : ℚ) + 1 ≤ ((10 ^ (L + 1) : Nat) : ℚ) := by exact_mod_cast a
      push_cast at this
      linarith
  · next h =>
    have hlt : n < d := by omega
    have hc2 : 2 ≤ (d + n - 1) / n := (Nat.le_div_iff_mul_le hn).mpr (by omega)
    have hc1 : d ≤ (d + n - 1) / n * n := by
      have := Nat.lt_mul_div_succ (d + n - 1) hn
      rw [Nat.mul_add, Nat.mul_comm] at this
      omega
    have hc3 : ((d + n - 1) / n - 1) * n < d := by
      have := Nat.div_mul_le_self (d + n - 1) n
      rw [Nat.sub_mul]; omega
    generalize (d + n - 1) / n = c at *
    have ⟨a, b⟩ := decLen_bounds (c - 1)
    have b := b (by omega)
    have hp := decLen_pos (c - 1)
    obtain ⟨L, hL⟩ : ∃ L, decLen (c - 1) = L + 1 := ⟨decLen (c - 1) - 1, by omega⟩
    rw [hL] at a b ⊢
    rw [Nat.add_sub_cancel] at b
    constructor
    · rw [zpow_neg, zpow_natCast, inv_eq_one_div, div_le_div_iff₀ (by positivity) hd', one_mul]
      have h1 : d ≤ n * 10 ^ (L + 1) := by
        refine Nat.le_trans hc1 ?_
        rw [Nat.mul_comm]
        exact Nat.mul_le_mul_left _ (by omega)
      exact_mod_cast h1
    · have e2 : -((L + 1 : Nat) : ℤ) + 1 = -(L : ℤ) := by push_cast; ring
      rw [e2, zpow_neg, zpow_natCast, inv_eq_one_div, div_lt_div_iff₀ hd' (by positivity), one_mul]
      have h1 : n * 10 ^ L < d := by
        refine Nat.lt_of_le_of_lt ?_ hc3
        rw [Nat.mul_comm]
        exact Nat.mul_le_mul_right _ b
      exact_mod_cast h1

theorem pow10_ratio (e : ℤ) : (10 : ℚ) ^ e.toNat / 10 ^ (-e).toNat = 10 ^ e := by
  rcases Int.le_total 0 e with h | h
  · obtain ⟨n, rfl⟩ := Int.eq_ofNat_of_zero_le h
    simp
  · obtain ⟨n, hn⟩ := Int.eq_ofNat_of_zero_le (Int.neg_nonneg_of_nonpos h)
    obtain rfl : e = -(n : ℤ) := by omega
    simp

/-- The powers of ten in `f64`. -/
theorem pow_err (M a : Nat) (hM : 2 ^ 250 ≤ M) :
    (roundTo 53 (10 ^ a * M) 1 : ℚ) - 10 ^ a * M ≤ 10 ^ a * M / 2 ^ 53 ∧
    (10 : ℚ) ^ a * M - roundTo 53 (10 ^ a * M) 1 ≤ 10 ^ a * M / 2 ^ 53 := by
  have h := roundTo_err (p := 53) (n := 10 ^ a * M) (d := 1) (by decide) (by decide) (by
    have : 1 ≤ 10 ^ a := Nat.one_le_pow _ _ (by decide)
    calc 2 ^ (53 - 1) * 1 ≤ 2 ^ 250 := by norm_num
      _ ≤ M := hM
      _ = 1 * M := by omega
      _ ≤ 10 ^ a * M := Nat.mul_le_mul_right _ this)
  push_cast at h
  simpa using h

/-- A significand multiplied by a power of ten in `f64`. -/
theorem mul_err (M q a : Nat) (hM : 2 ^ 250 ≤ M) (hq : 1 ≤ q) :
    let g := roundTo 53 (q * M * roundTo 53 (10 ^ a * M) 1 * M) (M * M)
    (g : ℚ) / M - q * 10 ^ a ≤ q * 10 ^ a / 2 ^ 51 ∧ (q : ℚ) * 10 ^ a - g / M ≤ q * 10 ^ a / 2 ^ 51 := by
  intro g
  have hM0 : 0 < M := Nat.lt_of_lt_of_le (Nat.two_pow_pos 250) hM
  have hM' : (0 : ℚ) < M := by exact_mod_cast hM0
  have hMb : (2 : ℚ) ^ 250 ≤ M := by exact_mod_cast hM
  have ⟨p1, p2⟩ := pow_err M a hM
  have hA : (1 : ℚ) ≤ 10 ^ a := one_le_pow₀ (by norm_num)
  have hq' : (1 : ℚ) ≤ q := by exact_mod_cast hq
  have hAM : (M : ℚ) ≤ 10 ^ a * M := le_mul_of_one_le_left hM'.le hA
  have hP : (2 : ℚ) ^ 52 ≤ roundTo 53 (10 ^ a * M) 1 := by
    have : (10 : ℚ) ^ a * M / 2 ^ 53 ≤ 10 ^ a * M / 2 := by
      apply div_le_div_of_nonneg_left (by positivity) (by norm_num) (by norm_num)
    have : (2 : ℚ) ^ 250 = 2 ^ 52 * 2 * 2 ^ 197 := by norm_num
    have : (1 : ℚ) ≤ 2 ^ 197 := by norm_num
    linarith
  generalize hPe : roundTo 53 (10 ^ a * M) 1 = P at *
  have hP' : 2 ^ 52 ≤ P := by exact_mod_cast hP
  have h := roundTo_err (p := 53) (n := q * M * P * M) (d := M * M) (by decide) (Nat.mul_pos hM0 hM0) (by
    have : q * M * P * M = q * P * (M * M) := by ring
    rw [this]
    refine Nat.mul_le_mul_right _ ?_
    calc 2 ^ (53 - 1) ≤ P := hP'
      _ = 1 * P := by omega
      _ ≤ q * P := Nat.mul_le_mul_right _ hq)
  have e : ((q * M * P * M : Nat) : ℚ) / ((M * M : Nat) : ℚ) = q * P := by
    push_cast; field_simp
  rw [e] at h
  obtain ⟨h1, h2⟩ := h
  have hg : (g : ℚ) = roundTo 53 (q * M * P * M) (M * M) := by rw [← hPe]
  rw [← hg] at h1 h2
  clear_value g
  have t1 : (q : ℚ) * P - q * (10 ^ a * M) ≤ q * (10 ^ a * M) / 2 ^ 53 := by
    have := mul_le_mul_of_nonneg_left p1 (by linarith : (0 : ℚ) ≤ q)
    rw [mul_sub] at this
    calc _ ≤ _ := this
      _ = _ := by ring
  have t2 : (q : ℚ) * (10 ^ a * M) - q * P ≤ q * (10 ^ a * M) / 2 ^ 53 := by
    have := mul_le_mul_of_nonneg_left p2 (by linarith : (0 : ℚ) ≤ q)
    rw [mul_sub] at this
    calc _ ≤ _ := this
      _ = _ := by ring
  have hY : (0 : ℚ) < q * (10 ^ a * M) := by positivity
  generalize hYe : (q : ℚ) * (10 ^ a * M) = Y at *
  generalize (q : ℚ) * P = Z at *
  have s1 : (g : ℚ) - Y ≤ Y / 2 ^ 51 := by
    have : Z ≤ Y + Y / 2 ^ 53 := by linarith
    have hz : Z / 2 ^ 53 ≤ (Y + Y / 2 ^ 53) / 2 ^ 53 := div_le_div_of_nonneg_right this (by norm_num)
    have : (g : ℚ) - Y ≤ Y / 2 ^ 53 + (Y + Y / 2 ^ 53) / 2 ^ 53 := by linarith
    refine le_trans this ?_
    have : Y / 2 ^ 53 + (Y + Y / 2 ^ 53) / 2 ^ 53 = Y * (1 / 2 ^ 53 + (1 + 1 / 2 ^ 53) / 2 ^ 53) := by ring
    rw [this, div_eq_mul_one_div Y]
    exact mul_le_mul_of_nonneg_left (by norm_num) hY.le
  have s2 : Y - (g : ℚ) ≤ Y / 2 ^ 51 := by
    have : Z ≤ Y + Y / 2 ^ 53 := by linarith
    have hz : Z / 2 ^ 53 ≤ (Y + Y / 2 ^ 53) / 2 ^ 53 := div_le_div_of_nonneg_right this (by norm_num)
    have : Y - (g : ℚ) ≤ Y / 2 ^ 53 + (Y + Y / 2 ^ 53) / 2 ^ 53 := by linarith
    refine le_trans this ?_
    have : Y / 2 ^ 53 + (Y + Y / 2 ^ 53) / 2 ^ 53 = Y * (1 / 2 ^ 53 + (1 + 1 / 2 ^ 53) / 2 ^ 53) := by ring
    rw [this, div_eq_mul_one_div Y]
    exact mul_le_mul_of_nonneg_left (by norm_num) hY.le
  have eY : (q : ℚ) * 10 ^ a = Y / M := by rw [← hYe]; field_simp
  rw [eY, ← sub_div, ← sub_div, div_right_comm]
  exact ⟨div_le_div_of_nonneg_right s1 hM'.le, div_le_div_of_nonneg_right s2 hM'.le⟩

/-- A significand divided by a power of ten in `f64`. -/
theorem div_err (M q a : Nat) (hM : 2 ^ 250 ≤ M) (hq : 1 ≤ q) (ha : a ≤ 59) :
    let g := roundTo 53 (q * M * M) (roundTo 53 (10 ^ a * M) 1)
    (g : ℚ) / M - q / 10 ^ a ≤ q / 10 ^ a / 2 ^ 51 ∧ (q : ℚ) / 10 ^ a - g / M ≤ q / 10 ^ a / 2 ^ 51 := by
  intro g
  have hM0 : 0 < M := Nat.lt_of_lt_of_le (Nat.two_pow_pos 250) hM
  have hM' : (0 : ℚ) < M := by exact_mod_cast hM0
  have hMb : (2 : ℚ) ^ 250 ≤ M := by exact_mod_cast hM
  have ⟨p1, p2⟩ := pow_err M a hM
  have hA : (1 : ℚ) ≤ 10 ^ a := one_le_pow₀ (by norm_num)
  have hA2 : (10 : ℚ) ^ a ≤ 10 ^ 59 := pow_le_pow_right₀ (by norm_num) ha
  have hq' : (1 : ℚ) ≤ q := by exact_mod_cast hq
  have hAM : (M : ℚ) ≤ 10 ^ a * M := le_mul_of_one_le_left hM'.le hA
  have hAM2 : (10 : ℚ) ^ a * M ≤ 10 ^ 59 * M := mul_le_mul_of_nonneg_right hA2 hM'.le
  have hqM : (M : ℚ) ≤ q * M := le_mul_of_one_le_left hM'.le hq'
  generalize hPe : roundTo 53 (10 ^ a * M) 1 = P at *
  generalize hAe : (10 : ℚ) ^ a = A at *
  have hA0 : 0 < A := by linarith
  have hPl : A * M * (1 - 1 / 2 ^ 53) ≤ P := by
    have : A * M * (1 - 1 / 2 ^ 53) = A * M - A * M / 2 ^ 53 := by ring
    linarith
  have hPu : (P : ℚ) ≤ A * M * (1 + 1 / 2 ^ 53) := by
    have : A * M * (1 + 1 / 2 ^ 53) = A * M + A * M / 2 ^ 53 := by ring
    linarith
  have hP0 : (0 : ℚ) < P := lt_of_lt_of_le (by positivity) hPl
  have hP0' : 0 < P := by exact_mod_cast hP0
  have h := roundTo_err (p := 53) (n := q * M * M) (d := P) (by decide) hP0' (by
    have : ((2 ^ (53 - 1) * P : Nat) : ℚ) ≤ ((q * M * M : Nat) : ℚ) := by
      push_cast
      have a1 : (2 : ℚ) ^ (53 - 1) * P ≤ 2 ^ 250 * M := by
        have : (2 : ℚ) ^ (53 - 1) * P ≤ 2 ^ (53 - 1) * (10 ^ 59 * M * 2) := by
          refine mul_le_mul_of_nonneg_left ?_ (by norm_num)
          refine le_trans hPu ?_
          have : A * M * (1 + 1 / 2 ^ 53) ≤ A * M * 2 := mul_le_mul_of_nonneg_left (by norm_num) (by positivity)
          linarith
        refine le_trans this ?_
        have : (2 : ℚ) ^ (53 - 1) * (10 ^ 59 * M * 2) = (2 ^ 52 * 10 ^ 59 * 2) * M := by ring
        rw [this]
        exact mul_le_mul_of_nonneg_right (by norm_num) hM'.le
      refine le_trans a1 ?_
      refine mul_le_mul_of_nonneg_right ?_ hM'.le
      linarith
    exact_mod_cast this)
  obtain ⟨h1, h2⟩ := h
  have hg : (g : ℚ) = roundTo 53 (q * M * M) P := by rw [← hPe]
  rw [← hg] at h1 h2
  clear_value g
  -- the quotient before rounding
  have hY : (0 : ℚ) < q * M / A := by positivity
  have hZl : (q : ℚ) * M / A * (1 - 1 / 2 ^ 52) ≤ ((q * M * M : Nat) : ℚ) / P := by
    rw [le_div_iff₀ hP0]
    refine le_trans (mul_le_mul_of_nonneg_left hPu (by positivity)) ?_
    have : (q : ℚ) * M / A * (1 - 1 / 2 ^ 52) * (A * M * (1 + 1 / 2 ^ 53)) = q * M * M * ((1 - 1 / 2 ^ 52) * (1 + 1 / 2 ^ 53)) := by
      field_simp
    rw [this]; push_cast
    exact mul_le_of_le_one_right (by positivity) (by norm_num)
  have hZu : ((q * M * M : Nat) : ℚ) / P ≤ q * M / A * (1 + 1 / 2 ^ 52) := by
    rw [div_le_iff₀ hP0]
    refine le_trans ?_ (mul_le_mul_of_nonneg_left hPl (by positivity))
    have : (q : ℚ) * M / A * (1 + 1 / 2 ^ 52) * (A * M * (1 - 1 / 2 ^ 53)) = q * M * M * ((1 + 1 / 2 ^ 52) * (1 - 1 / 2 ^ 53)) := by
      field_simp
    rw [this]; push_cast
    exact le_mul_of_one_le_right (by positivity) (by norm_num)
  have eY : (q : ℚ) / A = q * M / A / M := by field_simp
  rw [eY]
  generalize (q : ℚ) * M / A = Y at *
  generalize ((q * M * M : Nat) : ℚ) / P = Z at *
  have hz : Z / 2 ^ 53 ≤ Y * (1 + 1 / 2 ^ 52) / 2 ^ 53 := div_le_div_of_nonneg_right hZu (by norm_num)
  have b : Y * (1 / 2 ^ 52 + (1 + 1 / 2 ^ 52) / 2 ^ 53) ≤ Y / 2 ^ 51 := by
    rw [div_eq_mul_one_div Y]
    exact mul_le_mul_of_nonneg_left (by norm_num) hY.le
  have r1 : Y * (1 + 1 / 2 ^ 52) = Y + Y * (1 / 2 ^ 52) := by ring
  have r2 : Y * (1 - 1 / 2 ^ 52) = Y - Y * (1 / 2 ^ 52) := by ring
  have r3 : Y * (1 / 2 ^ 52 + (1 + 1 / 2 ^ 52) / 2 ^ 53) = Y * (1 / 2 ^ 52) + Y * (1 + 1 / 2 ^ 52) / 2 ^ 53 := by ring
  rw [r3] at b
  have s1 : (g : ℚ) - Y ≤ Y / 2 ^ 51 := by linarith
  have s2 : Y - (g : ℚ) ≤ Y / 2 ^ 51 := by linarith
  rw [← sub_div, ← sub_div, div_right_comm]
  exact ⟨div_le_div_of_nonneg_right s1 hM'.le, div_le_div_of_nonneg_right s2 hM'.le⟩

/-- What `f64_from_parts` gives for a whole significand and a moderate exponent, as a number. -/
theorem fromParts_err_core (fuel q : Nat) (e : ℤ) (hq : 1 ≤ q) (hq2 : q ≤ 2 ^ 64) (h1 : -59 ≤ e) (h2 : e ≤ 55) :
    ∃ g, fromParts fuel (q * 2 ^ 1074) e = some g ∧
      (g : ℚ) / (2 ^ 1074 : Nat) - q * 10 ^ e ≤ q * 10 ^ e / 2 ^ 51 ∧ (q : ℚ) * 10 ^ e - g / (2 ^ 1074 : Nat) ≤ q * 10 ^ e / 2 ^ 51 := by
  have hab : e.natAbs ≤ 308 := by omega
  have hMM : (2 : Nat) ^ 2148 = 2 ^ 1074 * 2 ^ 1074 := by rw [← Nat.pow_add]
  have hM : (2 : Nat) ^ 250 ≤ 2 ^ 1074 := Nat.pow_le_pow_right (by decide) (by decide)
  have htop : f64.top = 2 ^ 1024 * 2 ^ 1074 := by show 2 ^ (1024 + 1074) = _; rw [Nat.pow_add]
  have htop2 : (2 : Nat) ^ 250 ≤ 2 ^ 1024 := Nat.pow_le_pow_right (by decide) (by decide)
  unfold fromParts
  rw [if_pos hab]
  simp only [pow10, r64, hMM, htop]
  generalize (2 : Nat) ^ 1074 = M at *
  generalize (2 : Nat) ^ 1024 = T at *
  have hM0 : 0 < M := Nat.lt_of_lt_of_le (Nat.two_pow_pos 250) hM
  have hM' : (0 : ℚ) < M := by exact_mod_cast hM0
  have hq' : (0 : ℚ) < q := by exact_mod_cast hq
  by_cases h0 : 0 ≤ e
  · rw [if_pos h0]
    have ee : (10 : ℚ) ^ e = 10 ^ e.natAbs := by
      rw [← zpow_natCast, Int.natAbs_of_nonneg h0]
    rw [ee]
    have := mul_err M q e.natAbs hM hq
    refine ⟨_, if_pos ?_, this⟩
    have hb := this.1
    generalize roundTo 53 (q * M * roundTo 53 (10 ^ e.natAbs * M) 1 * M) (M * M) = g at *
    have hA : (10 : ℚ) ^ e.natAbs ≤ 10 ^ 55 := pow_le_pow_right₀ (by norm_num) (by omega)
    have hq3 : (q : ℚ) ≤ 2 ^ 64 := by exact_mod_cast hq2
    have hY : (q : ℚ) * 10 ^ e.natAbs ≤ 2 ^ 64 * 10 ^ 55 := mul_le_mul hq3 hA (by positivity) (by norm_num)
    have hY2 : (q : ℚ) * 10 ^ e.natAbs / 2 ^ 51 ≤ 2 ^ 64 * 10 ^ 55 / 2 ^ 51 := div_le_div_of_nonneg_right hY (by norm_num)
    have hg : (g : ℚ) / M < 2 ^ 250 := by
      have : (2 : ℚ) ^ 64 * 10 ^ 55 + 2 ^ 64 * 10 ^ 55 / 2 ^ 51 < 2 ^ 250 := by norm_num
      linarith
    rw [div_lt_iff₀ hM'] at hg
    have hT : (2 : ℚ) ^ 250 ≤ T := by exact_mod_cast htop2
    have : (g : ℚ) < T * M := lt_of_lt_of_le hg (mul_le_mul_of_nonneg_right hT hM'.le)
    exact_mod_cast this
  · rw [if_neg h0]
    have ee : (q : ℚ) * 10 ^ e = q / 10 ^ e.natAbs := by
      have : e = -(e.natAbs : ℤ) := by omega
      rw [div_eq_mul_inv, ← zpow_natCast, ← zpow_neg, ← this]
    rw [ee]
    exact ⟨_, rfl, div_err M q e.natAbs hM hq (by omega)⟩

/-- What `f64_from_parts` gives for a significand of few digits and a moderate exponent, as a number. -/
theorem fromParts_err (fuel q : Nat) (e : ℤ) (hq : 1 ≤ q) (hq2 : q ≤ 2 ^ 53) (h1 : -59 ≤ e) (h2 : e ≤ 55) :
    ∃ g, fromParts fuel (r64 q 1) e = some g ∧
      (g : ℚ) / (2 ^ 1074 : Nat) - q * 10 ^ e ≤ q * 10 ^ e / 2 ^ 51 ∧ (q : ℚ) * 10 ^ e - g / (2 ^ 1074 : Nat) ≤ q * 10 ^ e / 2 ^ 51 := by
  have hf : r64 q 1 = q * 2 ^ 1074 := by
    have := roundTo_exact (p := 53) (k := q * 2 ^ 1074) (d := 1) Nat.one_pos (rep_of_dvd (by decide) hq2)
    rwa [Nat.mul_one] at this
  rw [hf]
  exact fromParts_err_core fuel q e hq (Nat.le_trans hq2 (by decide)) h1 h2

theorem readNumber_plain (neg : Bool) (q : Nat) (e : ℤ) (hq : q ≤ 18446744073709551615) (he : e.natAbs ≤ 2147483647) :
    ∃ fuel, readNumber (signed neg (plain q e)) = (fromParts fuel (r64 q 1) e).map (.f64 neg) := by
  refine ⟨(-(0 + e)).toNat / 308 + 1, ?_⟩
  unfold readNumber
  rw [signSplit_signed]
  simp only [isNumTok_plain, if_true, readDecimal_plain, Option.bind_some, pushDigits_natStr hq]
  rw [if_neg (by simp)]
  simp only [pushDigits, List.length_nil, Nat.sub_zero]
  rw [if_neg (by omega)]
  simp

/-- Nine digits of a `f32` value are read as the value. -/
theorem readF32_plain (neg : Bool) (k : Nat) (h : Rep f32.prec k ∧ k < f32.top) (hk : k ≠ 0) (e : ℤ)
    (he : e = exp10 k (2 ^ 149) - 8) :
    readF32 (signed neg (plain (nearest (k * 10 ^ (-e).toNat) (2 ^ 149 * 10 ^ e.toNat)) e)) = some (.fin neg ⟨k, h⟩) := by
  have ⟨b1, b2⟩ := exp10_spec (n := k) (d := 2 ^ 149) (by omega) (Nat.two_pow_pos 149)
  have hk0 : (0 : ℚ) < k := by exact_mod_cast Nat.pos_of_ne_zero hk
  obtain ⟨hrep, htop⟩ := h
  have htop' : (k : ℚ) < 2 ^ 128 * 2 ^ 149 := by
    have htop : k < 2 ^ (128 + 149) := htop
    rw [Nat.pow_add] at htop
    have : (k : ℚ) < ((2 ^ 128 * 2 ^ 149 : Nat) : ℚ) := by exact_mod_cast htop
    simpa only [Nat.cast_mul, Nat.cast_pow, Nat.cast_ofNat] using this
  have ht1 : exp10 k (2 ^ 149) = e + 8 := by omega
  rw [ht1] at b1 b2
  simp only [Nat.cast_pow, Nat.cast_ofNat] at b1 b2
  -- the exponent
  have u1 : e ≤ 30 := by
    by_contra hc
    have : (10 : ℚ) ^ (39 : ℤ) ≤ 10 ^ (e + 8) := zpow_le_zpow_right₀ (by norm_num) (by omega)
    have h3 : (k : ℚ) / 2 ^ 149 < 10 ^ (39 : ℤ) := by
      rw [div_lt_iff₀ (by norm_num)]
      refine lt_trans htop' ?_
      exact mul_lt_mul_of_pos_right (by norm_num) (by norm_num)
    linarith
  have u2 : -53 ≤ e := by
    by_contra hc
    have h3 : (10 : ℚ) ^ (e + 8 + 1) ≤ 10 ^ (-45 : ℤ) := zpow_le_zpow_right₀ (by norm_num) (by omega)
    have h4 : (1 : ℚ) / 2 ^ 149 ≤ k / 2 ^ 149 := by
      refine div_le_div_of_nonneg_right ?_ (by norm_num)
      exact_mod_cast Nat.pos_of_ne_zero hk
    have : (10 : ℚ) ^ (-45 : ℤ) < 1 / 2 ^ 149 := by norm_num
    exact absurd (lt_of_le_of_lt h4 (lt_of_lt_of_le b2 h3)) (not_lt.mpr this.le)
  -- the significand
  have hT : (0 : ℚ) < 10 ^ e := by positivity
  have hsc : ((k * 10 ^ (-e).toNat : Nat) : ℚ) / ((2 ^ 149 * 10 ^ e.toNat : Nat) : ℚ) = k / 2 ^ 149 / 10 ^ e := by
    rw [← pow10_ratio e]; simp only [Nat.cast_mul, Nat.cast_pow, Nat.cast_ofNat]; field_simp
  have hn := nearest_err (k * 10 ^ (-e).toNat) (d := 2 ^ 149 * 10 ^ e.toNat) (Nat.mul_pos (Nat.two_pow_pos 149) (Nat.pow_pos (by decide)))
  rw [hsc] at hn
  generalize nearest (k * 10 ^ (-e).toNat) (2 ^ 149 * 10 ^ e.toNat) = q at *
  obtain ⟨n1, n2⟩ := hn
  have c1 : (10 : ℚ) ^ 8 ≤ k / 2 ^ 149 / 10 ^ e := by
    rw [le_div_iff₀ hT]
    have : (10 : ℚ) ^ (e + 8) = 10 ^ 8 * 10 ^ e := by rw [zpow_add₀ (by norm_num)]; norm_num; ring
    linarith
  have c2 : (k : ℚ) / 2 ^ 149 / 10 ^ e < 10 ^ 9 := by
    rw [div_lt_iff₀ hT]
    have : (10 : ℚ) ^ (e + 8 + 1) = 10 ^ 9 * 10 ^ e := by
      rw [add_assoc, zpow_add₀ (by norm_num)]; norm_num; ring
    linarith
  have q1 : (10 : ℚ) ^ 8 - 1 ≤ q := by linarith
  have q2 : (q : ℚ) ≤ 10 ^ 9 + 1 := by linarith
  have q1' : 1 ≤ q := by
    have : (1 : ℚ) ≤ q := le_trans (by norm_num) q1
    exact_mod_cast this
  have q2' : q ≤ 2 ^ 53 := by
    have : (q : ℚ) ≤ ((2 ^ 53 : Nat) : ℚ) := le_trans q2 (by norm_num)
    exact_mod_cast this
  obtain ⟨fuel, hr⟩ := readNumber_plain neg q e (by omega) (by omega)
  obtain ⟨g, hg, e1, e2⟩ := fromParts_err fuel q e q1' q2' (by omega) (by omega)
  unfold readF32
  rw [hr, hg]
  simp only [Option.map_some]
  have hM : (2 : Nat) ^ 1074 = 2 ^ (1074 - 149) * 2 ^ 149 := by rw [← Nat.pow_add]
  rw [hM] at e1 e2
  have hp : (0 : Nat) < 2 ^ (1074 - 149) := Nat.two_pow_pos _
  have hround : roundTo f32.prec g (2 ^ (1074 - 149)) = k := by
    refine roundTo_near hp hrep ?_ ?_
    all_goals
      show _ < (k : ℚ) / 2 ^ (24 + 1)
      generalize (2 : Nat) ^ (1074 - 149) = W at *
      have hW : (0 : ℚ) < W := by exact_mod_cast hp
      have eg : (g : ℚ) / W = g / ((W * 2 ^ 149 : Nat) : ℚ) * 2 ^ 149 := by simp only [Nat.cast_mul, Nat.cast_pow, Nat.cast_ofNat]; field_simp
      have ek : (k : ℚ) = k / 2 ^ 149 * 2 ^ 149 := by field_simp
      have hX : (k : ℚ) / 2 ^ 149 = k / 2 ^ 149 / 10 ^ e * 10 ^ e := by field_simp
      rw [eg]
      generalize (g : ℚ) / ((W * 2 ^ 149 : Nat) : ℚ) = G at *
      generalize (k : ℚ) / 2 ^ 149 / 10 ^ e = x at *
      generalize (10 : ℚ) ^ e = t at *
      generalize hXe : (k : ℚ) / 2 ^ 149 = X at *
      have d1 : (q : ℚ) * t - X ≤ 1 / 2 * t := by
        have := mul_le_mul_of_nonneg_right n1 hT.le
        rw [sub_mul] at this; linarith
      have d2 : X - (q : ℚ) * t ≤ 1 / 2 * t := by
        have := mul_le_mul_of_nonneg_right n2 hT.le
        rw [sub_mul] at this; linarith
      have d3 : 10 ^ 8 * t ≤ X := by
        have := mul_le_mul_of_nonneg_right c1 hT.le
        linarith
      generalize (q : ℚ) * t = Y at *
      have d4 : Y / 2 ^ 51 ≤ (X + 1 / 2 * t) / 2 ^ 51 := div_le_div_of_nonneg_right (by linarith) (by norm_num)
      rw [ek]
      have e3 : X * 2 ^ 149 / 2 ^ (24 + 1) = X / 2 ^ 25 * 2 ^ 149 := by ring
      rw [e3, ← sub_mul]
      refine mul_lt_mul_of_pos_right ?_ (by norm_num)
      linarith
  simp only [Value.round]
  rw [dif_pos ⟨hp, by rw [hround]; exact htop⟩]
  simp only [hround]

/-- Every finite value is the value of its text. -/
theorem readF32_printF32 (neg : Bool) (k : { k : Nat // Rep f32.prec k ∧ k < f32.top }) :
    readF32 (printF32 (.fin neg k)) = some (.fin neg k) := by
  obtain ⟨k, h⟩ := k
  simp only [printF32]
  split
  · next h0 =>
    subst h0
    cases neg
    · have ⟨_, z⟩ : ∃ h, readF32 (s% "0.0") = some (.fin false ⟨0, h⟩) := ⟨by decide +kernel, by decide +kernel⟩
      exact z
    · have ⟨_, z⟩ : ∃ h, readF32 (s% "-0.0") = some (.fin true ⟨0, h⟩) := ⟨by decide +kernel, by decide +kernel⟩
      exact z
  · next h0 => exact find_reads _ readF32 _ _ (readF32_plain neg k h h0 _ rfl)

end Swrs.Ieee
