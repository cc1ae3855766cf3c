import Verif.Float.Midpoint
/-!
# Decimals with few digits are read as the nearest `f32`
-/
namespace Swrs.Ieee

/-- A decimal whose value is a `f64` value is read as that value, if the power of ten is a `f64` value, too. -/
theorem fromParts_exact {fuel q g K : Nat} {e : ℤ} (hq2 : q ≤ 2 ^ 53) (he : e.natAbs ≤ 22) (hK : Rep 53 K)
    (h : (q : ℚ) * 10 ^ e * (2 ^ 1074 : Nat) = K) (hg : fromParts fuel (r64 q 1) e = some g) : g = K := by
  have hf : r64 q 1 = q * 2 ^ 1074 := by
    have := roundTo_exact (p := 53) (k := q * 2 ^ 1074) (d := 1) Nat.one_pos (rep_of_dvd (by decide) hq2)
    rwa [Nat.mul_one] at this
  have hpw : pow10 e.natAbs = 10 ^ e.natAbs * 2 ^ 1074 := by
    have h5 : 5 ^ e.natAbs ≤ 2 ^ 53 := Nat.le_trans (Nat.pow_le_pow_right (by decide) he) (by decide)
    have := roundTo_exact (p := 53) (k := 5 ^ e.natAbs * 2 ^ (e.natAbs + 1074)) (d := 1) Nat.one_pos (rep_of_dvd (by decide) h5)
    rw [Nat.mul_one, Nat.pow_add 2, ← Nat.mul_assoc, ← Nat.mul_pow] at this
    exact this
  have hab : e.natAbs ≤ 308 := by omega
  have hMM : (2 : Nat) ^ 2148 = 2 ^ 1074 * 2 ^ 1074 := by rw [← Nat.pow_add]
  have hM0 : 0 < (2 : Nat) ^ 1074 := Nat.two_pow_pos _
  unfold fromParts at hg
  rw [if_pos hab, hf, hpw] at hg
  simp only [r64, hMM] at hg
  generalize (2 : Nat) ^ 1074 = M at *
  have hM' : (0 : ℚ) < M := by exact_mod_cast hM0
  by_cases h0 : 0 ≤ e
  · rw [if_pos h0] at hg
    split at hg
    · rw [← Option.some.inj hg, roundTo_congr 53 (n' := K * 1) (d' := 1) (Nat.mul_pos hM0 hM0) Nat.one_pos, roundTo_exact Nat.one_pos hK]
      have ee : (10 : ℚ) ^ e = 10 ^ e.natAbs := by
        rw [← zpow_natCast, Int.natAbs_of_nonneg h0]
      rw [Nat.mul_one, ← h, ee]
      push_cast
      field_simp
    · simp at hg
  · rw [if_neg h0] at hg
    have hp : 0 < 10 ^ e.natAbs := Nat.pow_pos (by decide)
    rw [← Option.some.inj hg, roundTo_congr 53 (n' := K * 1) (d' := 1) (Nat.mul_pos hp hM0) Nat.one_pos, roundTo_exact Nat.one_pos hK]
    have ee : (10 : ℚ) ^ e = (10 ^ e.natAbs)⁻¹ := by
      have : e = -(e.natAbs : ℤ) := by omega
      rw [← zpow_natCast, ← zpow_neg, ← this]
    rw [Nat.mul_one, ← h, ee]
    push_cast
    field_simp

/-- A decimal with a significand of up to `33554500` is read as the nearest `f32`. -/
theorem fromParts_round (fuel q : Nat) (e : ℤ) (hq : 1 ≤ q) (hQ : q ≤ 33554500) (h1 : -54 ≤ e) (h2 : e ≤ 39) :
    ∃ g, fromParts fuel (r64 q 1) e = some g ∧
      roundTo 24 g (2 ^ 925) = roundTo 24 (q * 10 ^ e.toNat * 2 ^ 149) (10 ^ (-e).toNat) := by
  have hq53 : q ≤ 2 ^ 53 := Nat.le_trans hQ (by decide)
  obtain ⟨g, hg, e1, e2⟩ := fromParts_err fuel q e hq hq53 (by omega) (by omega)
  refine ⟨g, hg, ?_⟩
  obtain ⟨r, hr, hre⟩ : ∃ r ∈ rows, r.e = e := by
    have := rows_all (e + 54).toNat (by omega)
    rw [List.mem_map] at this
    obtain ⟨r, hr, h⟩ := this
    exact ⟨r, hr, by omega⟩
  have hd : 0 < 10 ^ (-e).toNat := Nat.pow_pos (by decide)
  have hd' : 0 < 2 ^ 925 := Nat.two_pow_pos _
  have hy : ((q * 10 ^ e.toNat * 2 ^ 149 : Nat) : ℚ) / ((10 ^ (-e).toNat : Nat) : ℚ) = q * 10 ^ e * 2 ^ 149 := by
    rw [← pow10_ratio e]; simp only [Nat.cast_mul, Nat.cast_pow, Nat.cast_ofNat]; ring
  have hM : (2 : Nat) ^ 1074 = 2 ^ 925 * 2 ^ 149 := by rw [← Nat.pow_add]
  have hy' : |(q : ℚ) * 10 ^ e * 2 ^ 149 - g / ((2 ^ 925 : Nat) : ℚ)| ≤ (q : ℚ) * 10 ^ e * 2 ^ 149 / 2 ^ 51 := by
    rw [hM] at e1 e2
    generalize (2 : Nat) ^ 925 = W at *
    have hW : (0 : ℚ) < W := by exact_mod_cast hd'
    have eg : (g : ℚ) / W = g / ((W * 2 ^ 149 : Nat) : ℚ) * 2 ^ 149 := by simp only [Nat.cast_mul, Nat.cast_pow, Nat.cast_ofNat]; field_simp
    rw [eg, ← sub_mul, abs_mul, abs_of_pos (by norm_num : (0 : ℚ) < 2 ^ 149), mul_div_right_comm]
    refine mul_le_mul_of_nonneg_right (abs_le.mpr ⟨by linarith, by linarith⟩) (by norm_num)
  by_contra hne
  have hmid : ∃ m t : Nat, 0 < m ∧ m < 2 ^ 25 ∧ |(q : ℚ) * 10 ^ e * 2 ^ 149 - m * 2 ^ t / 2| ≤ (q : ℚ) * 10 ^ e * 2 ^ 149 / 2 ^ 51 := by
    rcases Nat.lt_or_gt_of_ne hne with h | h
    · obtain ⟨m, t, hm0, hm, a, b⟩ := mid_of_roundTo_lt (by decide) hd' hd h
      refine ⟨m, t, hm0, hm, le_trans ?_ hy'⟩
      rw [hy] at b
      rw [abs_of_nonneg (by linarith), abs_of_nonneg (by linarith)]
      linarith
    · obtain ⟨m, t, hm0, hm, a, b⟩ := mid_of_roundTo_lt (by decide) hd hd' h
      refine ⟨m, t, hm0, hm, le_trans ?_ hy'⟩
      rw [hy] at a
      rw [abs_of_nonpos (by linarith), abs_of_nonpos (by linarith)]
      linarith
  obtain ⟨m, t, hm0, hm, hn⟩ := hmid
  rcases Row.near (rows_ok r hr) hq hQ hm0 hm (by rw [hre]) hn with ⟨htie, he⟩ | hexc
  · rw [hre] at he
    have hK : g = m * 2 ^ (t + 924) := by
      refine fromParts_exact hq53 he (rep_of_dvd (by decide) (Nat.le_trans hm.le (by decide))) ?_ hg
      have e925 : (2 : Nat) ^ (t + 924) * 2 = 2 ^ t * 2 ^ 925 := by rw [← Nat.pow_succ, ← Nat.pow_add]
      have e925' : ((2 ^ (t + 924) : Nat) : ℚ) * 2 = 2 ^ t * ((2 ^ 925 : Nat) : ℚ) := by
        have : (((2 : Nat) ^ (t + 924) * 2 : Nat) : ℚ) = ((2 ^ t * 2 ^ 925 : Nat) : ℚ) := by rw [e925]
        rw [Nat.cast_mul, Nat.cast_mul] at this
        simpa using this
      rw [hM]
      generalize (2 : Nat) ^ 925 = W at *
      rw [Nat.cast_mul m]
      generalize ((2 ^ (t + 924) : Nat) : ℚ) = V at *
      push_cast
      linear_combination (W : ℚ) * htie - (m / 2 : ℚ) * e925'
    refine hne (roundTo_congr 24 hd' hd ?_)
    rw [hy, htie, hK, Nat.cast_mul, div_eq_iff (by exact_mod_cast hd'.ne')]
    have e925 : (2 : Nat) ^ (t + 924) * 2 = 2 ^ t * 2 ^ 925 := by rw [← Nat.pow_succ, ← Nat.pow_add]
    have e925' : ((2 ^ (t + 924) : Nat) : ℚ) * 2 = 2 ^ t * ((2 ^ 925 : Nat) : ℚ) := by
      have : (((2 : Nat) ^ (t + 924) * 2 : Nat) : ℚ) = ((2 ^ t * 2 ^ 925 : Nat) : ℚ) := by rw [e925]
      rw [Nat.cast_mul, Nat.cast_mul] at this
      simpa using this
    generalize (2 : Nat) ^ 925 = W at *
    generalize ((2 ^ (t + 924) : Nat) : ℚ) = V at *
    linear_combination (m / 2 : ℚ) * e925'
  · have := rows_excOk r hr
    unfold Row.excOk at this
    rw [List.all_eq_true] at this
    have := this q hexc
    have hfuel : fromParts 0 (r64 q 1) r.e = some g := by
      rw [← hg, hre]
      have hab : e.natAbs ≤ 308 := by omega
      unfold fromParts
      rw [if_pos hab, if_pos hab]
    rw [hfuel, hre] at this
    simp only [Option.all_some, decide_eq_true_eq] at this
    exact hne this

end Swrs.Ieee
