import Verif.Props.Color
import Verif.Props.Floats
import Verif.Float.Accuracy
/-!
# C10: colours given as whole numbers of any size
-/
namespace Swrs
open Ieee

/-- C10: a whole number clamped to the range of `i32`, as the 32 bits of a colour. -/
def c10_Clamped (n : Int) (c : Color) : Prop := (c.value.toNat : Int) = (max (-(2 ^ 31)) (min n (2 ^ 31 - 1))) % 2 ^ 32

/-- The full property C10 is false of the code: `2^63` and all the larger `u64` numbers but the last ones are read as the
smallest number, not as the largest; the last ones as small negative numbers. -/
theorem c10_any_integer_false [Floats] :
    ¬ ∀ n : Int, ∃ c, Json.fromStr Color.dec (intStr n) = some c ∧ c10_Clamped n c := by
  intro h
  obtain ⟨c, h1, h2⟩ := h (2 ^ 63)
  rw [Color.c10_u64_wraps _ (by decide) (by decide)] at h1
  obtain ⟨c', h3, h4⟩ := Color.c10_clamp_partial (2 ^ 63 - 2 ^ 64) (by decide) (by decide)
  rw [h1] at h3
  obtain rfl := Option.some.inj h3
  unfold c10_Clamped at h2
  rw [h2] at h4
  exact absurd h4 (by decide)

theorem c10_clamped_value (n : Int) : c10_Clamped n ⟨(Int32.ofInt (max (-2147483648) (min n 2147483647))).toUInt32⟩ := by
  unfold c10_Clamped
  change (((Int32.ofInt (max (-2147483648) (min n 2147483647))).toUInt32.toNat : Nat) : Int) = _
  have hb : -(2147483648 : Int) ≤ max (-2147483648) (min n 2147483647) ∧ max (-2147483648) (min n 2147483647) ≤ 2147483647 := by omega
  rw [show max (-(2 ^ 31)) (min n (2 ^ 31 - 1)) = max (-2147483648) (min n 2147483647) from rfl]
  generalize max (-2147483648) (min n 2147483647) = m at hb
  have : (Int32.ofInt m).toUInt32.toNat = (m % 2 ^ 32).toNat := by
    change (Int32.ofInt m).toBitVec.toNat = _
    rw [show (Int32.ofInt m).toBitVec = BitVec.ofInt 32 m from rfl, BitVec.toNat_ofInt]
    rfl
  rw [this]; omega

/-- Large whole numbers as `serde_json` reads them. -/
theorem c10_large {tok : Str} {neg : Bool} {n : Nat} (hn : Json.isNumTok tok = true) (hs : signSplit tok = (neg, natStr 10 n))
    (hb : 2 ^ 64 ≤ n) :
    (readNumber tok = none ∨ ∃ g, readNumber tok = some (.f64 neg g) ∧ 2 ^ 40 ≤ g / 2 ^ 1074) ∧
    (n ≤ 10 ^ 308 → readNumber tok ≠ none) ∧ (10 ^ 309 ≤ n → readNumber tok = none) := by
  have hdig := natStr_digits rfl n
  have hd : readDecimal (natStr 10 n) = some ⟨natStr 10 n, [], none⟩ := by
    have h1 := List.takeWhile_append_of_pos (l₂ := ([] : Str)) hdig
    have h2 := List.dropWhile_append_of_pos (l₂ := ([] : Str)) hdig
    simp only [List.append_nil, List.takeWhile_nil, List.dropWhile_nil] at h1 h2
    unfold readDecimal
    simp only [h1, h2]
    simp [natStr_ne_nil, readFrac, readExp]
  have hU : 0 < (2 : Nat) ^ 1074 := Nat.two_pow_pos 1074
  obtain ⟨_, b1, b2⟩ := pow_bound
  rcases readNumber_spec hn hs hd hdig (by simp) with ⟨_, _, hle, _⟩ | ⟨sig, E, hs2, hr, herr, hz, hex, _, _⟩
  · rw [digitsNat_natStr] at hle; simp only [u64max] at hle; omega
  · simp only [List.append_nil, digitsNat_natStr, List.length_nil, Nat.cast_zero, neg_zero, zpow_zero, mul_one] at herr hz hex
    have hs1 : 1 ≤ sig := by
      rcases Nat.eq_zero_or_pos sig with h0 | h0
      · have := hz h0; omega
      · exact h0
    obtain ⟨q', hq', hq1, hq2, he⟩ := r64_sig hs1 hs2
    rw [applyExp, hq'] at hr
    have hT : (0 : ℚ) < 10 ^ E := by positivity
    have herr2 := abs_le.mp herr
    have he2 : |(q' : ℚ) * 10 ^ E - sig * 10 ^ E| ≤ sig * 10 ^ E / 2 ^ 53 := by
      rw [← sub_mul, abs_mul, abs_of_pos hT, mul_div_right_comm]
      exact mul_le_mul_of_nonneg_right he hT.le
    have he2 := abs_le.mp he2
    have hb' : (2 : ℚ) ^ 64 ≤ n := by exact_mod_cast hb
    have hc1 : n ≤ 10 ^ 308 ↔ (n : ℚ) ≤ 10 ^ 308 := by
      rw [show (10 : ℚ) ^ 308 = ((10 ^ 308 : Nat) : ℚ) by rw [Nat.cast_pow]; rfl, Nat.cast_le]
    have hc2 : 10 ^ 309 ≤ n ↔ (10 : ℚ) ^ 309 ≤ n := by
      rw [show (10 : ℚ) ^ 309 = ((10 ^ 309 : Nat) : ℚ) by rw [Nat.cast_pow]; rfl, Nat.cast_le]
    rw [hc1, hc2]
    by_cases hE : E ≤ 308
    · obtain ⟨g, hg, eg⟩ := fromParts_large ((-E).toNat / 308 + 1) q' E hq1 hex hE
      rw [hg] at hr
      have eg2 := abs_le.mp eg
      have b1' : (10 : ℚ) ^ 308 * 101 < ((2 ^ 1024 : Nat) : ℚ) * 100 := by
        have : (((10 : Nat) ^ 308 * 101 : Nat) : ℚ) < ((2 ^ 1024 * 100 : Nat) : ℚ) := Nat.cast_lt.mpr b1
        rw [Nat.cast_mul, Nat.cast_mul, Nat.cast_pow] at this
        simpa only [Nat.cast_ofNat] using this
      have b2' : ((2 ^ 1024 : Nat) : ℚ) * 2 < (10 : ℚ) ^ 309 := by
        have : (((2 : Nat) ^ 1024 * 2 : Nat) : ℚ) < ((10 ^ 309 : Nat) : ℚ) := Nat.cast_lt.mpr b2
        rw [Nat.cast_mul, Nat.cast_pow 10] at this
        simpa only [Nat.cast_ofNat] using this
      clear hg hq' hc1 hc2 b1 b2
      generalize (2 : Nat) ^ 1074 = M at *
      generalize (2 : Nat) ^ 1024 = T at *
      generalize (10 : ℚ) ^ 308 = B at *
      generalize (10 : ℚ) ^ 309 = C at *
      have hM' : (0 : ℚ) < M := by exact_mod_cast hU
      have gl : g < T * M ↔ (g : ℚ) / M < T := by
        rw [div_lt_iff₀ hM']; exact_mod_cast Iff.rfl
      generalize (q' : ℚ) * 10 ^ E = Q at *
      generalize (sig : ℚ) * 10 ^ E = S at *
      have big : 2 ^ 40 ≤ g / M := by
        rw [Nat.le_div_iff_mul_le hU]
        have : (2 : ℚ) ^ 40 ≤ g / M := by linarith
        rw [le_div_iff₀ hM'] at this
        exact_mod_cast this
      refine ⟨?_, fun hle => ?_, fun hge => ?_⟩
      · by_cases hgt : g < T * M
        · rw [if_pos hgt] at hr
          exact .inr ⟨g, hr, big⟩
        · rw [if_neg hgt] at hr
          exact .inl hr
      · have hgt : g < T * M := by rw [gl]; linarith
        rw [if_pos hgt] at hr
        rw [hr]; exact Option.some_ne_none _
      · have hgt : ¬ g < T * M := by rw [gl]; linarith
        rw [if_neg hgt] at hr
        exact hr
    · have hnone : fromParts ((-E).toNat / 308 + 1) (q' * 2 ^ 1074) E = none := by
        unfold fromParts
        rw [if_neg (by omega), if_neg (Nat.mul_ne_zero (by omega) hU.ne'), if_pos (by omega)]
      rw [hnone, Option.map_none] at hr
      refine ⟨.inl hr, fun hle => ?_, fun _ => hr⟩
      exfalso
      have c1 : (10 : ℚ) ^ (309 : ℤ) ≤ 10 ^ E := zpow_le_zpow_right₀ (by norm_num) (by omega)
      rw [show (10 : ℚ) ^ (309 : ℤ) = 10 ^ 309 from zpow_natCast 10 309, pow_succ] at c1
      have a2 : (10 : ℚ) ^ E ≤ sig * 10 ^ E := le_mul_of_one_le_left hT.le (by exact_mod_cast hs1)
      have c0 : (0 : ℚ) < 10 ^ 308 := by positivity
      clear hr hq' hc1 hc2 b1 b2 hnone
      generalize (10 : ℚ) ^ 308 = B at *
      generalize (sig : ℚ) * 10 ^ E = S at *
      generalize (10 : ℚ) ^ E = F at *
      linarith

/-- What the colour reader makes of a number that is not whole or does not fit in 64 bits. -/
theorem c10_reader {n : Int} (h : n < -(2 ^ 63) ∨ 2 ^ 64 ≤ n) :
    @Json.fromStr Color (@Color.dec ieeeFloats.toFloats) (intStr n) = (readF64AsI32 (intStr n)).map fun v => ⟨v.toUInt32⟩ := by
  have p : Json.parse (intStr n) = some (Json.encInt n) := Json.parse_print (Json.encInt n) (by simp)
  simp only [Json.fromStr, p, Option.bind_some, Json.encInt, Color.dec, Json.intOfTok_intStr]
  rw [if_neg (by omega), if_neg (by omega), if_neg (by omega)]
  simp only [Color.ofU32_eq]
  rfl

/-- C10: whole numbers that do not fit in 64 bits are clamped, too, as long as they are within the range of `f64`; beyond it they are
errors. -/
theorem c10_beyond (n : Int) (h : n < -(2 ^ 63) ∨ 2 ^ 64 ≤ n) :
    ((n.natAbs ≤ 10 ^ 308 → ∃ c, @Json.fromStr Color (@Color.dec ieeeFloats.toFloats) (intStr n) = some c) ∧
      (10 ^ 309 ≤ n.natAbs → @Json.fromStr Color (@Color.dec ieeeFloats.toFloats) (intStr n) = none)) ∧
    ∀ c, @Json.fromStr Color (@Color.dec ieeeFloats.toFloats) (intStr n) = some c → c10_Clamped n c := by
  rw [c10_reader h]
  have hs : signSplit (intStr n) = (decide (n < 0), natStr 10 n.natAbs) := by
    cases n with
    | ofNat m => simp [intStr, signSplit_natStr]
    | negSucc m => simp [intStr, signSplit]
  by_cases hb : 2 ^ 64 ≤ n.natAbs
  · obtain ⟨h1, h2, h3⟩ := c10_large (Json.isNumTok_intStr n) hs hb
    refine ⟨⟨fun hle => ?_, fun hge => ?_⟩, fun c hc => ?_⟩
    · rcases h1 with h1 | ⟨g, h1, _⟩
      · exact absurd h1 (h2 hle)
      · unfold readF64AsI32; rw [h1]; exact ⟨_, rfl⟩
    · unfold readF64AsI32; rw [h3 hge]; rfl
    · rcases h1 with h1 | ⟨g, h1, hg⟩
      · unfold readF64AsI32 at hc; rw [h1] at hc; exact absurd hc (by simp)
      · unfold readF64AsI32 at hc; rw [h1] at hc
        have := Option.some.inj hc
        subst this
        have e : toI32 (decide (n < 0)) g = Int32.ofInt (max (-2147483648) (min n 2147483647)) := by
          unfold toI32
          simp only
          congr 1
          generalize g / 2 ^ 1074 = m at hg
          by_cases hn : n < 0
          · simp only [hn, decide_true, if_true]; omega
          · simp only [hn, decide_false]; simp only [Bool.false_eq_true, if_false]; omega
        simp only [e]
        exact c10_clamped_value n
  · have hneg : n < 0 := by omega
    have hr : readNumber (intStr n) = some (.f64 true (r64 n.natAbs 1)) := by
      have hd : readDecimal (natStr 10 n.natAbs) = some ⟨natStr 10 n.natAbs, [], none⟩ := by
        have hdig := natStr_digits rfl n.natAbs
        have h1 := List.takeWhile_append_of_pos (l₂ := ([] : Str)) hdig
        have h2 := List.dropWhile_append_of_pos (l₂ := ([] : Str)) hdig
        simp only [List.append_nil, List.takeWhile_nil, List.dropWhile_nil] at h1 h2
        unfold readDecimal
        simp only [h1, h2]
        simp [natStr_ne_nil, readFrac, readExp]
      unfold readNumber
      rw [hs]
      simp only [Json.isNumTok_intStr, if_true, hd, Option.bind_some, pushDigits_natStr (show n.natAbs ≤ 18446744073709551615 by omega),
        hneg, decide_true, and_self, Bool.true_eq_false, if_false]
      rw [if_pos (by omega)]
    have hx : readF64AsI32 (intStr n) = some (Int32.ofInt (max (-2147483648) (min n 2147483647))) := by
      unfold readF64AsI32
      rw [hr, ← c81_color_whole n]
      simp [hneg]
    rw [hx]
    refine ⟨⟨fun _ => ⟨_, rfl⟩, fun hge => ?_⟩, fun c hc => ?_⟩
    · exfalso
      have : n.natAbs < 10 ^ 309 := Nat.lt_of_lt_of_le (Nat.lt_of_not_le hb) (by decide +kernel)
      omega
    · have := Option.some.inj hc
      subst this
      exact c10_clamped_value n

-- 2^63 wraps around, 2^64 and -2^63 - 1 are clamped, 10^309 is an error
example : @Json.fromStr Color (@Color.dec ieeeFloats.toFloats) (s% "9223372036854775808") = some ⟨0x80000000⟩ ∧
    @Json.fromStr Color (@Color.dec ieeeFloats.toFloats) (s% "18446744073709551615") = some ⟨0xffffffff⟩ ∧
    @Json.fromStr Color (@Color.dec ieeeFloats.toFloats) (s% "18446744073709551616") = some ⟨0x7fffffff⟩ ∧
    @Json.fromStr Color (@Color.dec ieeeFloats.toFloats) (s% "-9223372036854775809") = some ⟨0x80000000⟩ ∧
    @Json.fromStr Color (@Color.dec ieeeFloats.toFloats) ('1' :: List.replicate 309 '0') = none := by decide +kernel

end Swrs
