import Verif.Float.Layout
import Verif.Float.Decimals
import Verif.Float.Ties
/-!
# The texts of values are the shortest ones
-/
namespace Swrs.Ieee

/-- The number is rounded to the value of `k` units; there are `U` units in one. -/
def Good (p U k : Nat) (w : ℚ) : Prop := ∃ n d : Nat, 0 < d ∧ (n : ℚ) / d = w * U ∧ roundTo p n d = k

theorem good_iff {p U k n d : Nat} {w : ℚ} (hd : 0 < d) (h : (n : ℚ) / d = w * U) : Good p U k w ↔ roundTo p n d = k := by
  constructor
  · rintro ⟨n', d', hd', h', rfl⟩
    exact roundTo_congr p hd hd' (by rw [h, h'])
  · intro hr; exact ⟨n, d, hd, h, hr⟩

theorem decimal_ratio (q U : Nat) (e : ℤ) :
    ((q * 10 ^ e.toNat * U : Nat) : ℚ) / ((10 ^ (-e).toNat : Nat) : ℚ) = q * 10 ^ e * U := by
  rw [← pow10_ratio e]; simp only [Nat.cast_mul, Nat.cast_pow, Nat.cast_ofNat]; ring

theorem accept_good {p U k : Nat} (hp : p ≠ 0) (hU : 0 < U) (hk : k ≠ 0) : Accept ((k : ℚ) / U) (Good p U k) where
  near := by
    rintro w q e ⟨n, d, hd, h, hr⟩ hb
    have hU' : (0 : ℚ) < U := by exact_mod_cast hU
    have hd' : 0 < 10 ^ (-e).toNat := Nat.pow_pos (by decide)
    rw [good_iff hd' (decimal_ratio q U e)]
    refine roundTo_between hp hd hd' hr ?_
    rw [decimal_ratio, h]
    have hx : (k : ℚ) = k / U * U := by field_simp
    rw [hx]
    rcases hb with ⟨h1, h2⟩ | ⟨h1, h2⟩
    · exact .inl ⟨mul_le_mul_of_nonneg_right h1 hU'.le, mul_le_mul_of_nonneg_right h2 hU'.le⟩
    · exact .inr ⟨mul_le_mul_of_nonneg_right h1 hU'.le, mul_le_mul_of_nonneg_right h2 hU'.le⟩
  pos := by
    rintro w ⟨n, d, hd, h, hr⟩
    have hU' : (0 : ℚ) < U := by exact_mod_cast hU
    have hd' : (0 : ℚ) < d := by exact_mod_cast hd
    have h0 : n ≠ 0 := by
      rintro rfl
      have : roundTo p 0 d = 0 := by
        have := roundTo_exact (p := p) (k := 0) hd ⟨0, by simp⟩
        rwa [Nat.zero_mul] at this
      exact hk (by rw [← hr, this])
    have hn : (0 : ℚ) < n := by exact_mod_cast Nat.pos_of_ne_zero h0
    have : 0 < w * U := by rw [← h]; positivity
    exact (pos_iff_pos_of_mul_pos this).mpr hU'

theorem nearest_mem (n d len : Nat) (e : ℤ) (he : e = exp10 n d - len + 1) :
    (nearest (n * 10 ^ (-e).toNat) (d * 10 ^ e.toNat), e) ∈ decimalsOf n d len := by
  have hlist : decimalsOf n d len = (neighbours (n * 10 ^ (-e).toNat) (d * 10 ^ e.toNat)).map fun q => (q, e) := by rw [he]; rfl
  rw [hlist, List.mem_map]
  refine ⟨_, ?_, rfl⟩
  unfold neighbours
  split
  · next h => rw [h]; simp
  · next h =>
    unfold nearest at h ⊢
    split
    · simp
    · split
      · simp
      · split <;> simp

/-- Enough digits are enough. -/
theorem good_of_digits {p U k L : Nat} (hU : 0 < U) (hk : k ≠ 0) (hr : Rep p k) (hL : 1 ≤ L) (h : 2 ^ (p + 1) < 2 * 10 ^ (L - 1)) :
    ∃ w, Fits w L ∧ Good p U k w := by
  have hk0 : 0 < k := Nat.pos_of_ne_zero hk
  obtain ⟨e, he⟩ : ∃ e : ℤ, e = exp10 k U - L + 1 := ⟨_, rfl⟩
  have hmem := nearest_mem k U L e he
  have hf := (fits_of_mem hk0 hU hL hmem).1
  have hT : (0 : ℚ) < 10 ^ e := by positivity
  have hU' : (0 : ℚ) < U := by exact_mod_cast hU
  have hsc : ((k * 10 ^ (-e).toNat : Nat) : ℚ) / ((U * 10 ^ e.toNat : Nat) : ℚ) = k / U / 10 ^ e := by
    rw [← pow10_ratio e]; simp only [Nat.cast_mul, Nat.cast_pow, Nat.cast_ofNat]; field_simp
  have hn := nearest_err (k * 10 ^ (-e).toNat) (d := U * 10 ^ e.toNat) (Nat.mul_pos hU (Nat.pow_pos (by decide)))
  rw [hsc] at hn
  generalize nearest (k * 10 ^ (-e).toNat) (U * 10 ^ e.toNat) = q at *
  refine ⟨_, hf, (good_iff (Nat.pow_pos (by decide)) (decimal_ratio q U e)).mpr ?_⟩
  have ⟨b1, _⟩ := exp10_spec hk0 hU
  have ht : (exp10 k U : ℤ) = e + (L - 1 : Nat) := by omega
  rw [ht, zpow_add₀ (by norm_num), zpow_natCast] at b1
  have h' : (2 : ℚ) ^ (p + 1) < 2 * 10 ^ (L - 1) := by exact_mod_cast h
  have hpp : (0 : ℚ) < 2 ^ (p + 1) := by positivity
  have key : 1 / 2 * (10 : ℚ) ^ e * U < k / 2 ^ (p + 1) := by
    rw [lt_div_iff₀ hpp]
    rw [le_div_iff₀ hU'] at b1
    calc 1 / 2 * (10 : ℚ) ^ e * U * 2 ^ (p + 1) < 1 / 2 * (10 : ℚ) ^ e * U * (2 * 10 ^ (L - 1)) :=
          mul_lt_mul_of_pos_left h' (by positivity)
      _ = 10 ^ e * 10 ^ (L - 1) * U := by ring
      _ ≤ k := b1
  have hx : (k : ℚ) = k / U / 10 ^ e * 10 ^ e * U := by field_simp
  obtain ⟨n1, n2⟩ := hn
  refine roundTo_near (Nat.pow_pos (by decide)) hr ?_ ?_
  · rw [decimal_ratio]
    refine lt_of_le_of_lt ?_ key
    conv => lhs; rhs; rw [hx]
    rw [← sub_mul, ← sub_mul]
    exact mul_le_mul_of_nonneg_right (mul_le_mul_of_nonneg_right n1 hT.le) hU'.le
  · rw [decimal_ratio]
    refine lt_of_le_of_lt ?_ key
    conv => lhs; lhs; rw [hx]
    rw [← sub_mul, ← sub_mul]
    exact mul_le_mul_of_nonneg_right (mul_le_mul_of_nonneg_right n2 hT.le) hU'.le

/-! ### `f64` -/

theorem round_eq_fin {F : Format} (hp : F.prec ≠ 0) (neg : Bool) {n d : Nat} (hd : 0 < d) (k : { k : Nat // Rep F.prec k ∧ k < F.top }) :
    Value.round F hp neg n d = .fin neg k ↔ roundTo F.prec n d = k.val := by
  unfold Value.round
  constructor
  · intro h
    split at h
    · have := (Value.fin.inj h).2
      rw [← this]
    · exact absurd h (by simp)
  · intro h
    rw [dif_pos ⟨hd, by rw [h]; exact k.2.2⟩]
    congr 1
    exact Subtype.ext h

/-- Reading the layout of a decimal. -/
theorem readF64_layout (neg : Bool) {q : Nat} (hq : q ≠ 0) (e : ℤ) (k : { k : Nat // Rep f64.prec k ∧ k < f64.top }) :
    readF64 (signed neg (layout64 q e)) = some (.fin neg k) ↔ Good 53 (2 ^ 1074) k.val (q * 10 ^ e) := by
  obtain ⟨m, z, rfl, hm⟩ := exists_strip q hq
  obtain ⟨z', int, frac, ⟨ht, hi, hf, hv, he⟩, _⟩ := layout64_spec hm z e
  rw [ht]
  unfold readF64
  rw [signSplit_number neg hi]
  simp only [readDecimal_number hi hf, ratio, Option.some.injEq]
  rw [round_eq_fin _ _ (Nat.pow_pos (by decide))]
  rw [good_iff (Nat.pow_pos (by decide)) (Eq.trans (decimal_ratio _ _ _) ?_)]
  · exact Iff.rfl
  · rw [he, hv]
    congr 1
    push_cast
    rw [zpow_sub₀ (by norm_num), zpow_add₀ (by norm_num)]
    simp only [zpow_natCast]
    field_simp

/-- What the text of a `f64` is. -/
theorem showF64_spec (neg : Bool) (k : { k : Nat // Rep f64.prec k ∧ k < f64.top }) (hk : k.val ≠ 0) :
    ∃ q e, q ≠ 0 ∧ showF64 (.fin neg k) = signed neg (layout64 q e) ∧ Good 53 (2 ^ 1074) k.val (q * 10 ^ e) ∧
      Fits (q * 10 ^ e) 17 ∧
      ∀ (N : Nat) (w : ℚ), Fits w N → Good 53 (2 ^ 1074) k.val w → Fits (q * 10 ^ e) N ∧
        (|(q : ℚ) * 10 ^ e - k.val / (2 ^ 1074 : Nat)| ≤ |w - k.val / (2 ^ 1074 : Nat)| ∨ ∃ M < N, Fits (q * 10 ^ e) M) := by
  have hU : 0 < 2 ^ 1074 := Nat.two_pow_pos 1074
  have hk0 : 0 < k.val := Nat.pos_of_ne_zero hk
  have hA := accept_good (p := 53) (by decide) hU hk
  let P : Nat × ℤ → Bool := fun c => decide (readF64 (signed neg (layout64 c.1 c.2)) = some (.fin neg k))
  have hP : ∀ len, 1 ≤ len → len ≤ 17 → ∀ c ∈ decimalsOf k.val (2 ^ 1074) len,
      (P c = true ↔ Good 53 (2 ^ 1074) k.val ((c.1 : ℚ) * 10 ^ c.2)) := by
    intro len h1 _ c hc
    have := (fits_of_mem hk0 hU h1 hc).2.2.1
    have h10 : 0 < 10 ^ (len - 1) := Nat.pow_pos (by decide)
    rw [← readF64_layout neg (by omega)]
    exact decide_eq_true_iff
  obtain ⟨w, hw, hg⟩ := good_of_digits (p := 53) (L := 17) hU hk k.2.1 (by decide) (by decide)
  obtain ⟨c, hc⟩ := find_exists (P := P) hk0 hU (by decide) hA (hP 17 (by decide) (by decide)) hw hg
  obtain ⟨⟨len, h1, h2, hmem⟩, h3, h4⟩ := find_shortest hk0 hU hA hP hc
  have hfm := fits_of_mem hk0 hU h1 hmem
  refine ⟨c.1, c.2, ?_, ?_, h3, hfm.1.mono h2, h4⟩
  · have h10 : 0 < 10 ^ (len - 1) := Nat.pow_pos (by decide)
    have := hfm.2.2.1
    omega
  · obtain ⟨k, h⟩ := k
    simp only [showF64]
    rw [if_neg hk, List.find?_map]
    have : (decimals k (2 ^ 1074) 17).find? ((fun t => decide (readF64 t = some (.fin neg ⟨k, h⟩))) ∘
        fun (c : Nat × ℤ) => signed neg (layout64 c.1 c.2)) = some c := hc
    rw [this]; rfl

/-! ### `f32` -/

/-- Decimal exponents of `f32` values. -/
theorem exp10_f32 {k : Nat} (hk : k ≠ 0) (htop : k < f32.top) : -45 ≤ exp10 k (2 ^ 149) ∧ exp10 k (2 ^ 149) ≤ 38 := by
  have ⟨b1, b2⟩ := exp10_spec (n := k) (d := 2 ^ 149) (by omega) (Nat.two_pow_pos 149)
  have hk0 : (0 : ℚ) < k := by exact_mod_cast Nat.pos_of_ne_zero hk
  have htop' : (k : ℚ) < 2 ^ 128 * 2 ^ 149 := by
    have htop : k < 2 ^ (128 + 149) := htop
    rw [Nat.pow_add] at htop
    have : (k : ℚ) < ((2 ^ 128 * 2 ^ 149 : Nat) : ℚ) := by exact_mod_cast htop
    simpa only [Nat.cast_mul, Nat.cast_pow, Nat.cast_ofNat] using this
  simp only [Nat.cast_pow, Nat.cast_ofNat] at b1 b2
  constructor
  · by_contra hc
    have h3 : (10 : ℚ) ^ (exp10 k (2 ^ 149) + 1) ≤ 10 ^ (-45 : ℤ) := zpow_le_zpow_right₀ (by norm_num) (by omega)
    have h4 : (1 : ℚ) / 2 ^ 149 ≤ k / 2 ^ 149 := by
      refine div_le_div_of_nonneg_right ?_ (by norm_num)
      exact_mod_cast Nat.pos_of_ne_zero hk
    have : (10 : ℚ) ^ (-45 : ℤ) < 1 / 2 ^ 149 := by norm_num
    exact absurd (lt_of_le_of_lt h4 (lt_of_lt_of_le b2 h3)) (not_lt.mpr this.le)
  · by_contra hc
    have : (10 : ℚ) ^ (39 : ℤ) ≤ 10 ^ exp10 k (2 ^ 149) := zpow_le_zpow_right₀ (by norm_num) (by omega)
    have h3 : (k : ℚ) / 2 ^ 149 < 10 ^ (39 : ℤ) := by
      rw [div_lt_iff₀ (by norm_num)]
      refine lt_trans htop' ?_
      exact mul_lt_mul_of_pos_right (by norm_num) (by norm_num)
    exact absurd (lt_of_le_of_lt (le_trans this b1) h3) (lt_irrefl _)

theorem readF32_of_fromParts {tok : Str} {neg : Bool} {g : Nat} (h : readNumber tok = some (.f64 neg g))
    (k : { k : Nat // Rep f32.prec k ∧ k < f32.top }) : readF32 tok = some (.fin neg k) ↔ roundTo 24 g (2 ^ 925) = k.val := by
  unfold readF32
  rw [h]
  simp only [Option.map_some, Option.some.injEq]
  exact round_eq_fin (F := f32) _ _ (Nat.two_pow_pos _) k

theorem zpow_split (m z z' : Nat) (e : ℤ) : ((m * 10 ^ z' : Nat) : ℚ) * 10 ^ (e + z - z') = ((m * 10 ^ z : Nat) : ℚ) * 10 ^ e := by
  push_cast
  rw [zpow_sub₀ (by norm_num), zpow_add₀ (by norm_num)]
  simp only [zpow_natCast]
  field_simp

/-- Reading the layout of a decimal with few digits next to a `f32` value. -/
theorem readF32_layout (neg : Bool) (k : { k : Nat // Rep f32.prec k ∧ k < f32.top }) (hk : k.val ≠ 0) {len : Nat} (h1 : 1 ≤ len)
    (h2 : len ≤ 9) {c : Nat × ℤ} (hc : c ∈ decimalsOf k.val (2 ^ 149) len) :
    readF32 (signed neg (layout32 c.1 c.2)) = some (.fin neg k) ↔ Good 24 (2 ^ 149) k.val ((c.1 : ℚ) * 10 ^ c.2) := by
  have hk0 : 0 < k.val := Nat.pos_of_ne_zero hk
  obtain ⟨_, q1, q2, he, hdist⟩ := fits_of_mem hk0 (Nat.two_pow_pos 149) h1 hc
  obtain ⟨t1, t2⟩ := exp10_f32 hk k.2.2
  obtain ⟨q, e⟩ := c
  simp only at *
  have h10 : 0 < 10 ^ (len - 1) := Nat.pow_pos (by decide)
  have h10' : 10 ^ len ≤ 10 ^ 9 := Nat.pow_le_pow_right (by decide) h2
  obtain ⟨m, z, rfl, hm⟩ := exists_strip q (by omega)
  have hm0 : 0 < m := by rcases Nat.eq_zero_or_pos m with rfl | h <;> simp_all
  have hmq : m ≤ m * 10 ^ z := Nat.le_mul_of_pos_right m (Nat.pow_pos (by decide))
  have hz : z ≤ len := by
    by_contra hlt
    have a1 : 10 ^ (len + 1) ≤ 10 ^ z := Nat.pow_le_pow_right (by decide) (by omega)
    have a2 : 1 * 10 ^ z ≤ m * 10 ^ z := Nat.mul_le_mul_right _ hm0
    rw [Nat.pow_succ] at a1
    have : 0 < 10 ^ len := Nat.pow_pos (by decide)
    omega
  obtain ⟨z', int, frac, x, ⟨ht, hi, hf, hv, hex⟩, hz', hsh⟩ := layout32_spec hm z e
  rw [ht]
  have hval := zpow_split m z z' e
  have hlen := decLen_bounds m
  have hsig : m * 10 ^ z' ≤ 2 ^ 53 := by
    rcases hz' with rfl | ⟨h3, h4⟩
    · rw [Nat.pow_zero, Nat.mul_one]
      exact Nat.le_trans (Nat.le_trans hmq (Nat.le_trans q1 h10')) (by decide)
    · have h5 : m * 10 ^ z' ≤ 10 ^ decLen m * 10 ^ z' := Nat.mul_le_mul_right _ hlen.1.le
      rw [← Nat.pow_add] at h5
      exact Nat.le_trans h5 (Nat.le_trans (Nat.pow_le_pow_right (by decide) (show decLen m + z' ≤ 14 by omega)) (by decide))
  have hsig0 : 1 ≤ m * 10 ^ z' := Nat.mul_pos hm0 (Nat.pow_pos (by decide))
  have hfx : frac ≠ [] ∨ x ≠ none := by
    rcases hsh with h | ⟨y, h, _⟩
    · exact .inl h.2.1
    · exact .inr (by rw [h]; simp)
  have hdl : decLen m ≤ 10 := by
    by_contra hlt
    have := hlen.2 (by omega)
    have : 10 ^ 10 ≤ 10 ^ (decLen m - 1) := Nat.pow_le_pow_right (by decide) (by omega)
    omega
  have hx : (x.getD 0).natAbs ≤ 2147483647 := by
    rcases hsh with h | ⟨y, rfl, _, _, _, hy, _⟩
    · rw [h.1]; decide
    · simp only [Option.getD_some]; omega
  have hexp : -54 ≤ e + z - z' ∧ e + z - z' ≤ 39 := by
    rcases hz' with rfl | ⟨h3, h4⟩
    · constructor <;> push_cast <;> omega
    · omega
  obtain ⟨fuel, hr⟩ := readNumber_number (int := int) (frac := frac) (x := x) neg hi hf hfx hx (by rw [hv]; omega)
  rw [hv, hex] at hr
  obtain ⟨g, hg, e1, e2⟩ := fromParts_err fuel (m * 10 ^ z') (e + z - z') hsig0 hsig (by omega) (by omega)
  rw [hg, Option.map_some] at hr
  rw [readF32_of_fromParts hr]
  have hU : 0 < 2 ^ 149 := Nat.two_pow_pos 149
  have hp : 0 < 2 ^ 925 := Nat.two_pow_pos 925
  have hM : (2 : Nat) ^ 1074 = 2 ^ 925 * 2 ^ 149 := by rw [← Nat.pow_add]
  by_cases hzz : z' = 0
  · subst hzz
    rw [Nat.pow_zero, Nat.mul_one] at *
    by_cases hQ : m ≤ 33554500
    · obtain ⟨g', hg', hgr⟩ := fromParts_round fuel m (e + z - (0 : Nat)) hm0 hQ hexp.1 hexp.2
      rw [hg] at hg'
      obtain rfl := Option.some.inj hg'
      rw [hgr, ← hval, good_iff (Nat.pow_pos (by decide)) (decimal_ratio m (2 ^ 149) (e + z - (0 : Nat)))]
    · -- so many digits that both decimals are good enough
      rw [hval, hM] at e1 e2
      have hT : (0 : ℚ) < 10 ^ e := by positivity
      have hV : (33554501 : ℚ) * 10 ^ e ≤ ((m * 10 ^ z : Nat) : ℚ) * 10 ^ e := by
        refine mul_le_mul_of_nonneg_right ?_ hT.le
        have : 33554501 ≤ m * 10 ^ z := by omega
        exact_mod_cast this
      have hUq : (0 : ℚ) < 2 ^ 149 := by norm_num
      have hcU : ((2 ^ 149 : Nat) : ℚ) = 2 ^ 149 := by norm_num
      rw [hcU] at hdist
      have hd2 := abs_le.mp hdist
      have ek : (k.val : ℚ) = k.val / 2 ^ 149 * 2 ^ 149 := by field_simp
      have e3 : (k.val : ℚ) / 2 ^ (24 + 1) = k.val / 2 ^ 149 / 2 ^ 25 * 2 ^ 149 := by ring
      have hgood : Good 24 (2 ^ 149) k.val (((m * 10 ^ z : Nat) : ℚ) * 10 ^ e) := by
        rw [good_iff (Nat.pow_pos (by decide)) (decimal_ratio _ _ _)]
        refine roundTo_near (Nat.pow_pos (by decide)) k.2.1 ?_ ?_
        · rw [decimal_ratio, hcU]
          show _ < (k.val : ℚ) / 2 ^ (24 + 1)
          rw [e3]; conv => lhs; rhs; rw [ek]
          rw [← sub_mul]
          refine mul_lt_mul_of_pos_right ?_ hUq
          linarith
        · rw [decimal_ratio, hcU]
          show _ < (k.val : ℚ) / 2 ^ (24 + 1)
          rw [e3]; conv => lhs; lhs; rw [ek]
          rw [← sub_mul]
          refine mul_lt_mul_of_pos_right ?_ hUq
          linarith
      refine ⟨fun _ => hgood, fun _ => ?_⟩
      generalize (2 : Nat) ^ 925 = W at *
      have hW : (0 : ℚ) < W := by exact_mod_cast hp
      have eg : (g : ℚ) / W = g / ((W * 2 ^ 149 : Nat) : ℚ) * 2 ^ 149 := by simp only [Nat.cast_mul, Nat.cast_pow, Nat.cast_ofNat]; field_simp
      generalize (g : ℚ) / ((W * 2 ^ 149 : Nat) : ℚ) = G at *
      generalize ((m * 10 ^ z : Nat) : ℚ) * 10 ^ e = V at *
      refine roundTo_near hp k.2.1 ?_ ?_
      · show _ < (k.val : ℚ) / 2 ^ (24 + 1)
        rw [e3, eg]; conv => lhs; rhs; rw [ek]
        rw [← sub_mul]
        refine mul_lt_mul_of_pos_right ?_ hUq
        linarith
      · show _ < (k.val : ℚ) / 2 ^ (24 + 1)
        rw [e3, eg]; conv => lhs; lhs; rw [ek]
        rw [← sub_mul]
        refine mul_lt_mul_of_pos_right ?_ hUq
        linarith
  · -- a whole number
    obtain ⟨h3, h4⟩ := hz'.resolve_left hzz
    obtain ⟨i, hi'⟩ : ∃ i : Nat, e + z = i := ⟨z' - 1, by omega⟩
    obtain rfl : z' = i + 1 := by omega
    have hwh : ((m * 10 ^ i : Nat) : ℚ) = ((m * 10 ^ (i + 1) : Nat) : ℚ) * 10 ^ (e + z - (i + 1 : Nat)) := by
      rw [hi', show ((i : ℤ) - (i + 1 : Nat)) = -1 by push_cast; ring, Nat.pow_succ]
      push_cast
      rw [zpow_neg_one]; field_simp
    have hsm : m * 10 ^ i ≤ 2 ^ 53 := by
      refine Nat.le_trans ?_ hsig
      exact Nat.mul_le_mul_left _ (Nat.pow_le_pow_right (by decide) (by omega))
    have hK := fromParts_exact (K := m * 10 ^ i * 2 ^ 1074) hsig (by omega) (rep_of_dvd (by decide) hsm)
      (by rw [← hwh, ← Nat.cast_mul]) hg
    rw [good_iff hp]
    rw [hK, hM, ← hval, ← hwh]
    generalize (2 : Nat) ^ 925 = W at *
    have hW : (0 : ℚ) < W := by exact_mod_cast hp
    rw [Nat.cast_mul, Nat.cast_mul W]
    field_simp

/-- What the text of a `f32` is. -/
theorem printF32_spec (neg : Bool) (k : { k : Nat // Rep f32.prec k ∧ k < f32.top }) (hk : k.val ≠ 0) :
    ∃ q e, q ≠ 0 ∧ printF32 (.fin neg k) = signed neg (layout32 q e) ∧ Good 24 (2 ^ 149) k.val (q * 10 ^ e) ∧
      Fits (q * 10 ^ e) 9 ∧
      ∀ (N : Nat) (w : ℚ), Fits w N → Good 24 (2 ^ 149) k.val w → Fits (q * 10 ^ e) N ∧
        (|(q : ℚ) * 10 ^ e - k.val / (2 ^ 149 : Nat)| ≤ |w - k.val / (2 ^ 149 : Nat)| ∨ ∃ M < N, Fits (q * 10 ^ e) M) := by
  have hU : 0 < 2 ^ 149 := Nat.two_pow_pos 149
  have hk0 : 0 < k.val := Nat.pos_of_ne_zero hk
  have hA := accept_good (p := 24) (by decide) hU hk
  let P : Nat × ℤ → Bool := fun c => decide (readF32 (signed neg (layout32 c.1 c.2)) = some (.fin neg k))
  have hP : ∀ len, 1 ≤ len → len ≤ 9 → ∀ c ∈ decimalsOf k.val (2 ^ 149) len,
      (P c = true ↔ Good 24 (2 ^ 149) k.val ((c.1 : ℚ) * 10 ^ c.2)) := by
    intro len h1 h2 c hc
    rw [← readF32_layout neg k hk h1 h2 hc]
    exact decide_eq_true_iff
  obtain ⟨w, hw, hg⟩ := good_of_digits (p := 24) (L := 9) hU hk k.2.1 (by decide) (by decide)
  obtain ⟨c, hc⟩ := find_exists (P := P) hk0 hU (by decide) hA (hP 9 (by decide) (by decide)) hw hg
  obtain ⟨⟨len, h1, h2, hmem⟩, h3, h4⟩ := find_shortest hk0 hU hA hP hc
  have hfm := fits_of_mem hk0 hU h1 hmem
  refine ⟨c.1, c.2, ?_, ?_, h3, hfm.1.mono h2, h4⟩
  · have h10 : 0 < 10 ^ (len - 1) := Nat.pow_pos (by decide)
    have := hfm.2.2.1
    omega
  · obtain ⟨k, h⟩ := k
    simp only [printF32]
    rw [if_neg hk, List.find?_map]
    have : (decimals k (2 ^ 149) 9).find? ((fun t => decide (readF32 t = some (.fin neg ⟨k, h⟩))) ∘
        fun (c : Nat × ℤ) => signed neg (layout32 c.1 c.2)) = some c := hc
    rw [this]; rfl

end Swrs.Ieee
