import Verif.Float.Single
import Mathlib.Tactic.Linarith
/-!
# The search for the shortest decimal
-/
namespace Swrs.Ieee

/-- The number can be written with so many digits (and a power of ten). -/
def Fits (v : ℚ) (len : Nat) : Prop := ∃ m : Nat, m < 10 ^ len ∧ ∃ e : ℤ, v = m * 10 ^ e

theorem Fits.mono {v : ℚ} {a b : Nat} (h : Fits v a) (hab : a ≤ b) : Fits v b := by
  obtain ⟨m, hm, e, he⟩ := h
  exact ⟨m, Nat.lt_of_lt_of_le hm (Nat.pow_le_pow_right (by decide) hab), e, he⟩

theorem decimals_succ (n d L : Nat) : decimals n d (L + 1) = decimals n d L ++ decimalsOf n d (L + 1) := by
  simp [decimals, List.range_succ]

/-- The search goes through the lengths. -/
theorem find_decimals (P : Nat × ℤ → Bool) (n d L : Nat) :
    (∀ c, (decimals n d L).find? P = some c →
      ∃ len, 1 ≤ len ∧ len ≤ L ∧ (decimalsOf n d len).find? P = some c ∧
        ∀ l, 1 ≤ l → l < len → (decimalsOf n d l).find? P = none) ∧
    ((decimals n d L).find? P = none → ∀ l, 1 ≤ l → l ≤ L → (decimalsOf n d l).find? P = none) := by
  induction L with
  | zero => exact ⟨fun c h => by simp [decimals] at h, fun _ l h1 h2 => by omega⟩
  | succ L ih =>
    rw [decimals_succ, List.find?_append]
    cases h : (decimals n d L).find? P with
    | some c =>
      refine ⟨fun c' hc => ?_, fun hn => by simp at hn⟩
      obtain rfl : c = c' := by simpa using hc
      obtain ⟨len, h1, h2, h3⟩ := ih.1 c h
      exact ⟨len, h1, by omega, h3⟩
    | none =>
      have hl := ih.2 h
      refine ⟨fun c hc => ⟨L + 1, by omega, by omega, by simpa using hc, fun l h1 h2 => hl l h1 (by omega)⟩, fun hn l h1 h2 => ?_⟩
      by_cases he : l = L + 1
      · subst he; simpa using hn
      · exact hl l h1 (by omega)

section
variable {n d : Nat} (hn : 0 < n) (hd : 0 < d)

/-- The whole numbers next to the scaled number. -/
theorem decimalsOf_spec (n : Nat) {d : Nat} (hd : 0 < d) (len : Nat) (e : ℤ) (he : e = exp10 n d - len + 1) :
    ∃ F : Nat, (F : ℚ) * 10 ^ e ≤ n / d ∧ (n : ℚ) / d < (F + 1) * 10 ^ e ∧
      ((decimalsOf n d len = [(F, e), (F + 1, e)] ∧ ∀ m : Nat, |(F : ℚ) * 10 ^ e - n / d| ≤ |(m : ℚ) * 10 ^ e - n / d|) ∨
       (decimalsOf n d len = [(F + 1, e), (F, e)] ∧ ∀ m : Nat, |((F + 1 : Nat) : ℚ) * 10 ^ e - n / d| ≤ |(m : ℚ) * 10 ^ e - n / d|)) := by
  have hT : (0 : ℚ) < 10 ^ e := by positivity
  have hD : 0 < d * 10 ^ e.toNat := Nat.mul_pos hd (Nat.pow_pos (by decide))
  have hsc : ((n * 10 ^ (-e).toNat : Nat) : ℚ) / ((d * 10 ^ e.toNat : Nat) : ℚ) = n / d / 10 ^ e := by
    rw [← pow10_ratio e]; simp only [Nat.cast_mul, Nat.cast_pow, Nat.cast_ofNat]
    have : (d : ℚ) ≠ 0 := by exact_mod_cast hd.ne'
    field_simp
  have hnear := nearest_le_abs (n * 10 ^ (-e).toNat) hD
  have hfl := floor_le (n * 10 ^ (-e).toNat) hD
  rw [hsc] at hnear hfl
  have hX : (n : ℚ) / d = n / d / 10 ^ e * 10 ^ e := by field_simp
  have hlist : decimalsOf n d len = (neighbours (n * 10 ^ (-e).toNat) (d * 10 ^ e.toNat)).map fun q => (q, e) := by
    rw [he]; rfl
  rw [hlist]
  unfold neighbours
  refine ⟨n * 10 ^ (-e).toNat / (d * 10 ^ e.toNat), ?_, ?_, ?_⟩
  · rw [hX]; exact mul_le_mul_of_nonneg_right hfl.1 hT.le
  · rw [hX]; exact mul_lt_mul_of_pos_right hfl.2 hT
  · have hdist : ∀ c m : Nat, |(c : ℚ) - n / d / 10 ^ e| ≤ |(m : ℚ) - n / d / 10 ^ e| →
        |(c : ℚ) * 10 ^ e - n / d| ≤ |(m : ℚ) * 10 ^ e - n / d| := by
      intro c m h
      rw [hX, ← sub_mul, ← sub_mul, abs_mul, abs_mul]
      exact mul_le_mul_of_nonneg_right h (abs_nonneg _)
    split
    · next h =>
      refine .inl ⟨rfl, fun m => hdist _ _ ?_⟩
      rw [← h]; exact hnear m
    · next h =>
      refine .inr ⟨rfl, fun m => hdist _ _ ?_⟩
      have h' : nearest (n * 10 ^ (-e).toNat) (d * 10 ^ e.toNat) = n * 10 ^ (-e).toNat / (d * 10 ^ e.toNat) + 1 := by
        unfold nearest at h ⊢
        split
        · next h1 => rw [if_pos h1] at h; exact absurd rfl h
        · next h1 =>
          rw [if_neg h1] at h
          split
          · rfl
          · next h2 =>
            rw [if_neg h2] at h
            split
            · next h3 => rw [if_pos h3] at h; exact absurd rfl h
            · rfl
      rw [← h']; exact hnear m

include hn hd in
/-- What can be written with so many digits is not between the number and the decimals of that length next to it. -/
theorem fits_beyond {len : Nat} (hlen : 1 ≤ len) {e : ℤ} (he : e = exp10 n d - len + 1) {F : Nat}
    (h1 : (F : ℚ) * 10 ^ e ≤ n / d) (h2 : (n : ℚ) / d < (F + 1) * 10 ^ e) {w : ℚ} (hw : Fits w len) :
    w ≤ (F : ℚ) * 10 ^ e ∨ (F + 1 : ℚ) * 10 ^ e ≤ w := by
  obtain ⟨m, hm, e', rfl⟩ := hw
  have ⟨b1, b2⟩ := exp10_spec hn hd
  have hT : (0 : ℚ) < 10 ^ e := by positivity
  have ht : exp10 n d = e + (len - 1 : Nat) := by omega
  by_cases hc : (m : ℚ) * 10 ^ e' < 10 ^ exp10 n d
  · left
    have hF : 10 ^ (len - 1) ≤ F := by
      have : (10 : ℚ) ^ (len - 1) < F + 1 := by
        rw [ht, zpow_add₀ (by norm_num), zpow_natCast, mul_comm] at b1
        exact lt_of_mul_lt_mul_right (lt_of_le_of_lt b1 h2) hT.le
      have : 10 ^ (len - 1) < F + 1 := by exact_mod_cast this
      omega
    have hF' : ((10 : ℚ) ^ (len - 1)) ≤ F := by exact_mod_cast hF
    rw [ht, zpow_add₀ (by norm_num), zpow_natCast, mul_comm (10 ^ e)] at hc
    exact le_trans hc.le (mul_le_mul_of_nonneg_right hF' hT.le)
  · have hc := not_lt.mp hc
    have hee : e ≤ e' := by
      have hm' : (m : ℚ) < 10 ^ (len : ℤ) := by rw [zpow_natCast]; exact_mod_cast hm
      have h3 : (10 : ℚ) ^ exp10 n d < 10 ^ ((len : ℤ) + e') := by
        rw [zpow_add₀ (by norm_num)]
        exact lt_of_le_of_lt hc (mul_lt_mul_of_pos_right hm' (by positivity))
      have := (zpow_lt_zpow_iff_right₀ (by norm_num : (1 : ℚ) < 10)).mp h3
      omega
    obtain ⟨i, hi⟩ := Int.eq_ofNat_of_zero_le (Int.sub_nonneg_of_le hee)
    have hw : (m : ℚ) * 10 ^ e' = ((m * 10 ^ i : Nat) : ℚ) * 10 ^ e := by
      obtain rfl : e' = e + i := by omega
      rw [zpow_add₀ (by norm_num), zpow_natCast]; push_cast; ring
    rw [hw]
    by_cases hl : m * 10 ^ i ≤ F
    · left
      have : ((m * 10 ^ i : Nat) : ℚ) ≤ F := by exact_mod_cast hl
      exact mul_le_mul_of_nonneg_right this hT.le
    · right
      have : (F + 1 : ℚ) ≤ ((m * 10 ^ i : Nat) : ℚ) := by
        have : F + 1 ≤ m * 10 ^ i := by omega
        exact_mod_cast this
      exact mul_le_mul_of_nonneg_right this hT.le

/-- What is wanted of decimals: that they are accepted only depends on the number, is so for what lies nearer, and needs a positive one. -/
structure Accept (x : ℚ) (Good : ℚ → Prop) : Prop where
  near : ∀ (w : ℚ) (q : Nat) (e : ℤ), Good w → (w ≤ (q : ℚ) * 10 ^ e ∧ (q : ℚ) * 10 ^ e ≤ x) ∨ (x ≤ (q : ℚ) * 10 ^ e ∧ (q : ℚ) * 10 ^ e ≤ w) →
    Good (q * 10 ^ e)
  pos : ∀ w, Good w → 0 < w

variable {Good : ℚ → Prop} {P : Nat × ℤ → Bool}

include hn hd in
/-- If some number of that many digits is accepted, one of the two decimals is, and it is as near. -/
theorem find_of_fits {len : Nat} (hlen : 1 ≤ len) (hG : Accept (n / d) Good)
    (hP : ∀ c ∈ decimalsOf n d len, (P c = true ↔ Good ((c.1 : ℚ) * 10 ^ c.2))) {w : ℚ} (hw : Fits w len) (hg : Good w) :
    ∃ c, (decimalsOf n d len).find? P = some c ∧ |(c.1 : ℚ) * 10 ^ c.2 - n / d| ≤ |w - n / d| := by
  obtain ⟨F, f1, f2, hl⟩ := decimalsOf_spec n hd len _ rfl
  have hb := fits_beyond hn hd hlen rfl f1 f2 hw
  generalize (exp10 n d : ℤ) - len + 1 = e at *
  have hc2 : (((F + 1 : Nat) : ℚ)) = F + 1 := by push_cast; ring
  -- the decimal on the side of `w`
  have side : ∃ s : Nat, (s = F ∨ s = F + 1) ∧ Good ((s : ℚ) * 10 ^ e) ∧ |(s : ℚ) * 10 ^ e - n / d| ≤ |w - n / d| := by
    rcases hb with h | h
    · refine ⟨F, .inl rfl, hG.near w F e hg (.inl ⟨h, f1⟩), ?_⟩
      rw [abs_of_nonpos (by linarith), abs_of_nonpos (by linarith)]
      linarith
    · refine ⟨F + 1, .inr rfl, hG.near w (F + 1) e hg (.inr ⟨by rw [hc2]; exact f2.le, by rw [hc2]; exact h⟩), ?_⟩
      rw [hc2, abs_of_nonneg (by linarith), abs_of_nonneg (by linarith)]
      linarith
  obtain ⟨s, hs, hsg, hsd⟩ := side
  have two : ∀ a b : Nat, decimalsOf n d len = [(a, e), (b, e)] → (∀ m : Nat, |(a : ℚ) * 10 ^ e - n / d| ≤ |(m : ℚ) * 10 ^ e - n / d|) →
      (s = a ∨ s = b) → ∃ c, (decimalsOf n d len).find? P = some c ∧ |(c.1 : ℚ) * 10 ^ c.2 - n / d| ≤ |w - n / d| := by
    intro a b hl hnear hs
    rw [hl] at hP ⊢
    by_cases hPa : P (a, e) = true
    · exact ⟨(a, e), by simp [hPa], le_trans (hnear s) hsd⟩
    · rcases hs with rfl | rfl
      · exact absurd ((hP (s, e) (by simp)).mpr hsg) hPa
      · have := (hP (s, e) (by simp)).mpr hsg
        exact ⟨(s, e), by simp [hPa, this], hsd⟩
  rcases hl with ⟨h1, h2⟩ | ⟨h1, h2⟩
  · exact two _ _ h1 h2 hs
  · exact two _ _ h1 h2 hs.symm

include hn hd in
theorem fits_of_mem {len : Nat} (hlen : 1 ≤ len) {c : Nat × ℤ} (hc : c ∈ decimalsOf n d len) :
    Fits ((c.1 : ℚ) * 10 ^ c.2) len ∧ c.1 ≤ 10 ^ len ∧ 10 ^ (len - 1) ≤ c.1 ∧ c.2 = exp10 n d - len + 1 ∧
      |(c.1 : ℚ) * 10 ^ c.2 - n / d| ≤ 10 ^ c.2 := by
  obtain ⟨F, f1, f2, hl⟩ := decimalsOf_spec n hd len _ rfl
  have ⟨b1, b2⟩ := exp10_spec hn hd
  have ht : (exp10 n d : ℤ) + 1 = (exp10 n d - len + 1) + len := by omega
  have ht' : (exp10 n d : ℤ) = (exp10 n d - len + 1) + (len - 1 : Nat) := by omega
  rw [ht] at b2
  generalize he : (exp10 n d : ℤ) - len + 1 = e at *
  rw [ht'] at b1
  have hT : (0 : ℚ) < 10 ^ e := by positivity
  have hF : F < 10 ^ len := by
    have : (F : ℚ) < 10 ^ len := by
      rw [zpow_add₀ (by norm_num), zpow_natCast, mul_comm (10 ^ e)] at b2
      exact lt_of_mul_lt_mul_right (lt_of_le_of_lt f1 b2) hT.le
    exact_mod_cast this
  have hF2 : 10 ^ (len - 1) < F + 1 := by
    have : (10 : ℚ) ^ (len - 1) < F + 1 := by
      rw [zpow_add₀ (by norm_num), zpow_natCast, mul_comm (10 ^ e)] at b1
      exact lt_of_mul_lt_mul_right (lt_of_le_of_lt b1 f2) hT.le
    exact_mod_cast this
  have hc2 : (((F + 1 : Nat) : ℚ)) = F + 1 := by push_cast; ring
  have hc : c = (F, e) ∨ c = (F + 1, e) := by
    rcases hl with ⟨h, _⟩ | ⟨h, _⟩ <;> rw [h] at hc <;> simp at hc <;> tauto
  have hfit : Fits ((c.1 : ℚ) * 10 ^ c.2) len := by
    by_cases h : c.1 < 10 ^ len
    · exact ⟨c.1, h, c.2, rfl⟩
    · refine ⟨1, Nat.one_lt_pow (by omega) (by decide), c.2 + len, ?_⟩
      have : c.1 = 10 ^ len := by rcases hc with rfl | rfl <;> simp only at h ⊢ <;> omega
      rw [this, zpow_add₀ (by norm_num), zpow_natCast]; push_cast; ring
  refine ⟨hfit, ?_, ?_, ?_, ?_⟩
  · rcases hc with rfl | rfl <;> simp only <;> omega
  · rcases hc with rfl | rfl <;> simp only <;> omega
  · rcases hc with rfl | rfl <;> simp only
  · rcases hc with rfl | rfl <;> simp only
    · exact abs_le.mpr ⟨by linarith, by linarith⟩
    · rw [hc2]; exact abs_le.mpr ⟨by linarith, by linarith⟩

include hn hd in
/-- What is found is the shortest decimal that is accepted, and of these the nearest. -/
theorem find_shortest {L : Nat} (hG : Accept (n / d) Good)
    (hP : ∀ len, 1 ≤ len → len ≤ L → ∀ c ∈ decimalsOf n d len, (P c = true ↔ Good ((c.1 : ℚ) * 10 ^ c.2))) {c : Nat × ℤ}
    (hc : (decimals n d L).find? P = some c) :
    (∃ len, 1 ≤ len ∧ len ≤ L ∧ c ∈ decimalsOf n d len) ∧ Good ((c.1 : ℚ) * 10 ^ c.2) ∧
    ∀ (N : Nat) (w : ℚ), Fits w N → Good w → Fits ((c.1 : ℚ) * 10 ^ c.2) N ∧
      (|(c.1 : ℚ) * 10 ^ c.2 - n / d| ≤ |w - n / d| ∨ ∃ M < N, Fits ((c.1 : ℚ) * 10 ^ c.2) M) := by
  obtain ⟨len, h1, h2, h3, h4⟩ := (find_decimals P n d L).1 c hc
  have hmem := List.mem_of_find?_eq_some h3
  have hfit := (fits_of_mem hn hd h1 hmem).1
  refine ⟨⟨len, h1, h2, hmem⟩, (hP len h1 h2 c hmem).mp (List.find?_some h3), fun N w hw hg => ?_⟩
  have hN : 1 ≤ N := by
    by_contra h0
    obtain rfl : N = 0 := by omega
    obtain ⟨m, hm, e, rfl⟩ := hw
    obtain rfl : m = 0 := by simpa using hm
    have := hG.pos _ hg
    simp at this
  have hNl : len ≤ N := by
    by_contra hlt
    obtain ⟨c', hc', _⟩ := find_of_fits hn hd hN hG (hP N hN (by omega)) hw hg
    rw [h4 N hN (by omega)] at hc'
    simp at hc'
  refine ⟨hfit.mono hNl, ?_⟩
  by_cases he : N = len
  · subst he
    obtain ⟨c', hc', hd'⟩ := find_of_fits hn hd h1 hG (hP N h1 h2) hw hg
    rw [h3] at hc'
    obtain rfl := Option.some.inj hc'
    exact .inl hd'
  · exact .inr ⟨len, by omega, hfit⟩

include hn hd in
/-- If a number of so many digits is accepted, a decimal is found. -/
theorem find_exists {L : Nat} (hL : 1 ≤ L) (hG : Accept (n / d) Good)
    (hP : ∀ c ∈ decimalsOf n d L, (P c = true ↔ Good ((c.1 : ℚ) * 10 ^ c.2))) {w : ℚ} (hw : Fits w L) (hg : Good w) :
    ∃ c, (decimals n d L).find? P = some c := by
  cases h : (decimals n d L).find? P with
  | some c => exact ⟨c, rfl⟩
  | none =>
    obtain ⟨c, hc, _⟩ := find_of_fits hn hd hL hG hP hw hg
    rw [(find_decimals P n d L).2 h L hL (Nat.le_refl _)] at hc
    simp at hc

end

end Swrs.Ieee
