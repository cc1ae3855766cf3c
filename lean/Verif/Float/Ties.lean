import Verif.Float.Shortest
import Mathlib.Tactic.Linarith
/-!
# Rounding is to the nearest value, and to the even one of two
-/
namespace Swrs.Ieee

/-- The significand of the value is even. -/
def Even (p k : Nat) : Prop := 2 ^ (shift p k + 1) ∣ k

theorem shift_le_of_lt {p s f : Nat} (hp : p ≠ 0) (h : f < 2 ^ (p + s)) : shift p f ≤ s := by
  unfold shift
  by_cases hf : f = 0
  · subst hf; simp; omega
  · have := (Nat.log2_lt hf).mpr h
    omega

/-- Half way between two values next to each other. -/
theorem roundTo_tie {p n d u v : Nat} (hp : 2 ≤ p) (hd : 0 < d) (hu : Rep p u) (hv : Rep p v) (huv : u < v)
    (hb : ∀ j, Rep p j → ¬ (u < j ∧ j < v)) (hw : (n : ℚ) / d * 2 = u + v) :
    (Even p u ∧ ¬ Even p v ∧ roundTo p n d = u) ∨ (¬ Even p u ∧ Even p v ∧ roundTo p n d = v) := by
  have hd' : (0 : ℚ) < d := by exact_mod_cast hd
  have hu' := hu
  obtain ⟨a, ha⟩ := hu'
  have hs0 : 0 < 2 ^ shift p u := Nat.two_pow_pos _
  have ha2 : a < 2 ^ p := by
    have := lt_two_pow_shift p u
    rw [Nat.pow_add] at this
    conv at this => lhs; rw [ha, Nat.mul_comm]
    exact Nat.lt_of_mul_lt_mul_right this
  have hsv : shift p u ≤ shift p v := shift_le huv.le
  have hv1 : v = (a + 1) * 2 ^ shift p u := by
    have hr : Rep p ((a + 1) * 2 ^ shift p u) := rep_of_dvd (by omega) ha2
    have h1 := hb _ hr
    have h2 : 2 ^ shift p u ∣ v := Nat.dvd_trans (Nat.pow_dvd_pow 2 hsv) hv
    obtain ⟨b, hb'⟩ := h2
    have hab : a < b := by
      have : 2 ^ shift p u * a < 2 ^ shift p u * b := by rw [← ha, ← hb']; exact huv
      exact Nat.lt_of_mul_lt_mul_left this
    have h3 : (a + 1) * 2 ^ shift p u ≤ v := by
      rw [hb', Nat.mul_comm]; exact Nat.mul_le_mul_left _ hab
    have h4 : u < (a + 1) * 2 ^ shift p u := by
      conv => lhs; rw [ha, Nat.mul_comm]
      exact Nat.mul_lt_mul_of_pos_right (Nat.lt_succ_self a) hs0
    by_contra hne
    exact h1 ⟨h4, Nat.lt_of_le_of_ne h3 (Ne.symm hne)⟩
  have hvt : v ≤ 2 ^ (p + shift p u) := by
    rw [hv1, Nat.pow_add]; exact Nat.mul_le_mul_right _ ha2
  have ⟨fl, fu⟩ := floor_le n hd
  have huv' : (u : ℚ) < v := by exact_mod_cast huv
  have f1 : u ≤ n / d := by
    have : (u : ℚ) < ((n / d : Nat) : ℚ) + 1 := by linarith
    have : u < n / d + 1 := by exact_mod_cast this
    omega
  have f2 : n / d < v := by
    have : ((n / d : Nat) : ℚ) < v := by linarith
    exact_mod_cast this
  have hsf : shift p (n / d) = shift p u :=
    Nat.le_antisymm (shift_le_of_lt (by omega) (Nat.lt_of_lt_of_le f2 hvt)) (shift_le f1)
  have ev : (2 ∣ a ∧ Even p u ∧ ¬ Even p v) ∨ (¬ 2 ∣ a ∧ ¬ Even p u ∧ Even p v) := by
    have eu : Even p u ↔ 2 ∣ a := by
      unfold Even
      rw [Nat.pow_succ]
      conv => lhs; rhs; rw [ha]
      exact Nat.mul_dvd_mul_iff_left hs0
    by_cases h2 : 2 ∣ a
    · refine .inl ⟨h2, eu.mpr h2, fun h => ?_⟩
      have h3 : 2 ^ (shift p u + 1) ∣ v := Nat.dvd_trans (Nat.pow_dvd_pow 2 (by omega)) h
      rw [hv1, Nat.pow_succ, Nat.mul_comm (a + 1)] at h3
      have := (Nat.mul_dvd_mul_iff_left hs0).mp h3
      omega
    · refine .inr ⟨h2, fun h => h2 (eu.mp h), ?_⟩
      unfold Even
      by_cases hav : a + 1 = 2 ^ p
      · have : v = 2 ^ (p + shift p u) := by rw [hv1, hav, Nat.pow_add]
        rw [this]
        refine Nat.pow_dvd_pow 2 ?_
        unfold shift; rw [Nat.log2_two_pow]
        unfold shift at *; omega
      · have h5 : v < 2 ^ (p + shift p u) := by
          rw [hv1, Nat.pow_add]; exact Nat.mul_lt_mul_of_pos_right (by omega) hs0
        have h6 := shift_le_of_lt (by omega) h5
        refine Nat.dvd_trans (Nat.pow_dvd_pow 2 (show shift p v + 1 ≤ shift p u + 1 by omega)) ?_
        rw [hv1, Nat.pow_succ, Nat.mul_comm (a + 1)]
        exact (Nat.mul_dvd_mul_iff_left hs0).mpr (by omega)
  have hn : n * 2 = d * 2 ^ shift p u * (2 * a + 1) := by
    have h1 : (n : ℚ) * 2 = (u + v) * d := by
      have : (n : ℚ) * 2 = n / d * 2 * d := by field_simp
      rw [this, hw]
    have h2 : n * 2 = (u + v) * d := by exact_mod_cast h1
    rw [h2, hv1]
    conv => lhs; lhs; lhs; rw [ha]
    ring
  unfold roundTo
  rw [hsf]
  have hD : 0 < d * 2 ^ shift p u := Nat.mul_pos hd hs0
  have hua : a * 2 ^ shift p u = u := by rw [Nat.mul_comm, ← ha]
  rw [hv1, ← hua] at ev ⊢
  rw [hua] at ev ⊢
  generalize d * 2 ^ shift p u = D at *
  have hq : n / D = a := by
    apply Nat.div_eq_of_lt_le
    · have : D * (2 * a + 1) = 2 * (a * D) + D := by ring
      omega
    · have : D * (2 * a + 1) = 2 * (a * D) + D := by ring
      have : (a + 1) * D = a * D + D := by ring
      omega
  have hr : 2 * (n % D) = D := by
    have := Nat.div_add_mod n D
    rw [hq] at this
    have : D * (2 * a + 1) = 2 * (D * a) + D := by ring
    omega
  unfold nearest
  rw [hq, hr, if_neg (by omega), if_neg (by omega)]
  rcases ev with ⟨h1, h2, h3⟩ | ⟨h1, h2, h3⟩
  · refine .inl ⟨h2, h3, ?_⟩
    rw [if_pos (by omega), hua]
  · refine .inr ⟨h2, h3, ?_⟩
    rw [if_neg (by omega)]

/-- Rounding gives `k` exactly if no value is nearer than `k`, and none is as near, unless the significand of `k` is even. -/
theorem roundTo_iff {p n d k : Nat} (hp : 2 ≤ p) (hd : 0 < d) (hk : Rep p k) :
    roundTo p n d = k ↔ (∀ j, Rep p j → |(k : ℚ) - n / d| ≤ |(j : ℚ) - n / d|) ∧
      (∀ j, Rep p j → j ≠ k → |(k : ℚ) - n / d| = |(j : ℚ) - n / d| → Even p k) := by
  have hp0 : p ≠ 0 := by omega
  -- two nearest values
  have two : ∀ {j k}, Rep p j → Rep p k → (∀ i, Rep p i → |(k : ℚ) - n / d| ≤ |(i : ℚ) - n / d|) → j ≠ k →
      |(k : ℚ) - n / d| = |(j : ℚ) - n / d| → (Even p k ∧ ¬ Even p j ∧ roundTo p n d = k) ∨ (¬ Even p k ∧ Even p j ∧ roundTo p n d = j) := by
    intro j k hj hk hnear hne heq
    generalize hw : (n : ℚ) / d = w at *
    have hsum : (j : ℚ) + k = 2 * w := by
      have hne' : (j : ℚ) ≠ k := by exact_mod_cast hne
      rcases abs_eq_abs.mp heq with h | h
      · exact absurd (by linarith) hne'
      · linarith
    have hbt : ∀ i, Rep p i → ¬ ((j < i ∧ i < k) ∨ (k < i ∧ i < j)) := by
      intro i hi h
      have h1 := hnear i hi
      rcases h with ⟨h2, h3⟩ | ⟨h2, h3⟩
      · have h2 : (j : ℚ) < i := by exact_mod_cast h2
        have h3 : (i : ℚ) < k := by exact_mod_cast h3
        rw [abs_of_pos (by linarith)] at h1
        have : |(i : ℚ) - w| < k - w := abs_lt.mpr ⟨by linarith, by linarith⟩
        linarith
      · have h2 : (k : ℚ) < i := by exact_mod_cast h2
        have h3 : (i : ℚ) < j := by exact_mod_cast h3
        rw [abs_of_neg (by linarith)] at h1
        have : |(i : ℚ) - w| < -(k - w) := abs_lt.mpr ⟨by linarith, by linarith⟩
        linarith
    rcases Nat.lt_or_gt_of_ne hne with h | h
    · rcases roundTo_tie hp hd hj hk h (fun i hi h' => hbt i hi (.inl h')) (by rw [hw]; linarith) with h | h
      · exact .inr ⟨h.2.1, h.1, h.2.2⟩
      · exact .inl ⟨h.2.1, h.1, h.2.2⟩
    · rcases roundTo_tie hp hd hk hj h (fun i hi h' => hbt i hi (.inr h')) (by rw [hw]; linarith) with h | h
      · exact .inl h
      · exact .inr h
  constructor
  · rintro rfl
    have h1 : ∀ j, Rep p j → |(roundTo p n d : ℚ) - n / d| ≤ |(j : ℚ) - n / d| := fun j hj => roundTo_nearest hp0 hd hj
    refine ⟨h1, fun j hj hne heq => ?_⟩
    rcases two hj hk h1 hne heq with h | h
    · exact h.1
    · exact absurd h.2.2.symm hne
  · rintro ⟨h1, h2⟩
    by_contra hne
    have hr := rep_roundTo (n := n) hp0 hd
    have heq := le_antisymm (h1 _ hr) (roundTo_nearest (n := n) hp0 hd hk)
    have he := h2 _ hr hne heq
    rcases two hr hk h1 hne heq with h | h
    · exact hne h.2.2
    · exact h.1 he

end Swrs.Ieee
