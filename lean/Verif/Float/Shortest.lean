import Verif.Float.Single
/-!
# Shortest decimals

What reads as a value is an interval of decimals around it; one of the two decimals of a length next to the value lies in it, if any
decimal of that length does.
-/
namespace Swrs.Ieee

theorem nearest_scale (n : Nat) {d c : Nat} (hc : 0 < c) : nearest (n * c) (d * c) = nearest n d := by
  unfold nearest
  rw [Nat.mul_mod_mul_right, Nat.mul_div_mul_right _ _ hc, ← Nat.mul_assoc]
  simp only [Nat.mul_lt_mul_right hc]

theorem roundTo_scale (p n : Nat) {d c : Nat} (hc : 0 < c) : roundTo p (n * c) (d * c) = roundTo p n d := by
  unfold roundTo
  rw [Nat.mul_div_mul_right _ _ hc, Nat.mul_right_comm, nearest_scale n hc]

/-- Rounding depends on the ratio only. -/
theorem roundTo_congr (p : Nat) {n d n' d' : Nat} (hd : 0 < d) (hd' : 0 < d') (h : (n : ℚ) / d = n' / d') :
    roundTo p n d = roundTo p n' d' := by
  have h1 : (d : ℚ) ≠ 0 := by exact_mod_cast hd.ne'
  have h2 : (d' : ℚ) ≠ 0 := by exact_mod_cast hd'.ne'
  rw [div_eq_div_iff h1 h2] at h
  have h : n * d' = n' * d := by exact_mod_cast h
  rw [← roundTo_scale p n hd', h, Nat.mul_comm d d', roundTo_scale p n' hd]

/-- What lies between a number and the value it is rounded to is rounded to that value, too. -/
theorem roundTo_between {p n d n' d' k : Nat} (hp : p ≠ 0) (hd : 0 < d) (hd' : 0 < d') (hk : roundTo p n d = k)
    (h : ((n : ℚ) / d ≤ n' / d' ∧ (n' : ℚ) / d' ≤ k) ∨ ((k : ℚ) ≤ n' / d' ∧ (n' : ℚ) / d' ≤ n / d)) : roundTo p n' d' = k := by
  by_cases he : (n : ℚ) / d = n' / d'
  · rw [← hk]; exact (roundTo_congr p hd hd' he).symm
  have rk : Rep p k := hk ▸ rep_roundTo hp hd
  have a := roundTo_nearest (n := n') hp hd' rk
  have b := roundTo_nearest (n := n) hp hd (rep_roundTo (n := n') hp hd')
  rw [hk] at b
  generalize roundTo p n' d' = r at a b ⊢
  have : (r : ℚ) = k := by
    generalize (n : ℚ) / d = y at *
    generalize (n' : ℚ) / d' = y' at *
    generalize (r : ℚ) = r at *
    generalize (k : ℚ) = k at *
    have he1 : y < y' ∨ y' < y := lt_or_gt_of_ne he
    rcases abs_cases (r - y') with ⟨e1, _⟩ | ⟨e1, _⟩ <;> rcases abs_cases (k - y') with ⟨e2, _⟩ | ⟨e2, _⟩ <;>
      rcases abs_cases (k - y) with ⟨e3, _⟩ | ⟨e3, _⟩ <;> rcases abs_cases (r - y) with ⟨e4, _⟩ | ⟨e4, _⟩ <;>
      rcases h with ⟨h1, h2⟩ | ⟨h1, h2⟩ <;> rcases he1 with he1 | he1 <;> rw [e1, e2] at a <;> rw [e3, e4] at b <;> linarith
  exact_mod_cast this

end Swrs.Ieee
