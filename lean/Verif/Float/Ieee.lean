import Verif.Base.Num
/-!
# Binary floating point numbers

`f32` and `f64` as IEEE 754 values, and rounding to the nearest of them. Used to give the interface of `Verif.Base.Float`
(`f32` fields of parser/view.rs:260, 304-309, `f64` values of api/block.rs:1084 and color.rs:88) its meaning.

A finite value is a sign and a whole number of units, the unit being the smallest positive value of the format.
-/
namespace Swrs.Ieee

/-- A format: the bits of the significand, the exponent of the unit (the unit is `2 ^ -scale`), and the first power of two that is too
large, in units. The types `f32` and `f64` — parser/view.rs:260, 304-309, api/block.rs:1084, color.rs:88. -/
structure Format where
  prec : Nat
  scale : Nat
  top : Nat
deriving DecidableEq

/-- `f64`: 53 bits, unit `2^-1074`, below `2^1024` — api/block.rs:1084, color.rs:88. -/
def f64 : Format := ⟨53, 1074, 2 ^ (1024 + 1074)⟩
/-- `f32`: 24 bits, unit `2^-149`, below `2^128` — parser/view.rs:260, 304-309. -/
def f32 : Format := ⟨24, 149, 2 ^ (128 + 149)⟩

/-- How many low bits of a number of units are zero in a value of that size.
The types `f32` and `f64` — parser/view.rs:260, 304-309, api/block.rs:1084, color.rs:88. -/
def shift (p k : Nat) : Nat := k.log2 + 1 - p

/-- The number of units is a value of the precision. The types `f32` and `f64` — parser/view.rs:260, 304-309, api/block.rs:1084, color.rs:88. -/
def Rep (p k : Nat) : Prop := 2 ^ shift p k ∣ k
instance (p k : Nat) : Decidable (Rep p k) := inferInstanceAs (Decidable (_ ∣ _))

/-- `n / d` rounded to the nearest whole number, ties to the even one.
Rounding of `f32` and `f64` — parser/view.rs:260, 304-309, api/block.rs:1084, color.rs:88. -/
def nearest (n d : Nat) : Nat :=
  if 2 * (n % d) < d then n / d
  else if d < 2 * (n % d) then n / d + 1
  else if n / d % 2 = 0 then n / d else n / d + 1

/-- `n / d` units rounded to a value of the precision.
Rounding of `f32` and `f64` — parser/view.rs:260, 304-309, api/block.rs:1084, color.rs:88. -/
def roundTo (p n d : Nat) : Nat :=
  nearest n (d * 2 ^ shift p (n / d)) * 2 ^ shift p (n / d)

/-- A value of the format. The types `f32` and `f64` — parser/view.rs:260, 304-309, api/block.rs:1084, color.rs:88. -/
inductive Value (F : Format) where
  | nan
  | inf (neg : Bool)
  | fin (neg : Bool) (units : { k : Nat // Rep F.prec k ∧ k < F.top })
deriving DecidableEq

/-! ### Lemmas -/

theorem shift_le {p a b : Nat} (h : a ≤ b) : shift p a ≤ shift p b := by
  unfold shift
  have : a.log2 ≤ b.log2 := by
    by_cases ha : a = 0
    · subst ha; simp
    · exact (Nat.le_log2 (by omega)).mpr (Nat.le_trans (Nat.log2_self_le ha) h)
  omega

/-- Below two to the power of precision and shift. -/
theorem lt_two_pow_shift (p k : Nat) : k < 2 ^ (p + shift p k) := by
  refine Nat.lt_of_lt_of_le (Nat.lt_log2_self (n := k)) (Nat.pow_le_pow_right (by omega) ?_)
  unfold shift; omega

/-- If there is a shift, the number is at least two to the power of precision and shift less one. -/
theorem two_pow_shift_le {p k : Nat} (hp : p ≠ 0) (h : shift p k ≠ 0) : 2 ^ (p + shift p k - 1) ≤ k := by
  have hk : k ≠ 0 := by
    intro hk; subst hk
    simp [shift] at h; omega
  have : p + shift p k - 1 = k.log2 := by unfold shift at h ⊢; omega
  rw [this]; exact Nat.log2_self_le hk

theorem rep_of_dvd {p m s : Nat} (hp : p ≠ 0) (hm : m ≤ 2 ^ p) : Rep p (m * 2 ^ s) := by
  unfold Rep
  by_cases hm' : m = 2 ^ p
  · subst hm'
    rw [← Nat.pow_add]
    refine Nat.pow_dvd_pow 2 ?_
    simp [shift, Nat.log2_two_pow]; omega
  · refine Nat.dvd_trans (Nat.pow_dvd_pow 2 ?_) (Nat.dvd_mul_left (2 ^ s) m)
    unfold shift
    by_cases h0 : m * 2 ^ s = 0
    · rw [h0]; simp; omega
    · have : (m * 2 ^ s).log2 < p + s := by
        rw [Nat.log2_lt h0, Nat.pow_add]
        exact Nat.mul_lt_mul_of_pos_right (by omega) (Nat.two_pow_pos s)
      omega

theorem nearest_le {n d m : Nat} (hd : 0 < d) (h : n < d * m) : nearest n d ≤ m := by
  have : n / d < m := (Nat.div_lt_iff_lt_mul hd).mpr (by rw [Nat.mul_comm]; exact h)
  unfold nearest; repeat' split
  all_goals omega

theorem div_mul_two_pow (n d s : Nat) : n / (d * 2 ^ s) = n / d / 2 ^ s := (Nat.div_div_eq_div_mul n d (2 ^ s)).symm

/-- What is rounded is a value of the precision. -/
theorem rep_roundTo {p n d : Nat} (hp : p ≠ 0) (hd : 0 < d) : Rep p (roundTo p n d) := by
  unfold roundTo
  refine rep_of_dvd hp (nearest_le (Nat.mul_pos hd (Nat.two_pow_pos _)) ?_)
  have h := lt_two_pow_shift p (n / d)
  rw [Nat.mul_assoc, ← Nat.pow_add, Nat.add_comm]
  rw [Nat.mul_comm]
  exact (Nat.div_lt_iff_lt_mul hd).mp h

theorem nearest_mul {d : Nat} (hd : 0 < d) (m : Nat) : nearest (d * m) d = m := by
  simp [nearest, Nat.mul_mod_right, hd]

/-- A value of the precision is rounded to itself. -/
theorem roundTo_exact {p k d : Nat} (hd : 0 < d) (h : Rep p k) : roundTo p (k * d) d = k := by
  unfold roundTo
  rw [Nat.mul_div_cancel k hd]
  obtain ⟨m, hm⟩ := h
  have e : k * d = d * 2 ^ shift p k * m := by
    conv => lhs; rw [hm]
    rw [Nat.mul_comm, Nat.mul_assoc]
  rw [e, nearest_mul (Nat.mul_pos hd (Nat.two_pow_pos _)), Nat.mul_comm, ← hm]

end Swrs.Ieee
