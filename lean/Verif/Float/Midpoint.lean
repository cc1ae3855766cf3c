import Verif.Float.Shortest
import Mathlib.Tactic.LinearCombination
/-!
# Decimals near the middle of two values

`serde_json` reads a decimal as `f64`, with an error of up to `2^-51`, and rounds that to `f32`. The result is the nearest `f32` unless the
decimal is so near to the middle of two values that the error leads to the other side. Here it is shown that there is no such decimal with
a significand of up to `33554500`: decimals `q * 10^e` near to `m * 2^s` are multiples of a best approximation, and for each exponent `e` there
are two of them.
-/
namespace Swrs.Ieee

/-- Near ones are multiples: `M1 / q1 ≤ a / b ≤ M2 / q2` are neighbours among the fractions with denominators up to `Q`. -/
theorem farey_multiples {a b q1 m1 q2 m2 Q q m : ℤ} (hdet : m2 * q1 - m1 * q2 = 1) (hQ : Q < q1 + q2)
    (ha : 0 < a) (hb : 0 < b) (h1 : 0 < q1) (h2 : 0 < q2) (d1 : m1 * b ≤ q1 * a) (d2 : q2 * a ≤ m2 * b)
    (c1 : Q * a * q1 < 2 ^ 51 * b) (c2 : Q * a * q2 < 2 ^ 51 * b) (hq : 0 < q) (hqQ : q ≤ Q)
    (hn : |q * a - m * b| * 2 ^ 51 ≤ q * a) :
    ∃ i, 1 ≤ i ∧ ((q = i * q1 ∧ m = i * m1) ∨ (q = i * q2 ∧ m = i * m2)) := by
  obtain ⟨i, hi⟩ : ∃ i, i = q * m2 - m * q2 := ⟨_, rfl⟩
  obtain ⟨j, hj⟩ : ∃ j, j = m * q1 - q * m1 := ⟨_, rfl⟩
  have eq : q = i * q1 + j * q2 := by
    rw [hi, hj]; linear_combination (-q) * hdet
  have em : m = i * m1 + j * m2 := by
    rw [hi, hj]; linear_combination (-m) * hdet
  have ev : q * a - m * b = i * (q1 * a - m1 * b) - j * (m2 * b - q2 * a) := by
    rw [eq, em]; ring
  have eb : b = q1 * (m2 * b - q2 * a) + q2 * (q1 * a - m1 * b) := by
    linear_combination (-b) * hdet
  obtain ⟨x1, hx1⟩ : ∃ x, x = q1 * a - m1 * b := ⟨_, rfl⟩
  obtain ⟨x2, hx2⟩ : ∃ x, x = m2 * b - q2 * a := ⟨_, rfl⟩
  rw [← hx1, ← hx2] at ev eb
  have n1 : 0 ≤ x1 := by rw [hx1]; linarith
  have n2 : 0 ≤ x2 := by rw [hx2]; linarith
  rcases lt_trichotomy j 0 with hj0 | hj0 | hj0
  · -- below
    have hi1 : 1 ≤ i := by
      by_contra hc
      have : i * q1 ≤ 0 := mul_nonpos_of_nonpos_of_nonneg (by omega) h1.le
      have : j * q2 < 0 := mul_neg_of_neg_of_pos hj0 h2
      omega
    exfalso
    have hv : 0 ≤ i * x1 - j * x2 := by nlinarith
    rw [ev, abs_of_nonneg hv] at hn
    have k1 : q1 * (i * x1 - j * x2) = q * x1 + (-j) * b := by rw [eb, eq]; ring
    have k2 : b ≤ q1 * (i * x1 - j * x2) := by
      rw [k1]
      have : 0 ≤ q * x1 := mul_nonneg hq.le n1
      nlinarith
    have k3 : q1 * ((i * x1 - j * x2) * 2 ^ 51) ≤ q1 * (q * a) := mul_le_mul_of_nonneg_left hn h1.le
    have k4 : q1 * (q * a) ≤ Q * a * q1 := by
      have : q * a ≤ Q * a := mul_le_mul_of_nonneg_right hqQ ha.le
      nlinarith
    nlinarith
  · subst hj0
    refine ⟨i, ?_, .inl ⟨by rw [eq]; ring, by rw [em]; ring⟩⟩
    by_contra hc
    have : i * q1 ≤ 0 := mul_nonpos_of_nonpos_of_nonneg (by omega) h1.le
    omega
  · rcases lt_trichotomy i 0 with hi0 | hi0 | hi0
    · exfalso
      have hv : i * x1 - j * x2 ≤ 0 := by nlinarith
      rw [ev, abs_of_nonpos hv] at hn
      have k1 : q2 * (-(i * x1 - j * x2)) = q * x2 + (-i) * b := by rw [eb, eq]; ring
      have k2 : b ≤ q2 * (-(i * x1 - j * x2)) := by
        rw [k1]
        have : 0 ≤ q * x2 := mul_nonneg hq.le n2
        nlinarith
      have k3 : q2 * (-(i * x1 - j * x2) * 2 ^ 51) ≤ q2 * (q * a) := mul_le_mul_of_nonneg_left hn h2.le
      have k4 : q2 * (q * a) ≤ Q * a * q2 := by
        have : q * a ≤ Q * a := mul_le_mul_of_nonneg_right hqQ ha.le
        nlinarith
      nlinarith
    · subst hi0
      exact ⟨j, by omega, .inr ⟨by rw [eq]; ring, by rw [em]; ring⟩⟩
    · exfalso
      have : q1 ≤ i * q1 := le_mul_of_one_le_left h1.le (by omega)
      have : q2 ≤ j * q2 := le_mul_of_one_le_left h2.le (by omega)
      omega

/-- If the first is rounded to a smaller value than the second, the middle of two values lies between them. -/
theorem mid_of_roundTo_lt {p n d n' d' : Nat} (hp : p ≠ 0) (hd : 0 < d) (hd' : 0 < d') (h : roundTo p n d < roundTo p n' d') :
    ∃ m t : Nat, 0 < m ∧ m < 2 ^ (p + 1) ∧ (n : ℚ) / d ≤ m * 2 ^ t / 2 ∧ (m : ℚ) * 2 ^ t / 2 ≤ n' / d' := by
  have hr : Rep p (roundTo p n d) := rep_roundTo hp hd
  have hr' : Rep p (roundTo p n' d') := rep_roundTo hp hd'
  obtain ⟨c, hc⟩ := id hr
  generalize ht : shift p (roundTo p n d) = t at hc
  have hcp : c < 2 ^ p := by
    have := lt_two_pow_shift p (roundTo p n d)
    rw [ht, Nat.pow_add, Nat.mul_comm] at this
    rw [hc] at this
    exact Nat.lt_of_mul_lt_mul_left this
  have hplus : Rep p ((c + 1) * 2 ^ t) := rep_of_dvd hp hcp
  have hle : (c + 1) * 2 ^ t ≤ roundTo p n' d' := by
    obtain ⟨c', hc'⟩ := id hr'
    have hs : t ≤ shift p (roundTo p n' d') := ht ▸ shift_le h.le
    obtain ⟨u, hu⟩ := Nat.exists_eq_add_of_le hs
    rw [hu, Nat.pow_add, Nat.mul_assoc] at hc'
    rw [hc, hc'] at h
    have := Nat.lt_of_mul_lt_mul_left h
    rw [hc', Nat.mul_comm]
    exact Nat.mul_le_mul_left _ this
  have a := roundTo_nearest (n := n) hp hd hplus
  have b := roundTo_nearest (n := n') hp hd' hr
  refine ⟨2 * c + 1, t, by omega, by rw [Nat.pow_succ]; omega, ?_, ?_⟩
  · rw [hc] at a
    push_cast at a ⊢
    have e : (2 * (c : ℚ) + 1) * 2 ^ t / 2 = c * 2 ^ t + 2 ^ t / 2 := by ring
    rw [e]
    have hpos : (0 : ℚ) < 2 ^ t := by positivity
    generalize (n : ℚ) / d = y at *
    have e2 : ((c : ℚ) + 1) * 2 ^ t = c * 2 ^ t + 2 ^ t := by ring
    rw [e2, mul_comm ((2 : ℚ) ^ t)] at a
    generalize (c : ℚ) * 2 ^ t = r at *
    generalize (2 : ℚ) ^ t = w at *
    rcases abs_cases (r - y) with ⟨e1, _⟩ | ⟨e1, _⟩ <;> rcases abs_cases (r + w - y) with ⟨e3, _⟩ | ⟨e3, _⟩ <;>
      rw [e1, e3] at a <;> linarith
  · have hle' : ((c : ℚ) + 1) * 2 ^ t ≤ roundTo p n' d' := by exact_mod_cast hle
    generalize roundTo p n' d' = r' at *
    rw [hc] at b
    push_cast at b ⊢
    have e : (2 * (c : ℚ) + 1) * 2 ^ t / 2 = c * 2 ^ t + 2 ^ t / 2 := by ring
    have e2 : ((c : ℚ) + 1) * 2 ^ t = c * 2 ^ t + 2 ^ t := by ring
    rw [e2] at hle'
    rw [e]
    have hpos : (0 : ℚ) < 2 ^ t := by positivity
    generalize (n' : ℚ) / d' = y at *
    rw [mul_comm ((2 : ℚ) ^ t)] at b
    generalize (c : ℚ) * 2 ^ t = r at *
    generalize (2 : ℚ) ^ t = w at *
    rcases abs_cases ((r' : ℚ) - y) with ⟨e1, _⟩ | ⟨e1, _⟩ <;> rcases abs_cases (r - y) with ⟨e3, _⟩ | ⟨e3, _⟩ <;>
      rw [e1, e3] at b <;> linarith

/-! ## The table -/

/-- For the exponent `e`: neighbours `m1 / q1 ≤ 10^e / 2^s ≤ m2 / q2` of the power of ten, and the significands that are looked at one by one. -/
structure Row where
  e : Int
  s : Int
  q1 : Nat
  m1 : Nat
  q2 : Nat
  m2 : Nat
  exc : List Nat

namespace Row

/-- Numerator of `10^e / 2^s`. -/
def a (r : Row) : Nat := 10 ^ r.e.toNat * 2 ^ (-r.s).toNat
/-- Denominator of `10^e / 2^s`. -/
def b (r : Row) : Nat := 10 ^ (-r.e).toNat * 2 ^ r.s.toNat

/-- The multiples of one approximation, with error `x / b`, do no harm: they are not near, or exact, or no middle of two values, or looked at. -/
def sideOk (r : Row) (q m x : Nat) : Bool :=
  decide (q * r.a < 2 ^ 51 * x) || (decide (x = 0) && decide (r.e.natAbs ≤ 22)) || (decide (m % 2 = 1) && decide (2 ^ 25 < m)) ||
  (List.range (33554500 / q)).all fun i => (List.range 26).all fun u =>
    decide ((i + 1) * q % 2 ^ u ≠ 0) || r.exc.contains ((i + 1) * q / 2 ^ u)

/-- The row is right. -/
def ok (r : Row) : Bool :=
  decide (r.b ≤ r.a) && decide (r.m2 * r.q1 = r.m1 * r.q2 + 1) && decide (33554500 < r.q1 + r.q2) && decide (0 < r.q1) && decide (0 < r.q2) &&
  decide (r.m1 * r.b ≤ r.q1 * r.a) && decide (r.q2 * r.a ≤ r.m2 * r.b) &&
  decide (33554500 * r.a * r.q1 < 2 ^ 51 * r.b) && decide (33554500 * r.a * r.q2 < 2 ^ 51 * r.b) &&
  r.sideOk r.q1 r.m1 (r.q1 * r.a - r.m1 * r.b) && r.sideOk r.q2 r.m2 (r.m2 * r.b - r.q2 * r.a)

/-- The significands that are looked at are read as the nearest value. -/
def excOk (r : Row) : Bool := r.exc.all fun q => (fromParts 0 (r64 q 1) r.e).all fun g =>
  decide (roundTo 24 g (2 ^ 925) = roundTo 24 (q * 10 ^ r.e.toNat * 2 ^ 149) (10 ^ (-r.e).toNat))

end Row

/-- For each exponent. -/
def rows : List Row := [
  ⟨-54, -180, 32504629, 49813199, 2115321, 3241720, []⟩,
  ⟨-53, -177, 27695960, 53054919, 29811281, 57107069, []⟩,
  ⟨-52, -173, 8963063, 10731136, 26387410, 31592647, []⟩,
  ⟨-51, -170, 30072991, 45006567, 21109928, 31592647, []⟩,
  ⟨-50, -167, 27643618, 51713527, 18680555, 34946127, []⟩,
  ⟨-49, -163, 8963063, 10479625, 29888888, 34946127, []⟩,
  ⟨-48, -160, 30481621, 44548939, 8370330, 12233251, []⟩,
  ⟨-47, -157, 28807555, 52627861, 6696264, 12233251, []⟩,
  ⟨-46, -153, 10588269, 12089666, 24915550, 28448529, []⟩,
  ⟨-45, -150, 20554489, 29336347, 19932440, 28448529, []⟩,
  ⟨-44, -147, 24540977, 43782566, 15945952, 28448529, []⟩,
  ⟨-43, -143, 27978987, 31197613, 14226947, 15863576, []⟩,
  ⟨-42, -140, 25228579, 35163507, 14226947, 19829470, []⟩,
  ⟨-41, -137, 12936821, 22539121, 28453894, 49573675, []⟩,
  ⟨-40, -133, 26912855, 29305504, 16556286, 18028199, []⟩,
  ⟨-39, -130, 5382571, 7326376, 28547147, 38856363, []⟩,
  ⟨-38, -127, 5382571, 9157970, 30373317, 51677521, []⟩,
  ⟨-37, -123, 21530284, 22894925, 23990983, 25511589, [23990983]⟩,
  ⟨-36, -120, 17716367, 23549091, 20177066, 26819921, []⟩,
  ⟨-35, -117, 6594407, 10956838, 31299026, 52004427, []⟩,
  ⟨-34, -113, 26377628, 27392095, 11200729, 11631502, []⟩,
  ⟨-33, -110, 12791197, 16603923, 22401458, 29078755, []⟩,
  ⟨-32, -107, 32620925, 52930477, 14077062, 22841339, [7038531, 14077062, 28154124]⟩,
  ⟨-31, -103, 5495493, 5573092, 30211508, 30638109, []⟩,
  ⟨-30, -100, 30763798, 38997747, 25268305, 32031382, []⟩,
  ⟨-29, -97, 26151969, 41439449, 10107322, 16015691, []⟩,
  ⟨-28, -94, 22589574, 44743261, 31509431, 62410858, []⟩,
  ⟨-27, -90, 33409375, 41358803, 19739658, 24436513, []⟩,
  ⟨-26, -87, 26727500, 41358803, 26421533, 40885342, []⟩,
  ⟨-25, -84, 21382000, 41358803, 15730533, 30427276, []⟩,
  ⟨-24, -80, 1375067, 1662354, 32836133, 39696449, []⟩,
  ⟨-23, -77, 27368960, 41358803, 12309413, 18601459, []⟩,
  ⟨-22, -74, 21895168, 41358803, 28730789, 54270926, []⟩,
  ⟨-21, -70, 15059547, 17779175, 29008450, 34247133, []⟩,
  ⟨-20, -67, 20861237, 30785752, 23206760, 34247133, []⟩,
  ⟨-19, -64, 20861237, 38482190, 18565408, 34247133, []⟩,
  ⟨-18, -60, 5090579, 5869038, 32539158, 37515095, []⟩,
  ⟨-17, -57, 24214937, 34897402, 14033779, 20224807, [24214937]⟩,
  ⟨-16, -54, 27516876, 49569997, 10456499, 18836754, []⟩,
  ⟨-15, -50, 25645849, 28874659, 16180147, 18217226, [25645849]⟩,
  ⟨-14, -47, 21617182, 30423479, 13494369, 18991636, []⟩,
  ⟨-13, -44, 25390367, 44667206, 13494369, 23739545, []⟩,
  ⟨-12, -40, 10475821, 11518287, 24148384, 26551429, [10475821, 20951642, 31427463]⟩,
  ⟨-11, -37, 28053602, 38556577, 6924841, 9517429, []⟩,
  ⟨-10, -34, 9765625, 16777216, 27699364, 47587145, []⟩,
  ⟨-9, -30, 1953125, 2097152, 32141787, 34511981, []⟩,
  ⟨-8, -27, 390625, 524288, 33254648, 44633633, []⟩,
  ⟨-7, -24, 78125, 131072, 33487342, 56182437, []⟩,
  ⟨-6, -20, 15625, 16384, 33539361, 35168569, []⟩,
  ⟨-5, -17, 3125, 4096, 33554319, 43980317, []⟩,
  ⟨-4, -14, 625, 1024, 33554151, 54975121, []⟩,
  ⟨-3, -10, 125, 128, 33554458, 34359765, []⟩,
  ⟨-2, -7, 25, 32, 33554482, 42949737, []⟩,
  ⟨-1, -4, 5, 8, 33554498, 53687197, []⟩,
  ⟨0, 0, 1, 1, 33554500, 33554501, []⟩,
  ⟨1, 3, 4, 5, 33554499, 41943124, []⟩,
  ⟨2, 6, 16, 25, 33554487, 52428886, []⟩,
  ⟨3, 9, 64, 125, 33554475, 65536084, []⟩,
  ⟨4, 13, 512, 625, 33554287, 40959823, []⟩,
  ⟨5, 16, 2048, 3125, 33552867, 51197612, []⟩,
  ⟨6, 19, 8192, 15625, 33554119, 63999403, []⟩,
  ⟨7, 23, 65536, 78125, 33536347, 39978441, []⟩,
  ⟨8, 26, 262144, 390625, 33485279, 49896954, []⟩,
  ⟨9, 29, 1048576, 1953125, 32596883, 60716426, []⟩,
  ⟨10, 33, 8388608, 9765625, 27910327, 32491897, []⟩,
  ⟨11, 36, 33554432, 48828125, 24037003, 34978443, []⟩,
  ⟨12, 39, 30553145, 55575847, 11518287, 20951642, [11518287, 23036574]⟩,
  ⟨13, 43, 23739545, 26988738, 22333603, 25390367, []⟩,
  ⟨14, 46, 9495818, 13494369, 30423479, 43234364, []⟩,
  ⟨15, 49, 9108613, 16180147, 28874659, 51291698, [28874659]⟩,
  ⟨16, 53, 9418377, 10456499, 30733243, 34120754, []⟩,
  ⟨17, 56, 20224807, 28067558, 17448701, 24214937, [17448701]⟩,
  ⟨18, 59, 31646057, 54897158, 2934519, 5090579, []⟩,
  ⟨19, 63, 15006038, 16269579, 19241095, 20861237, []⟩,
  ⟨20, 66, 18854257, 25552283, 15392876, 20861237, []⟩,
  ⟨21, 69, 8233979, 13948903, 26013154, 44067997, []⟩,
  ⟨22, 73, 27135463, 28730789, 14223340, 15059547, []⟩,
  ⟨23, 76, 29980131, 39678373, 11378672, 15059547, []⟩,
  ⟨24, 79, 33047033, 54671730, 831177, 1375067, []⟩,
  ⟨25, 83, 15213638, 15730533, 26145165, 27033467, []⟩,
  ⟨26, 86, 20442671, 26421533, 20916132, 27033467, []⟩,
  ⟨27, 89, 32897658, 53149033, 8461145, 13669717, []⟩,
  ⟨28, 93, 31205429, 31509431, 13537832, 13669717, []⟩,
  ⟨29, 96, 16015691, 20214644, 28727570, 36259291, []⟩,
  ⟨30, 99, 16015691, 25268305, 22982056, 36259291, []⟩,
  ⟨31, 102, 33424655, 65918509, 2786546, 5495493, []⟩,
  ⟨32, 106, 22841339, 28154124, 15044569, 18543863, [22841339]⟩,
  ⟨33, 109, 22841339, 35192655, 16603923, 25582394, []⟩,
  ⟨34, 112, 5815751, 11200729, 33207846, 63955985, []⟩,
  ⟨35, 116, 30090751, 36220424, 5478419, 6594407, []⟩,
  ⟨36, 119, 25184506, 37893433, 23549091, 35432734, []⟩,
  ⟨37, 122, 25511589, 47981966, 24203257, 45521267, [25511589]⟩,
  ⟨38, 126, 33361581, 39216350, 4578985, 5382571, []⟩,
  ⟨39, 129, 31529987, 46329152, 3663188, 5382571, []⟩]

theorem rows_ok : ∀ r ∈ rows, r.ok = true := by decide +kernel
theorem rows_excOk : ∀ r ∈ rows, r.excOk = true := by decide +kernel
theorem rows_all : ∀ i : Nat, i < 94 → ((i : Int) - 54) ∈ rows.map (·.e) := by decide +kernel

theorem pow2_ratio (e : ℤ) : (2 : ℚ) ^ e.toNat / 2 ^ (-e).toNat = 2 ^ e := by
  rcases Int.le_total 0 e with h | h
  · obtain ⟨n, rfl⟩ := Int.eq_ofNat_of_zero_le h
    simp
  · obtain ⟨n, hn⟩ := Int.eq_ofNat_of_zero_le (Int.neg_nonneg_of_nonpos h)
    have : e = -(n : ℤ) := by omega
    subst this
    simp

namespace Row

theorem a_pos (r : Row) : 0 < r.a := Nat.mul_pos (Nat.pow_pos (by decide)) (Nat.two_pow_pos _)
theorem b_pos (r : Row) : 0 < r.b := Nat.mul_pos (Nat.pow_pos (by decide)) (Nat.two_pow_pos _)

theorem a_div_b (r : Row) : (r.a : ℚ) / r.b = 10 ^ r.e * 2 ^ (-r.s) := by
  rw [← pow10_ratio, ← pow2_ratio, neg_neg]
  unfold a b
  push_cast
  field_simp

/-- What `sideOk` says about the multiples. -/
theorem sideOk_spec {r : Row} {q m x : Nat} (h : r.sideOk q m x = true) {i q' m' u w : Nat} (hi : 1 ≤ i) (hq : 0 < q) (hQ : i * q ≤ 33554500)
    (hm0 : 0 < m') (hm : m' < 2 ^ 25) (e1 : q' * 2 ^ u = i * q) (e2 : m' * 2 ^ w = i * m) (hx : i * x * 2 ^ 51 ≤ i * q * r.a) :
    (x = 0 ∧ r.e.natAbs ≤ 22) ∨ q' ∈ r.exc := by
  unfold sideOk at h
  simp only [Bool.or_eq_true, Bool.and_eq_true, decide_eq_true_eq, List.all_eq_true, List.mem_range, List.contains_eq_mem] at h
  rcases h with ((h | h) | h) | h
  · exfalso
    have : i * (q * r.a) < i * (2 ^ 51 * x) := Nat.mul_lt_mul_of_pos_left h hi
    rw [Nat.mul_assoc, Nat.mul_assoc, Nat.mul_comm x] at hx
    omega
  · exact .inl h
  · exfalso
    obtain ⟨h1, h2⟩ := h
    have hd : m ∣ m' * 2 ^ w := ⟨i, by rw [e2, Nat.mul_comm]⟩
    have hc : Nat.Coprime m (2 ^ w) := Nat.Coprime.pow_right _ (by
      rw [Nat.Coprime, Nat.gcd_comm, Nat.gcd_rec, h1]; rfl)
    have := Nat.le_of_dvd hm0 (hc.dvd_of_dvd_mul_right hd)
    omega
  · right
    have hiq : i - 1 < 33554500 / q := by
      have : i ≤ 33554500 / q := (Nat.le_div_iff_mul_le hq).mpr hQ
      omega
    have hu : u < 26 := by
      by_contra hc
      have h1 : 2 ^ 26 ≤ 2 ^ u := Nat.pow_le_pow_right (by decide) (by omega)
      have h2 : 2 ^ u ≤ i * q := by
        rw [← e1]
        refine Nat.le_mul_of_pos_left _ (Nat.pos_of_ne_zero fun h0 => ?_)
        rw [h0, Nat.zero_mul] at e1
        have := Nat.mul_pos hi hq
        omega
      omega
    have := h (i - 1) hiq u hu
    rw [show i - 1 + 1 = i by omega, ← e1, Nat.mul_mod_left, Nat.mul_div_cancel _ (Nat.two_pow_pos u)] at this
    simpa using this

/-- A decimal that is very near to the middle of two values is equal to it, or it is one of those that are looked at. -/
theorem near {r : Row} (hok : r.ok = true) {q m t : Nat} (hq : 0 < q) (hQ : q ≤ 33554500) (hm0 : 0 < m) (hm : m < 2 ^ 25) {y : ℚ}
    (hy : y = q * 10 ^ r.e * 2 ^ 149) (hn : |y - m * 2 ^ t / 2| ≤ y / 2 ^ 51) :
    (y = m * 2 ^ t / 2 ∧ r.e.natAbs ≤ 22) ∨ q ∈ r.exc := by
  unfold ok at hok
  simp only [Bool.and_eq_true, decide_eq_true_eq] at hok
  obtain ⟨⟨⟨⟨⟨⟨⟨⟨⟨⟨k1, k2⟩, k3⟩, k4⟩, k5⟩, k6⟩, k7⟩, k8⟩, k9⟩, s1⟩, s2⟩ := hok
  have ha : (0 : ℚ) < r.a := by exact_mod_cast r.a_pos
  have hb : (0 : ℚ) < r.b := by exact_mod_cast r.b_pos
  have hab := r.a_div_b
  have hab1 : (r.b : ℚ) ≤ r.a := by exact_mod_cast k1
  obtain ⟨u, w, huw, hu0⟩ : ∃ u w : Nat, (w : ℤ) - u = t - 150 - r.s ∧ (u = 0 ∨ w = 0) := by
    rcases Int.le_total 0 (t - 150 - r.s) with h | h
    · exact ⟨0, (t - 150 - r.s).toNat, by omega, .inl rfl⟩
    · exact ⟨(-(t - 150 - r.s)).toNat, 0, by omega, .inr rfl⟩
  -- the difference, in whole numbers
  have hscale : (0 : ℚ) < r.b * 2 ^ ((u : ℤ) - r.s - 149) := mul_pos hb (by positivity)
  have ey : (r.b : ℚ) * 2 ^ ((u : ℤ) - r.s - 149) * y = q * 2 ^ u * r.a := by
    have : (r.a : ℚ) = 10 ^ r.e * 2 ^ (-r.s) * r.b := by rw [← hab]; field_simp
    rw [hy, this]
    have e : (2 : ℚ) ^ ((u : ℤ) - r.s - 149) * 2 ^ 149 = 2 ^ u * 2 ^ (-r.s) := by
      rw [← zpow_natCast (2 : ℚ) 149, ← zpow_natCast (2 : ℚ) u, ← zpow_add₀ (by norm_num), ← zpow_add₀ (by norm_num)]
      congr 1; push_cast; ring
    linear_combination (r.b * q * 10 ^ r.e) * e
  have em : (r.b : ℚ) * 2 ^ ((u : ℤ) - r.s - 149) * (m * 2 ^ t / 2) = m * 2 ^ w * r.b := by
    have e : (2 : ℚ) ^ ((u : ℤ) - r.s - 149) * 2 ^ t = 2 ^ w * 2 := by
      rw [← zpow_natCast (2 : ℚ) t, ← zpow_natCast (2 : ℚ) w, ← zpow_add₀ (by norm_num), ← zpow_add_one₀ (by norm_num)]
      congr 1; omega
    linear_combination (r.b * m / 2) * e
  have hn' : |(q : ℚ) * 2 ^ u * r.a - m * 2 ^ w * r.b| * 2 ^ 51 ≤ q * 2 ^ u * r.a := by
    rw [← ey, ← em, ← mul_sub, abs_mul, abs_of_pos hscale, mul_assoc]
    refine mul_le_mul_of_nonneg_left ?_ hscale.le
    rw [le_div_iff₀ (by positivity)] at hn
    exact hn
  have hqu : q * 2 ^ u ≤ 33554500 := by
    rcases hu0 with rfl | rfl
    · simpa using hQ
    · have hm' : (m : ℚ) ≤ 2 ^ 25 - 1 := by
        have : m + 1 ≤ 2 ^ 25 := hm
        have : (m : ℚ) + 1 ≤ 2 ^ 25 := by exact_mod_cast this
        linarith
      by_contra hc
      have hc : (33554501 : ℚ) ≤ q * 2 ^ u := by exact_mod_cast Nat.lt_of_not_le hc
      have h1 : (q : ℚ) * 2 ^ u * r.a - m * 2 ^ 0 * r.b ≤ |(q : ℚ) * 2 ^ u * r.a - m * 2 ^ 0 * r.b| := le_abs_self _
      have h2 : (m : ℚ) * r.b ≤ (2 ^ 25 - 1) * r.a := mul_le_mul hm' hab1 hb.le (by norm_num)
      have h3 : (33554501 : ℚ) * r.a ≤ q * 2 ^ u * r.a := mul_le_mul_of_nonneg_right hc ha.le
      generalize |(q : ℚ) * 2 ^ u * r.a - m * 2 ^ 0 * r.b| = z at *
      generalize (q : ℚ) * 2 ^ u * r.a = z2 at *
      rw [pow_zero, mul_one] at h1
      linarith
  have hz : |((q * 2 ^ u : Nat) : ℤ) * (r.a : ℤ) - ((m * 2 ^ w : Nat) : ℤ) * (r.b : ℤ)| * 2 ^ 51 ≤ ((q * 2 ^ u : Nat) : ℤ) * (r.a : ℤ) := by
    have : ((|((q * 2 ^ u : Nat) : ℤ) * (r.a : ℤ) - ((m * 2 ^ w : Nat) : ℤ) * (r.b : ℤ)| * 2 ^ 51 : ℤ) : ℚ) ≤
        ((((q * 2 ^ u : Nat) : ℤ) * (r.a : ℤ) : ℤ) : ℚ) := by
      push_cast
      exact hn'
    exact_mod_cast this
  obtain ⟨i, hi, hor⟩ := farey_multiples (a := r.a) (b := r.b) (q1 := r.q1) (m1 := r.m1) (q2 := r.q2) (m2 := r.m2) (Q := 33554500)
    (by have : ((r.m2 * r.q1 : Nat) : ℤ) = ((r.m1 * r.q2 + 1 : Nat) : ℤ) := by rw [k2]
        push_cast at this; linarith)
    (by exact_mod_cast k3) (by exact_mod_cast r.a_pos) (by exact_mod_cast r.b_pos) (by exact_mod_cast k4) (by exact_mod_cast k5)
    (by exact_mod_cast k6) (by exact_mod_cast k7) (by exact_mod_cast k8) (by exact_mod_cast k9)
    (by exact_mod_cast Nat.mul_pos hq (Nat.two_pow_pos u)) (by exact_mod_cast hqu) hz
  obtain ⟨i, rfl⟩ := Int.eq_ofNat_of_zero_le (by omega : 0 ≤ i)
  have hi' : 1 ≤ i := by omega
  have tie : (q : ℚ) * 2 ^ u * r.a = m * 2 ^ w * r.b → y = m * 2 ^ t / 2 := by
    intro h
    rw [← ey, ← em] at h
    exact mul_left_cancel₀ hscale.ne' h
  rcases hor with ⟨g1, g2⟩ | ⟨g1, g2⟩
  · have g1' : q * 2 ^ u = i * r.q1 := by exact_mod_cast g1
    have g2' : m * 2 ^ w = i * r.m1 := by exact_mod_cast g2
    have hx : i * (r.q1 * r.a - r.m1 * r.b) * 2 ^ 51 ≤ i * r.q1 * r.a := by
      rw [g1, g2] at hz
      have e : (i : ℤ) * (r.q1 : ℤ) * r.a - (i : ℤ) * (r.m1 : ℤ) * r.b = ((i * (r.q1 * r.a - r.m1 * r.b) : Nat) : ℤ) := by
        push_cast [Nat.cast_sub k6]; ring
      rw [e, abs_of_nonneg (Int.natCast_nonneg _)] at hz
      exact_mod_cast hz
    rcases sideOk_spec s1 hi' k4 (g1' ▸ hqu) hm0 hm g1' g2' hx with ⟨hx0, he⟩ | h
    · refine .inl ⟨tie ?_, he⟩
      have : r.q1 * r.a = r.m1 * r.b := by omega
      have h1 : q * 2 ^ u * r.a = m * 2 ^ w * r.b := by rw [g1', g2', Nat.mul_assoc, this, Nat.mul_assoc]
      exact_mod_cast h1
    · exact .inr h
  · have g1' : q * 2 ^ u = i * r.q2 := by exact_mod_cast g1
    have g2' : m * 2 ^ w = i * r.m2 := by exact_mod_cast g2
    have hx : i * (r.m2 * r.b - r.q2 * r.a) * 2 ^ 51 ≤ i * r.q2 * r.a := by
      rw [g1, g2] at hz
      have e : (i : ℤ) * (r.q2 : ℤ) * r.a - (i : ℤ) * (r.m2 : ℤ) * r.b = -((i * (r.m2 * r.b - r.q2 * r.a) : Nat) : ℤ) := by
        push_cast [Nat.cast_sub k7]; ring
      rw [e, abs_neg, abs_of_nonneg (Int.natCast_nonneg _)] at hz
      exact_mod_cast hz
    rcases sideOk_spec s2 hi' k5 (g1' ▸ hqu) hm0 hm g1' g2' hx with ⟨hx0, he⟩ | h
    · refine .inl ⟨tie ?_, he⟩
      have : r.q2 * r.a = r.m2 * r.b := by omega
      have h1 : q * 2 ^ u * r.a = m * 2 ^ w * r.b := by rw [g1', g2', Nat.mul_assoc, this, Nat.mul_assoc]
      exact_mod_cast h1
    · exact .inr h

end Row

end Swrs.Ieee
