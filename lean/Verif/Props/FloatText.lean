import Verif.Props.Floats
import Verif.Float.Show
import Verif.Float.Accuracy
/-!
# C87: the texts of floating point numbers, and what they are read as

The numbers in blocks are written by `f64::to_string` and the attributes of views by `serde_json`. Both write the shortest decimal that
stands for the value. `serde_json` does not always read the nearest value; here is when it does, and how far it may be off.
-/
namespace Swrs
open Ieee

/-! ## Specification -/

/-- A size of a binary format with significands of `p` bits, the smallest one being `2 ^ -s`, and no largest one. -/
def c87_Size (p s : Nat) (x : ℚ) : Prop := ∃ m t : Nat, m < 2 ^ p ∧ x = m * 2 ^ t / 2 ^ s

/-- The last bit of the significand is zero. -/
def c87_Even (p s : Nat) (x : ℚ) : Prop :=
  ∃ m t : Nat, m < 2 ^ p ∧ m % 2 = 0 ∧ (t = 0 ∨ 2 ^ (p - 1) ≤ m) ∧ x = m * 2 ^ t / 2 ^ s

/-- IEEE 754 rounds `v` to `x`: no size is nearer, and if another one is as near, the last bit of `x` is zero. -/
def c87_Rounds (p s : Nat) (v x : ℚ) : Prop :=
  c87_Size p s x ∧ ∀ y, c87_Size p s y → |x - v| ≤ |y - v| ∧ (y ≠ x → |x - v| = |y - v| → c87_Even p s x)

/-- A decimal of at most `n` digits, wherever the point is. -/
def c87_Fits (v : ℚ) (n : Nat) : Prop := ∃ m : Nat, m < 10 ^ n ∧ ∃ e : ℤ, v = m * 10 ^ e

/-- `v` is rounded to `x`; no decimal that is rounded to `x` has fewer digits; and of those with as many digits none is nearer to `x`. -/
def c87_Shortest (p s : Nat) (x v : ℚ) : Prop :=
  c87_Rounds p s v x ∧ ∀ w n, c87_Fits w n → c87_Rounds p s w x →
    c87_Fits v n ∧ (|v - x| ≤ |w - x| ∨ ∃ m < n, c87_Fits v m)

/-- A number: sign, digits, perhaps a point and more digits, and an exponent. -/
def c87_text (neg : Bool) (int frac exp : Str) : Str :=
  (if neg then ['-'] else []) ++ (int ++ ((if frac = [] then [] else '.' :: frac) ++ exp))

/-- Digits of a number before the point: no zero is in front. -/
def c87_Int (int : Str) : Prop := int = ['0'] ∨ (int ≠ [] ∧ c81_Digits int ∧ int.head? ≠ some '0')

/-- The value of the digits around the point and the exponent. -/
def c87_value (int frac : Str) (x : ℤ) : ℚ := c81_digits (int ++ frac) * 10 ^ (x - frac.length)

/-- A JSON number. -/
def c87_Number (tok : Str) (neg : Bool) (int frac : Str) (x : ℤ) : Prop :=
  ∃ exp, tok = c87_text neg int frac exp ∧ c87_Int int ∧ c81_Digits frac ∧ c81_Exp exp x

/-! ## Lemmas -/

theorem c87_size_iff {p s : Nat} (hp : p ≠ 0) (x : ℚ) : c87_Size p s x ↔ ∃ k : Nat, Rep p k ∧ x = k / 2 ^ s := by
  constructor
  · rintro ⟨m, t, hm, rfl⟩
    exact ⟨m * 2 ^ t, rep_of_dvd hp hm.le, by push_cast; rfl⟩
  · rintro ⟨k, ⟨m, hm⟩, rfl⟩
    refine ⟨m, shift p k, ?_, ?_⟩
    · have h := lt_two_pow_shift p k
      conv at h => lhs; rw [hm]
      rw [Nat.pow_add, Nat.mul_comm] at h
      exact Nat.lt_of_mul_lt_mul_right h
    · conv => lhs; rw [hm]
      push_cast; ring

theorem c87_even_iff {p s k : Nat} (hp : 2 ≤ p) : c87_Even p s (k / 2 ^ s) ↔ Ieee.Even p k := by
  have hs : (0 : ℚ) < 2 ^ s := by positivity
  constructor
  · rintro ⟨m, t, hm, h2, ht, he⟩
    have hkm : k = m * 2 ^ t := by
      have : (k : ℚ) = m * 2 ^ t := by rwa [div_left_inj' hs.ne'] at he
      exact_mod_cast this
    obtain ⟨c, hc⟩ : 2 ∣ m := Nat.dvd_of_mod_eq_zero h2
    have hsh : shift p k ≤ t := by
      rw [hkm]
      refine shift_le_of_lt (by omega) ?_
      rw [Nat.pow_add]
      exact Nat.mul_lt_mul_of_pos_right hm (Nat.two_pow_pos t)
    unfold Ieee.Even
    refine Nat.dvd_trans (Nat.pow_dvd_pow 2 (Nat.add_le_add_right hsh 1)) ?_
    rw [hkm, hc, Nat.pow_succ]
    exact ⟨c, by ring⟩
  · rintro ⟨c, hc⟩
    have hlt := lt_two_pow_shift p k
    have hk2 : k = 2 * c * 2 ^ shift p k := hc.trans (by rw [Nat.pow_succ]; ring)
    refine ⟨2 * c, shift p k, ?_, by omega, ?_, ?_⟩
    · rw [Nat.pow_add] at hlt
      conv at hlt => lhs; rw [hk2]
      exact Nat.lt_of_mul_lt_mul_right hlt
    · by_cases h0 : shift p k = 0
      · exact .inl h0
      · have hle := two_pow_shift_le (p := p) (by omega) h0
        rw [show p + shift p k - 1 = (p - 1) + shift p k by omega, Nat.pow_add] at hle
        conv at hle => rhs; rw [hk2]
        exact .inr (Nat.le_of_mul_le_mul_right hle (Nat.two_pow_pos _))
    · conv => lhs; rw [hk2]
      push_cast; ring

theorem c87_rounds_iff {p s k n d : Nat} {w : ℚ} (hp : 2 ≤ p) (hk : Rep p k) (hd : 0 < d) (h : (n : ℚ) / d = w * 2 ^ s) :
    c87_Rounds p s w (k / 2 ^ s) ↔ roundTo p n d = k := by
  have hs : (0 : ℚ) < 2 ^ s := by positivity
  rw [roundTo_iff hp hd hk, h]
  have e : ∀ j : Nat, |(j : ℚ) / 2 ^ s - w| = |(j : ℚ) - w * 2 ^ s| / 2 ^ s := by
    intro j
    rw [← abs_of_pos hs, ← abs_div, abs_of_pos hs]
    congr 1; field_simp
  constructor
  · rintro ⟨_, h2⟩
    constructor
    · intro j hj
      have := (h2 (j / 2 ^ s) ((c87_size_iff (by omega) _).mpr ⟨j, hj, rfl⟩)).1
      rw [e, e] at this
      exact (div_le_div_iff_of_pos_right hs).mp this
    · intro j hj hne heq
      have := (h2 (j / 2 ^ s) ((c87_size_iff (by omega) _).mpr ⟨j, hj, rfl⟩)).2
      rw [e, e, heq] at this
      refine (c87_even_iff hp).mp (this ?_ rfl)
      rw [Ne, div_left_inj' hs.ne']
      exact_mod_cast hne
  · rintro ⟨h1, h2⟩
    refine ⟨(c87_size_iff (by omega) _).mpr ⟨k, hk, rfl⟩, fun y hy => ?_⟩
    obtain ⟨j, hj, rfl⟩ := (c87_size_iff (by omega) _).mp hy
    rw [e, e]
    refine ⟨(div_le_div_iff_of_pos_right hs).mpr (h1 j hj), fun hne heq => ?_⟩
    rw [div_left_inj' hs.ne'] at heq
    refine (c87_even_iff hp).mpr (h2 j hj ?_ heq)
    rintro rfl; exact hne rfl

theorem c87_good_iff {p s k : Nat} {w : ℚ} (hp : 2 ≤ p) (hk : Rep p k) (hw : 0 ≤ w) :
    c87_Rounds p s w (k / 2 ^ s) ↔ Good p (2 ^ s) k w := by
  have h0 : 0 ≤ w * 2 ^ s := by positivity
  have hd : 0 < (w * 2 ^ s).den := (w * 2 ^ s).pos
  have hn : (((w * 2 ^ s).num.toNat : Nat) : ℚ) / (w * 2 ^ s).den = w * 2 ^ s := by
    have : (((w * 2 ^ s).num.toNat : Nat) : ℤ) = (w * 2 ^ s).num := Int.toNat_of_nonneg (Rat.num_nonneg.mpr h0)
    rw [← Int.cast_natCast, this]
    exact Rat.num_div_den _
  rw [c87_rounds_iff hp hk hd hn, good_iff hd]
  rw [hn]; push_cast; rfl

theorem c87_fits_nonneg {w : ℚ} {n : Nat} (h : c87_Fits w n) : 0 ≤ w := by
  obtain ⟨m, _, e, rfl⟩ := h; positivity

theorem c87_shortest {p s k L : Nat} {v : ℚ} (hp : 2 ≤ p) (hk : Rep p k) (hg : Good p (2 ^ s) k v) (hf : Fits v L)
    (h : ∀ (N : Nat) (w : ℚ), Fits w N → Good p (2 ^ s) k w → Fits v N ∧
        (|v - k / (2 ^ s : Nat)| ≤ |w - k / (2 ^ s : Nat)| ∨ ∃ M < N, Fits v M)) :
    c87_Shortest p s (k / 2 ^ s) v := by
  refine ⟨(c87_good_iff hp hk (c87_fits_nonneg hf)).mpr hg, fun w n hw hr => ?_⟩
  have := h n w hw ((c87_good_iff hp hk (c87_fits_nonneg hw)).mp hr)
  rw [Nat.cast_pow, Nat.cast_ofNat] at this
  exact this

theorem c87_signed (neg : Bool) (int frac : Str) (x : Option ℤ) :
    signed neg (number int frac x) = c87_text neg int frac (expText x) := by
  cases neg <;> rfl

theorem c87_int {int : Str} : IntPart int ↔ c87_Int int := by
  unfold IntPart c87_Int Json.Digs c81_Digits
  simp only [c81_isDigit, and_assoc]

theorem c87_digits {ds : Str} : (∀ c ∈ ds, isDigit c = true) ↔ c81_Digits ds := by
  unfold c81_Digits
  simp only [c81_isDigit]

theorem c87_layout_value {m z z' : Nat} {e : ℤ} {int frac s : Str} {x : Option ℤ} (h : IsLayout s m (e + z) z' int frac x) :
    c87_value int frac (x.getD 0) = ((m * 10 ^ z : Nat) : ℚ) * 10 ^ e := by
  rw [c87_value, ← c81_digitsNat, h.value, h.expo, zpow_split]

/-! ## Texts of values -/

/-- C87: the text of a finite `f64` other than zero has the digits of the shortest decimal that is rounded to it (the nearest of these),
at most 17; it has no exponent, no zero in front of other digits before the point, and no zero at the end after the point; whole numbers
have no point. -/
theorem c87_f64_text (neg : Bool) (k : { k : Nat // Rep f64.prec k ∧ k < f64.top }) (hk : k.val ≠ 0) :
    ∃ int frac, showF64 (.fin neg k) = c87_text neg int frac [] ∧ c87_Int int ∧ c81_Digits frac ∧ frac.getLast? ≠ some '0' ∧
      c87_Shortest 53 1074 (k.val / 2 ^ 1074) (c87_value int frac 0) ∧ c87_Fits (c87_value int frac 0) 17 := by
  obtain ⟨q, e, hq, ht, hg, hf, hs⟩ := showF64_spec neg k hk
  obtain ⟨m, z, rfl, hm⟩ := exists_strip q hq
  obtain ⟨z', int, frac, hl, hlast⟩ := layout64_spec hm z e
  have hv := c87_layout_value hl
  rw [Option.getD_none] at hv
  refine ⟨int, frac, ?_, c87_int.mp hl.intPart, c87_digits.mp hl.fracDigits, hlast, ?_, ?_⟩
  · rw [ht, hl.text]; exact c87_signed neg int frac none
  · rw [hv]; exact c87_shortest (by decide) k.2.1 hg hf hs
  · rw [hv]; exact hf

/-- C87: the texts of the other `f64`. -/
theorem c87_f64_other (neg : Bool) (h : Rep f64.prec 0 ∧ 0 < f64.top) :
    showF64 (.fin neg ⟨0, h⟩) = c87_text neg (s% "0") [] [] ∧
    showF64 (.inf neg) = (if neg then s% "-inf" else s% "inf") ∧ showF64 .nan = s% "NaN" := by
  cases neg <;> exact ⟨rfl, rfl, rfl⟩

/-- C87: the text of a finite `f32` other than zero has the digits of the shortest decimal that is rounded to it (the nearest of these),
at most nine. From `10^-6` up to `10^13` there is a point, digits after it, and no exponent; otherwise there is one digit before the
point, which is left out if no digits follow, and an exponent. -/
theorem c87_f32_text (neg : Bool) (k : { k : Nat // Rep f32.prec k ∧ k < f32.top }) (hk : k.val ≠ 0) :
    ∃ int frac exp x, printF32 (.fin neg k) = c87_text neg int frac exp ∧ c87_Int int ∧ c81_Digits frac ∧
      c87_Shortest 24 149 (k.val / 2 ^ 149) (c87_value int frac x) ∧ c87_Fits (c87_value int frac x) 9 ∧
      ((1 / 10 ^ 6 ≤ c87_value int frac x ∧ c87_value int frac x < 10 ^ 13 ∧ exp = [] ∧ x = 0 ∧
          (frac = ['0'] ∨ (frac ≠ [] ∧ frac.getLast? ≠ some '0'))) ∨
       ((c87_value int frac x < 1 / 10 ^ 6 ∨ 10 ^ 13 ≤ c87_value int frac x) ∧ int.length = 1 ∧ int ≠ ['0'] ∧ frac.getLast? ≠ some '0' ∧
          ∃ sign ds, exp = 'e' :: (sign ++ ds) ∧ c81_Digits ds ∧ ds.head? ≠ some '0' ∧
            ((0 < x ∧ sign = [] ∧ (x : ℚ) = c81_digits ds) ∨ (x < 0 ∧ sign = ['-'] ∧ (x : ℚ) = -c81_digits ds)))) := by
  obtain ⟨q, e, hq, ht, hg, hf, hs⟩ := printF32_spec neg k hk
  obtain ⟨m, z, rfl, hm⟩ := exists_strip q hq
  obtain ⟨z', int, frac, x, hl, _, hsh⟩ := layout32_spec hm z e
  have hv := c87_layout_value hl
  have hm0 : m ≠ 0 := by rintro rfl; simp at hm
  have ⟨l1, l2⟩ := decLen_bounds m
  have l1' : (m : ℚ) < 10 ^ (decLen m : ℤ) := by rw [zpow_natCast]; exact_mod_cast l1
  have l2' : (10 : ℚ) ^ ((decLen m : ℤ) - 1) ≤ m := by
    have h1 : 1 ≤ decLen m := List.length_pos_iff.mpr (natStr_ne_nil 10 m)
    rw [show (decLen m : ℤ) - 1 = ((decLen m - 1 : Nat) : ℤ) by omega, zpow_natCast]
    exact_mod_cast l2 hm0
  have hV : c87_value int frac (x.getD 0) = m * 10 ^ (e + z) := by
    rw [hv, zpow_add₀ (by norm_num), zpow_natCast]; push_cast; ring
  have hT : (0 : ℚ) < 10 ^ (e + z) := by positivity
  have hup : c87_value int frac (x.getD 0) < 10 ^ ((decLen m : ℤ) + (e + z)) := by
    rw [hV, zpow_add₀ (by norm_num) (decLen m : ℤ) (e + z)]; exact mul_lt_mul_of_pos_right l1' hT
  have hlo : (10 : ℚ) ^ ((decLen m : ℤ) + (e + z) - 1) ≤ c87_value int frac (x.getD 0) := by
    rw [hV, show (decLen m : ℤ) + (e + z) - 1 = (decLen m - 1) + (e + z) by ring, zpow_add₀ (by norm_num) _ (e + z)]
    exact mul_le_mul_of_nonneg_right l2' hT.le
  refine ⟨int, frac, expText x, x.getD 0, ?_, c87_int.mp hl.intPart, c87_digits.mp hl.fracDigits, ?_, ?_, ?_⟩
  · rw [ht, hl.text]; exact c87_signed neg int frac x
  · rw [hv]; exact c87_shortest (by decide) k.2.1 hg hf hs
  · rw [hv]; exact hf
  · rcases hsh with ⟨rfl, h1, h2, h3, h4⟩ | ⟨y, rfl, h1, h2, h3, h4, h5⟩
    · refine .inl ⟨?_, ?_, rfl, rfl, h2.imp id fun h => ⟨h1, h⟩⟩
      · refine le_trans ?_ hlo
        rw [show (1 : ℚ) / 10 ^ 6 = 10 ^ (-6 : ℤ) by norm_num]
        exact zpow_le_zpow_right₀ (by norm_num) (by omega)
      · refine lt_of_lt_of_le hup ?_
        rw [show (10 : ℚ) ^ 13 = 10 ^ (13 : ℤ) by norm_num]
        exact zpow_le_zpow_right₀ (by norm_num) (by omega)
    · refine .inr ⟨?_, h1, h2, h3, ?_⟩
      · rcases h5 with h5 | h5
        · refine .inl (lt_of_lt_of_le hup ?_)
          rw [show (1 : ℚ) / 10 ^ 6 = 10 ^ (-6 : ℤ) by norm_num]
          exact zpow_le_zpow_right₀ (by norm_num) (by omega)
        · refine .inr (le_trans ?_ hlo)
          rw [show (10 : ℚ) ^ 13 = 10 ^ (13 : ℤ) by norm_num]
          exact zpow_le_zpow_right₀ (by norm_num) (by omega)
      · have hy : y ≠ 0 := by rintro rfl; omega
        simp only [expText, Option.getD_some]
        match y, hy with
        | .negSucc n, _ =>
          refine ⟨['-'], natStr 10 (n + 1), rfl, c87_digits.mp (natStr_digits rfl _), ?_, .inr ⟨Int.negSucc_lt_zero n, rfl, ?_⟩⟩
          · exact fun h => absurd (natStr_head_zero h) (by omega)
          · rw [← c81_digitsNat, digitsNat_natStr, Int.cast_negSucc]
        | .ofNat n, hy =>
          have hn : n ≠ 0 := by rintro rfl; exact hy rfl
          refine ⟨[], natStr 10 n, rfl, c87_digits.mp (natStr_digits rfl _), ?_, .inl ⟨by simp; omega, rfl, ?_⟩⟩
          · exact fun h => absurd (natStr_head_zero h) hn
          · rw [← c81_digitsNat, digitsNat_natStr]; simp

/-- C87: the texts of the other `f32`. -/
theorem c87_f32_other (neg : Bool) (h : Rep f32.prec 0 ∧ 0 < f32.top) :
    printF32 (.fin neg ⟨0, h⟩) = c87_text neg (s% "0") (s% "0") [] ∧ printF32 (.inf neg) = s% "null" ∧ printF32 .nan = s% "null" := by
  cases neg <;> exact ⟨rfl, rfl, rfl⟩

/-! ## Reading -/

theorem c87_isNum {tok : Str} {neg : Bool} {int frac : Str} {x : ℤ} (h : c87_Number tok neg int frac x)
    (hlen : (int ++ frac).length ≤ 2147480000) :
    ∃ e, e.getD 0 = x ∧ IsNum tok neg int frac e (c87_value int frac x) := by
  obtain ⟨exp, rfl, hi, hf, hx⟩ := h
  have hi' : c81_Digits int ∧ int ≠ [] := by
    rcases hi with rfl | ⟨h1, h2, _⟩
    · exact ⟨by decide, by simp⟩
    · exact ⟨h2, h1⟩
  have hp : (if frac = [] then [] else '.' :: frac) ++ exp = (if frac = [] then [] else ['.']) ++ (frac ++ exp) := by
    by_cases h : frac = [] <;> simp [h]
  have hp' : (if frac = [] then [] else ['.']) = ['.'] ∨ ((if frac = [] then [] else ['.']) = [] ∧ frac = []) := by
    by_cases h : frac = [] <;> simp [h]
  obtain ⟨e, he, rfl⟩ := c81_readDecimal hi'.1 hf (.inl hi'.2) hp' hx
  have hss : signSplit (c87_text neg int frac exp) = (neg, int ++ ((if frac = [] then [] else ['.']) ++ (frac ++ exp))) := by
    unfold c87_text
    rw [hp]
    refine c81_signSplit ?_ (c81_body (exp := exp) hi'.1 (.inl hi'.2) hp')
    cases neg <;> simp
  have hu : Json.UNumber (int ++ ((if frac = [] then [] else '.' :: frac) ++ exp)) := by
    refine ⟨int, _, _, rfl, c87_int.mpr hi, ?_, ?_⟩
    · by_cases h : frac = []
      · exact .inl (if_pos h)
      · exact .inr ⟨frac, ⟨h, c87_digits.mpr hf⟩, if_neg h⟩
    · rcases hx with ⟨rfl, _⟩ | ⟨letter, sign, ds, rfl, hl, hne, hd, hs⟩
      · exact .inl rfl
      · refine .inr ⟨letter, ds, hl, ⟨hne, c87_digits.mpr hd⟩, ?_⟩
        rcases hs with ⟨rfl | rfl, _⟩ | ⟨rfl, _⟩ <;> simp
  refine ⟨e, rfl, ?_, ?_, ?_, c87_digits.mpr hi'.1, c87_digits.mpr hf, ?_, ?_⟩
  · refine Json.isNumTok_of_number ?_
    unfold c87_text
    cases neg
    · exact .inl hu
    · exact .inr ⟨_, hu, rfl⟩
  · rw [hss]; exact he
  · rw [hss]
  · rwa [List.length_append] at hlen
  · rw [c87_value, c81_digitsNat]

/-- The outcome of reading is `v` rounded to `f32`: infinite, if that is too large. -/
def c87_IsRounded (r : Option (Value f32)) (neg : Bool) (v : ℚ) : Prop :=
  (∃ k, r = some (.fin neg k) ∧ c87_Rounds 24 149 v (k.val / 2 ^ 149)) ∨
  (r = some (.inf neg) ∧ ∃ x, 2 ^ 128 ≤ x ∧ c87_Rounds 24 149 v x)

theorem c87_isRounded {neg : Bool} {n d n' d' : Nat} {v : ℚ} (hd : 0 < d) (hd' : 0 < d') (h : (n' : ℚ) / d' = v * 2 ^ 149)
    (he : roundTo 24 n d = roundTo 24 n' d') : c87_IsRounded (some (Value.round f32 (by decide) neg n d)) neg v := by
  have hrep : Rep 24 (roundTo 24 n' d') := rep_roundTo (by decide) hd'
  have hr := (c87_rounds_iff (by decide) hrep hd' h).mpr rfl
  by_cases ht : roundTo 24 n d < f32.top
  · left
    refine ⟨⟨roundTo 24 n d, rep_roundTo (by decide) hd, ht⟩, ?_, ?_⟩
    · unfold Value.round
      rw [dif_pos ⟨hd, ht⟩]; rfl
    · simp only [he]; exact hr
  · right
    refine ⟨?_, _, ?_, hr⟩
    · unfold Value.round
      rw [dif_neg fun h => ht h.2]
    · rw [he, Nat.not_lt] at ht
      have : (2 : Nat) ^ 128 * 2 ^ 149 ≤ roundTo 24 n' d' := by rw [← Nat.pow_add]; exact ht
      rw [le_div_iff₀ (by positivity)]
      exact_mod_cast this

theorem c87_zero (neg : Bool) {d : Nat} (hd : 0 < d) : c87_IsRounded (some (Value.round f32 (by decide) neg 0 d)) neg 0 :=
  c87_isRounded (n' := 0) (d' := 1) hd Nat.one_pos (by simp) (by
    have h0 : ∀ d, 0 < d → roundTo 24 0 d = 0 := fun d hd => by
      have := roundTo_exact (p := 24) (k := 0) hd ⟨0, by simp⟩
      rwa [Nat.zero_mul] at this
    rw [h0 d hd, h0 1 Nat.one_pos])

theorem c87_of_whole {tok : Str} {neg : Bool} {n : Nat} {v : ℚ} (hv : v = n) (hn : neg = true → n ≤ 9223372036854775808)
    (hr : readNumber tok = if neg = false then some (.u64 n)
      else if n = 0 ∨ 9223372036854775808 < n then some (.f64 true (r64 n 1)) else some (.i64 (-(n : ℤ)))) :
    c87_IsRounded (readF32 tok) neg v := by
  have key : ∀ neg, c87_IsRounded (some (Value.round f32 (by decide) neg (n * 2 ^ 149) 1)) neg v := fun neg =>
    c87_isRounded (n' := n * 2 ^ 149) (d' := 1) Nat.one_pos Nat.one_pos (by
      rw [hv]; simp only [Nat.cast_mul, Nat.cast_pow, Nat.cast_ofNat, Nat.cast_one, div_one]) rfl
  unfold readF32
  rw [hr]
  cases neg with
  | false => exact key false
  | true =>
    rw [if_neg (by simp)]
    by_cases h0 : n = 0
    · subst h0
      rw [if_pos (.inl rfl), hv, Nat.cast_zero]
      have : r64 0 1 = 0 := by
        have := roundTo_exact (p := 53) (k := 0) Nat.one_pos ⟨0, by simp⟩
        rw [Nat.zero_mul] at this
        unfold r64
        rwa [Nat.zero_mul]
      simp only [Option.map_some, this]
      exact c87_zero true (Nat.two_pow_pos _)
    · rw [if_neg (by have := hn rfl; omega)]
      have e : (-(n : ℤ)).natAbs = n := by omega
      simp only [Option.map_some, e]
      exact key true

/-- C87: a JSON number of few digits and moderate size is read as the nearest `f32`, or as infinite if that is too large. (So are
all the numbers that people write.) -/
theorem c87_short (tok : Str) (neg : Bool) (int frac : Str) (x : ℤ) (h : c87_Number tok neg int frac x)
    (hlen : (int ++ frac).length ≤ 2147480000) (hs : c81_digits (int ++ frac) ≤ 33554500) (h1 : -54 ≤ x - frac.length)
    (h2 : x - frac.length ≤ 39) : c87_IsRounded (readF32 tok) neg (c87_value int frac x) := by
  obtain ⟨e, rfl, hn⟩ := c87_isNum h hlen
  rw [← c81_digitsNat] at hs
  have hs' : digitsNat (int ++ frac) ≤ 33554500 := by exact_mod_cast hs
  have hval : c87_value int frac (e.getD 0) = digitsNat (int ++ frac) * 10 ^ (e.getD 0 - frac.length) := hn.val
  have h925 : 0 < 2 ^ (1074 - 149) := Nat.two_pow_pos _
  rcases hn.cases with ⟨n, hv, hle, hr, hnd⟩ | ⟨h0, hr⟩ | ⟨hbig, _⟩ | ⟨hpos, hsmall, _⟩ | ⟨sig, E, hs1, hs2, hr, herr, hx⟩
  · exact c87_of_whole hv (by omega) hr
  · unfold readF32
    rw [hr, h0]
    exact c87_zero neg h925
  · exfalso
    have c1 : (10 : ℚ) ^ (e.getD 0 - frac.length) ≤ 10 ^ (39 : ℤ) := zpow_le_zpow_right₀ (by norm_num) h2
    have c2 : (digitsNat (int ++ frac) : ℚ) * 10 ^ (e.getD 0 - frac.length) ≤ 33554500 * 10 ^ (39 : ℤ) :=
      mul_le_mul hs c1 (by positivity) (by norm_num)
    rw [← hval] at c2
    have c3 : (33554500 : ℚ) * 10 ^ (39 : ℤ) < 10 ^ 100 := by norm_num
    have c4 : (10 : ℚ) ^ 100 ≤ 10 ^ 1000 := pow_le_pow_right₀ (by norm_num) (by norm_num)
    exact absurd (le_trans (le_trans c4 hbig) c2) (not_le.mpr c3)
  · exfalso
    have hd0 : 1 ≤ digitsNat (int ++ frac) := by
      rcases Nat.eq_zero_or_pos (digitsNat (int ++ frac)) with h | h
      · rw [hval, h] at hpos; simp at hpos
      · exact h
    have c1 : (10 : ℚ) ^ (-54 : ℤ) ≤ 10 ^ (e.getD 0 - frac.length) := zpow_le_zpow_right₀ (by norm_num) h1
    have c2 : (1 : ℚ) * 10 ^ (-54 : ℤ) ≤ digitsNat (int ++ frac) * 10 ^ (e.getD 0 - frac.length) :=
      mul_le_mul (by exact_mod_cast hd0) c1 (zpow_nonneg (by norm_num) _) (Nat.cast_nonneg _)
    rw [← hval] at c2
    have c3 : (1 : ℚ) < 1 * 10 ^ (-54 : ℤ) * 10 ^ 100 := by norm_num
    have c4 : (10 : ℚ) ^ 100 ≤ 10 ^ 1000 := pow_le_pow_right₀ (by norm_num) (by norm_num)
    have c5 : 1 * (10 : ℚ) ^ (-54 : ℤ) * 10 ^ 100 ≤ c87_value int frac (e.getD 0) * 10 ^ 1000 :=
      mul_le_mul c2 c4 (by positivity) hpos.le
    exact absurd (le_trans c5 hsmall) (not_le.mpr c3)
  · obtain ⟨rfl, rfl⟩ := hx (Nat.le_trans hs' (by decide))
    obtain ⟨g, hg, hgr⟩ := fromParts_round ((-(e.getD 0 - frac.length)).toNat / 308 + 1) _ _ hs1 hs' h1 h2
    rw [hg, Option.map_some] at hr
    unfold readF32
    rw [hr]
    refine c87_isRounded h925 (Nat.pow_pos (by decide)) ?_ hgr
    rw [hval, decimal_ratio]
    rw [Nat.cast_pow, Nat.cast_ofNat]

/-- C87: whole numbers of 64 bits are read as the nearest `f32`. -/
theorem c87_whole (neg : Bool) (int : Str) (hi : c87_Int int) (hlen : int.length ≤ 2147480000)
    (hs : c81_digits int < 2 ^ 64) (hn : neg = true → c81_digits int ≤ 2 ^ 63) :
    c87_IsRounded (readF32 (c87_text neg int [] [])) neg (c81_digits int) := by
  rw [← c81_digitsNat] at *
  have hs' : digitsNat int < 2 ^ 64 := by exact_mod_cast hs
  have hn' : neg = true → digitsNat int ≤ 2 ^ 63 := fun h => by exact_mod_cast hn h
  have hnum : c87_Number (c87_text neg int [] []) neg int [] 0 := ⟨[], rfl, hi, by simp [c81_Digits], .inl ⟨rfl, rfl⟩⟩
  obtain ⟨e, he, h⟩ := c87_isNum hnum (by simpa using hlen)
  have hd := h.read
  have he' : e = none := by
    have h1 : c87_text neg int [] [] = signed neg (number int [] none) := (c87_signed neg int [] none).symm
    rw [h1, signSplit_number neg (c87_int.mpr hi)] at hd
    simp only [readDecimal_number (c87_int.mpr hi) (show ∀ c ∈ ([] : Str), isDigit c = true by simp)] at hd
    simp only [Option.some.injEq, Decimal.mk.injEq, true_and] at hd
    exact hd.symm
  subst he'
  exact c87_of_whole rfl (fun h => by have := hn' h; omega) (h.whole (by unfold u64max; omega))

/-- C87: any JSON number from `10^-37` to `3.4 * 10^38` is read as a `f32` with almost no more than the error of rounding. -/
theorem c87_accuracy (tok : Str) (neg : Bool) (int frac : Str) (x : ℤ) (h : c87_Number tok neg int frac x)
    (hlen : (int ++ frac).length ≤ 2147480000) (h1 : 1 / 10 ^ 37 ≤ c87_value int frac x) (h2 : c87_value int frac x ≤ 34 * 10 ^ 37) :
    ∃ k, readF32 tok = some (.fin neg k) ∧
      |(k.val : ℚ) / 2 ^ 149 - c87_value int frac x| ≤ c87_value int frac x * (1 / 2 ^ 24 + 1 / 2 ^ 48) := by
  obtain ⟨e, rfl, hn⟩ := c87_isNum h hlen
  obtain ⟨k, hk, hb⟩ := hn.f32 h1 h2
  refine ⟨k, hk, ?_⟩
  have hs : (0 : ℚ) < 2 ^ 149 := by positivity
  generalize c87_value int frac (e.getD 0) = v at *
  rw [show (k.val : ℚ) / 2 ^ 149 - v = (k.val - v * 2 ^ 149) / 2 ^ 149 by field_simp, abs_div, abs_of_pos hs, div_le_iff₀ hs]
  refine le_trans hb (le_of_eq (by ring))

/-- C87: JSON numbers up to `10^308` are read, those from `10^309` on are errors. -/
theorem c87_range (tok : Str) (neg : Bool) (int frac : Str) (x : ℤ) (h : c87_Number tok neg int frac x)
    (hlen : (int ++ frac).length ≤ 2147480000) :
    (c87_value int frac x ≤ 10 ^ 308 → ∃ y, readF32 tok = some y) ∧ (10 ^ 309 ≤ c87_value int frac x → readF32 tok = none) := by
  obtain ⟨e, rfl, hn⟩ := c87_isNum h hlen
  exact hn.range

/-- C87: numbers of more digits are not always read as the nearest `f32`: `16777217.00000000001` is nearer to `16777218`. -/
theorem c87_not_nearest :
    readF32 (s% "16777217.00000000001") = some (.fin false ⟨16777216 * 2 ^ 149, by decide +kernel⟩) ∧
    c87_Number (s% "16777217.00000000001") false (s% "16777217") (s% "00000000001") 0 ∧
    ¬ c87_Rounds 24 149 (c87_value (s% "16777217") (s% "00000000001") 0) 16777216 := by
  refine ⟨by decide +kernel, ⟨[], rfl, .inr ⟨by decide, by decide, by decide⟩, by decide, .inl ⟨rfl, rfl⟩⟩, ?_⟩
  rintro ⟨_, h⟩
  have hv : c87_value (s% "16777217") (s% "00000000001") 0 = 16777217 + 1 / 10 ^ 11 := by
    rw [c87_value, ← c81_digitsNat]
    rw [show digitsNat (s% "16777217" ++ s% "00000000001") = 1677721700000000001 by decide +kernel]
    norm_num
  have := (h 16777218 ⟨8388609, 150, by decide, by norm_num⟩).1
  rw [hv] at this
  norm_num [abs_le, abs_of_pos, abs_of_neg] at this

/-! ## Examples -/

-- 0.3 and 0.1 + 0.2; whole numbers; no exponent
example : showF64 ((readF64 (s% "3e-1")).getD .nan) = c87_text false (s% "0") (s% "3") [] ∧
    showF64 ((readF64 (s% "-12500e17")).getD .nan) = c87_text true (s% "1250000000000000000000") [] [] := by decide +kernel

-- the bounds of the layouts of `f32`
example : printF32 (c81_f32 (s% "1e12")) = s% "1000000000000.0" ∧ printF32 (c81_f32 (s% "1e13")) = s% "1e13" ∧
    printF32 (c81_f32 (s% "12500000000000")) = s% "1.25e13" ∧ printF32 (c81_f32 (s% "0.000001")) = s% "0.000001" ∧
    printF32 (c81_f32 (s% "0.00000125")) = s% "0.00000125" ∧ printF32 (c81_f32 (s% "-0.0000005")) = s% "-5e-7" ∧
    printF32 (c81_f32 (s% "2.0")) = s% "2.0" := by decide +kernel

-- a value other than zero
example : ∃ k : { k : Nat // Rep f32.prec k ∧ k < f32.top }, k.val ≠ 0 := ⟨⟨3, by decide +kernel⟩, by decide⟩
example : ∃ k : { k : Nat // Rep f64.prec k ∧ k < f64.top }, k.val ≠ 0 := ⟨⟨3, by decide +kernel⟩, by decide⟩

-- the hypotheses of the theorems about reading
example : c87_Number (s% "-0.75e-3") true (s% "0") (s% "75") (-3) ∧ c81_digits (s% "0" ++ s% "75") ≤ 33554500 ∧
    (-54 : ℤ) ≤ -3 - ((s% "75").length : ℤ) ∧ (-3 : ℤ) - (s% "75").length ≤ 39 ∧
    1 / 10 ^ 37 ≤ c87_value (s% "0") (s% "75") (-3) ∧ c87_value (s% "0") (s% "75") (-3) ≤ 34 * 10 ^ 37 := by
  refine ⟨⟨s% "e-3", rfl, .inl rfl, by decide, .inr ⟨'e', s% "-", s% "3", rfl, .inl rfl, by decide, by decide, .inr ⟨rfl, ?_⟩⟩⟩, ?_⟩
  · rw [← c81_digitsNat]; decide +kernel
  · simp only [c87_value, ← c81_digitsNat]; decide +kernel

example : c87_Number (s% "1e400") false (s% "1") [] 400 ∧ 10 ^ 309 ≤ c87_value (s% "1") [] 400 ∧ readF32 (s% "1e400") = none := by
  refine ⟨⟨s% "e400", rfl, .inr ⟨by decide, by decide, by decide⟩, by decide,
    .inr ⟨'e', [], s% "400", rfl, .inl rfl, by decide, by decide, .inl ⟨.inl rfl, ?_⟩⟩⟩, ?_, by decide +kernel⟩
  · rw [← c81_digitsNat]; decide +kernel
  · simp only [c87_value, ← c81_digitsNat]; decide +kernel

end Swrs
