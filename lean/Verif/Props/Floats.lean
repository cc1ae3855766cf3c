import Verif.Float.Instance
import Verif.Props.View
import Verif.Model.Color
import Mathlib.Algebra.Order.Group.Unbundled.Abs
/-!
# C81: floating point numbers keep their values

The theorems about views and blocks hold for every implementation of the interface of `Verif.Base.Float`. Here it is IEEE 754 with the
reading and printing of `serde_json` and of the standard library.
-/
namespace Swrs
open Ieee

/-! ## Specification -/

/-- The value of decimal digits: the first one counts most. -/
def c81_digits : Str → ℚ
  | [] => 0
  | c :: cs => ((c.toNat - 48 : Nat) : ℚ) * 10 ^ cs.length + c81_digits cs

/-- Digits only. -/
def c81_Digits (s : Str) : Prop := ∀ c ∈ s, '0' ≤ c ∧ c ≤ '9'
instance (s : Str) : Decidable (c81_Digits s) := inferInstanceAs (Decidable (∀ c ∈ s, '0' ≤ c ∧ c ≤ '9'))

/-- The text of an exponent and its value. -/
def c81_Exp (s : Str) (x : ℤ) : Prop :=
  (s = [] ∧ x = 0) ∨
  ∃ letter sign ds, s = letter :: (sign ++ ds) ∧ (letter = 'e' ∨ letter = 'E') ∧ ds ≠ [] ∧ c81_Digits ds ∧
    (((sign = [] ∨ sign = ['+']) ∧ (x : ℚ) = c81_digits ds) ∨ (sign = ['-'] ∧ (x : ℚ) = -c81_digits ds))

/-- A decimal number, its sign and its size: `-12.5e-3`, `+7.`, `.5`. -/
def c81_Decimal (s : Str) (neg : Bool) (v : ℚ) : Prop :=
  ∃ sign int point frac exp x, s = sign ++ (int ++ (point ++ (frac ++ exp))) ∧
    ((neg = false ∧ (sign = [] ∨ sign = ['+'])) ∨ (neg = true ∧ sign = ['-'])) ∧
    c81_Digits int ∧ c81_Digits frac ∧ (int ≠ [] ∨ frac ≠ []) ∧
    (point = ['.'] ∨ (point = [] ∧ frac = [])) ∧
    c81_Exp exp x ∧ v = c81_digits (int ++ frac) * 10 ^ (x - frac.length)

/-! ## Texts -/

theorem c81_isDigit (c : Char) : isDigit c = true ↔ '0' ≤ c ∧ c ≤ '9' := by
  simp only [isDigit, Bool.and_eq_true, decide_eq_true_eq, Char.le_def, UInt32.le_iff_toNat_le]
  exact Iff.rfl

theorem c81_foldl (s : Str) (a : Nat) :
    ((s.foldl (fun a c => a * 10 + (c.toNat - 48)) a : Nat) : ℚ) = a * 10 ^ s.length + c81_digits s := by
  induction s generalizing a with
  | nil => simp [c81_digits]
  | cons c cs ih =>
    simp only [List.foldl_cons, ih, c81_digits, List.length_cons]
    push_cast; ring

theorem c81_digitsNat (s : Str) : (digitsNat s : ℚ) = c81_digits s := by
  have := c81_foldl s 0
  rw [Nat.cast_zero, zero_mul, zero_add] at this
  exact this

theorem c81_takeWhile {ds rest : Str} (h : c81_Digits ds) (hr : ∀ c r, rest = c :: r → isDigit c = false) :
    (ds ++ rest).takeWhile isDigit = ds ∧ (ds ++ rest).dropWhile isDigit = rest := by
  have h' : ∀ c ∈ ds, isDigit c = true := fun c hc => (c81_isDigit c).mpr (h c hc)
  rw [List.takeWhile_append_of_pos h', List.dropWhile_append_of_pos h']
  cases rest with
  | nil => simp
  | cons c r => simp [hr c r rfl]

theorem c81_readExp {s : Str} {x : ℤ} (h : c81_Exp s x) : ∃ e, readExp s = some e ∧ e.getD 0 = x := by
  rcases h with ⟨rfl, rfl⟩ | ⟨letter, sign, ds, rfl, hl, hne, hd, hx⟩
  · exact ⟨none, rfl, rfl⟩
  · have hall : ds.all isDigit = true := List.all_eq_true.mpr fun c hc => (c81_isDigit c).mpr (hd c hc)
    rw [← c81_digitsNat] at hx
    have hh : ∀ r, ds ≠ '+' :: r ∧ ds ≠ '-' :: r := fun r => by
      constructor <;> (intro h; subst h; exact absurd (hd _ List.mem_cons_self) (by decide))
    have hs : signSplit ds = (false, ds) := by
      unfold signSplit
      split
      · next r => exact absurd rfl (hh r).1
      · next r => exact absurd rfl (hh r).2
      · rfl
    have e0 : readExp (letter :: (sign ++ ds)) =
        if (signSplit (sign ++ ds)).2 ≠ [] ∧ (signSplit (sign ++ ds)).2.all isDigit then
          some (some (if (signSplit (sign ++ ds)).1 then -(digitsNat (signSplit (sign ++ ds)).2 : Int)
            else digitsNat (signSplit (sign ++ ds)).2)) else none := by
      rw [readExp, if_pos hl]
    rcases hx with ⟨rfl | rfl, hx⟩ | ⟨rfl, hx⟩
    · refine ⟨some x, ?_, rfl⟩
      rw [e0, List.nil_append, hs, if_pos ⟨hne, hall⟩]
      have : x = digitsNat ds := by exact_mod_cast hx
      simp [this]
    · refine ⟨some x, ?_, rfl⟩
      have hs' : signSplit (['+'] ++ ds) = (false, ds) := rfl
      rw [e0, hs', if_pos ⟨hne, hall⟩]
      have : x = digitsNat ds := by exact_mod_cast hx
      simp [this]
    · refine ⟨some x, ?_, rfl⟩
      have hs' : signSplit (['-'] ++ ds) = (true, ds) := rfl
      rw [e0, hs', if_pos ⟨hne, hall⟩]
      have : x = -(digitsNat ds : ℤ) := by exact_mod_cast hx
      simp [this]

theorem c81_exp_head {s : Str} {x : ℤ} (h : c81_Exp s x) : ∀ c r, s = c :: r → isDigit c = false ∧ c ≠ '.' := by
  rcases h with ⟨rfl, rfl⟩ | ⟨letter, sign, ds, rfl, hl, _⟩
  · intro c r h; exact absurd h (by simp)
  · intro c r h
    obtain ⟨rfl, _⟩ := List.cons.inj h
    rcases hl with rfl | rfl <;> decide

theorem c81_readDecimal {int point frac exp : Str} {x : ℤ} (hi : c81_Digits int) (hf : c81_Digits frac)
    (hne : int ≠ [] ∨ frac ≠ []) (hp : point = ['.'] ∨ (point = [] ∧ frac = [])) (hx : c81_Exp exp x) :
    ∃ e, readDecimal (int ++ (point ++ (frac ++ exp))) = some ⟨int, frac, e⟩ ∧ e.getD 0 = x := by
  obtain ⟨e, he, hex⟩ := c81_readExp hx
  refine ⟨e, ?_, hex⟩
  have hne' : ¬(int = [] ∧ frac = []) := fun h => hne.elim (fun h' => h' h.1) (fun h' => h' h.2)
  rcases hp with rfl | ⟨rfl, rfl⟩
  · have ⟨t1, t2⟩ := c81_takeWhile (rest := ['.'] ++ (frac ++ exp)) hi (fun c r h => by
      obtain ⟨rfl, _⟩ := List.cons.inj h; decide)
    have ⟨t3, t4⟩ := c81_takeWhile (rest := exp) hf (fun c r h => (c81_exp_head hx c r h).1)
    unfold readDecimal
    rw [t1, t2]
    have hfr : readFrac (['.'] ++ (frac ++ exp)) = (frac, exp) := by
      show (List.takeWhile isDigit (frac ++ exp), List.dropWhile isDigit (frac ++ exp)) = _
      rw [t3, t4]
    simp only [hfr]
    rw [if_neg hne', he]; rfl
  · have ⟨t1, t2⟩ := c81_takeWhile (rest := exp) hi (fun c r h => (c81_exp_head hx c r h).1)
    unfold readDecimal
    rw [List.nil_append, List.nil_append, t1, t2]
    have hfr : readFrac exp = ([], exp) := by
      unfold readFrac
      split
      · next r => exact absurd rfl (c81_exp_head hx _ _ rfl).2
      · rfl
    simp only [hfr]
    rw [if_neg (fun h => hne' ⟨h.1, rfl⟩), he]; rfl

theorem c81_signSplit {sign body : Str} {neg : Bool}
    (hs : (neg = false ∧ (sign = [] ∨ sign = ['+'])) ∨ (neg = true ∧ sign = ['-']))
    (hb : ∀ r, body ≠ '+' :: r ∧ body ≠ '-' :: r) : signSplit (sign ++ body) = (neg, body) := by
  rcases hs with ⟨rfl, rfl | rfl⟩ | ⟨rfl, rfl⟩
  · rw [List.nil_append]; unfold signSplit
    split
    · next r => exact absurd rfl (hb r).1
    · next r => exact absurd rfl (hb r).2
    · rfl
  · rfl
  · rfl

theorem c81_body {int point frac exp : Str} (hi : c81_Digits int) (hne : int ≠ [] ∨ frac ≠ [])
    (hp : point = ['.'] ∨ (point = [] ∧ frac = [])) :
    ∀ r, int ++ (point ++ (frac ++ exp)) ≠ '+' :: r ∧ int ++ (point ++ (frac ++ exp)) ≠ '-' :: r := by
  intro r
  cases int with
  | cons c cs =>
    have := hi c (by simp)
    constructor <;> (intro h; obtain ⟨rfl, _⟩ := List.cons.inj h; exact absurd this (by decide))
  | nil =>
    rcases hp with rfl | ⟨rfl, rfl⟩
    · constructor <;> (intro h; exact absurd (List.cons.inj h).1 (by decide))
    · simp at hne

/-- What is read for a decimal number is the rounding of its value. -/
theorem c81_readF64 {s : Str} {neg : Bool} {v : ℚ} (h : c81_Decimal s neg v) :
    ∃ n d : Nat, 0 < d ∧ v * (2 ^ 1074 : Nat) = (n : ℚ) / (d : ℚ) ∧ readF64 s = some (Value.round f64 (by decide) neg n d) := by
  obtain ⟨sign, int, point, frac, exp, x, rfl, hs, hi, hf, hne, hp, hx, rfl⟩ := h
  obtain ⟨e, he, rfl⟩ := c81_readDecimal hi hf hne hp hx
  have hss := c81_signSplit hs (c81_body (exp := exp) hi hne hp)
  refine ⟨digitsNat (int ++ frac) * 10 ^ (e.getD 0 - frac.length).toNat * 2 ^ 1074, 10 ^ (-(e.getD 0 - frac.length)).toNat,
    Nat.pow_pos (by decide), ?_, ?_⟩
  · rw [← c81_digitsNat, ← pow10_ratio]
    generalize (2 : Nat) ^ 1074 = M
    generalize (e.getD 0 - frac.length) = y
    simp only [Nat.cast_mul, Nat.cast_pow, Nat.cast_ofNat]
    ring
  · unfold readF64
    rw [hss]
    simp only [he, ratio]

theorem c81_takeWhile_digits (s : Str) : c81_Digits (s.takeWhile isDigit) := fun c hc => by
  have h : (s.takeWhile isDigit).all isDigit = true := List.all_takeWhile
  exact (c81_isDigit c).mp (List.all_eq_true.mp h c hc)

theorem c81_exp_of_read {s : Str} {e : Option ℤ} (h : readExp s = some e) : c81_Exp s (e.getD 0) := by
  cases s with
  | nil => simp only [readExp, Option.some.injEq] at h; subst h; exact .inl ⟨rfl, rfl⟩
  | cons c r =>
    rw [readExp] at h
    split at h
    · next hc =>
      have main : ∀ neg ds, signSplit r = (neg, ds) → ds ≠ [] ∧ ds.all isDigit = true →
          e = some (if neg then -(digitsNat ds : Int) else digitsNat ds) → c81_Exp (c :: r) (e.getD 0) := by
        intro neg ds hs hd he
        subst he
        have hdd : c81_Digits ds := fun c hc => (c81_isDigit c).mp (List.all_eq_true.mp hd.2 c hc)
        unfold signSplit at hs
        split at hs
        · next t =>
          obtain ⟨rfl, rfl⟩ := Prod.mk.inj hs
          exact .inr ⟨c, ['+'], t, rfl, hc, hd.1, hdd, .inl ⟨.inr rfl, by simp [c81_digitsNat]⟩⟩
        · next t =>
          obtain ⟨rfl, rfl⟩ := Prod.mk.inj hs
          exact .inr ⟨c, ['-'], t, rfl, hc, hd.1, hdd, .inr ⟨rfl, by simp [c81_digitsNat]⟩⟩
        · obtain ⟨rfl, rfl⟩ := Prod.mk.inj hs
          exact .inr ⟨c, [], r, rfl, hc, hd.1, hdd, .inl ⟨.inl rfl, by simp [c81_digitsNat]⟩⟩
      rcases hs : signSplit r with ⟨neg, ds⟩
      rw [hs] at h
      simp only at h
      split at h
      · next hd => exact main neg ds hs hd (Option.some.inj h).symm
      · exact absurd h (by simp)
    · exact absurd h (by simp)

theorem c81_decimal_of_read {s : Str} {d : Decimal} (h : readDecimal s = some d) :
    ∃ point exp, s = d.int ++ (point ++ (d.frac ++ exp)) ∧ c81_Digits d.int ∧ c81_Digits d.frac ∧ (d.int ≠ [] ∨ d.frac ≠ []) ∧
      (point = ['.'] ∨ (point = [] ∧ d.frac = [])) ∧ c81_Exp exp (d.exp.getD 0) := by
  unfold readDecimal at h
  rcases hf : readFrac (s.dropWhile isDigit) with ⟨frac, rest⟩
  rw [hf] at h
  simp only at h
  split at h
  · exact absurd h (by simp)
  · next hne =>
    rw [Option.map_eq_some_iff] at h
    obtain ⟨e, he, rfl⟩ := h
    have hs := (List.takeWhile_append_dropWhile (p := isDigit) (l := s)).symm
    have hi := c81_takeWhile_digits s
    have hne' : s.takeWhile isDigit ≠ [] ∨ frac ≠ [] := by
      by_cases h1 : s.takeWhile isDigit = []
      · exact .inr fun h2 => hne ⟨h1, h2⟩
      · exact .inl h1
    unfold readFrac at hf
    split at hf
    · next r hr =>
      obtain ⟨rfl, rfl⟩ := Prod.mk.inj hf
      refine ⟨['.'], r.dropWhile isDigit, ?_, hi, c81_takeWhile_digits r, hne', .inl rfl, c81_exp_of_read he⟩
      rw [hr] at hs
      have := (List.takeWhile_append_dropWhile (p := isDigit) (l := r)).symm
      conv => lhs; rw [hs]
      conv => lhs; rw [this]
      rfl
    · obtain ⟨rfl, rfl⟩ := Prod.mk.inj hf
      exact ⟨[], s.dropWhile isDigit, hs, hi, fun c hc => absurd hc (by simp), hne', .inr ⟨rfl, rfl⟩, c81_exp_of_read he⟩

theorem c81_signSplit_spec (s : Str) : ∃ sign, s = sign ++ (signSplit s).2 ∧
    (((signSplit s).1 = false ∧ (sign = [] ∨ sign = ['+'])) ∨ ((signSplit s).1 = true ∧ sign = ['-'])) := by
  unfold signSplit
  split
  · exact ⟨['+'], rfl, .inl ⟨rfl, .inr rfl⟩⟩
  · exact ⟨['-'], rfl, .inr ⟨rfl, rfl⟩⟩
  · exact ⟨[], rfl, .inl ⟨rfl, .inl rfl⟩⟩

/-! ## Number arguments of blocks -/

/-- C81: a text is taken for an `f64` number exactly if it is a decimal number, or, after an optional sign and in any case, `inf`,
`infinity` or `nan`. -/
theorem c81_accepted (s : Str) : (∃ x, readF64 s = some x) ↔
    (∃ neg v, c81_Decimal s neg v) ∨
    ∃ sign word, s = sign ++ word ∧ sign ∈ [[], ['+'], ['-']] ∧ lower word ∈ [s% "inf", s% "infinity", s% "nan"] := by
  constructor
  · rintro ⟨x, h⟩
    obtain ⟨sign, hs, hsg⟩ := c81_signSplit_spec s
    unfold readF64 at h
    rcases hss : signSplit s with ⟨neg, r⟩
    rw [hss] at h hs hsg
    simp only at h hs hsg
    split at h
    · next d hd =>
      obtain ⟨point, exp, rfl, h1, h2, h3, h4, h5⟩ := c81_decimal_of_read hd
      exact .inl ⟨neg, _, sign, d.int, point, d.frac, exp, _, hs, hsg, h1, h2, h3, h4, h5, rfl⟩
    · refine .inr ⟨sign, r, hs, ?_, ?_⟩
      · rcases hsg with ⟨_, rfl | rfl⟩ | ⟨_, rfl⟩ <;> simp
      · split at h
        · next hw => rw [hw]; simp
        · split at h
          · next hw => rcases hw with hw | hw <;> (rw [hw]; simp)
          · exact absurd h (by simp)
  · rintro (⟨neg, v, h⟩ | ⟨sign, word, rfl, hs, hw⟩)
    · obtain ⟨n, d, _, _, h⟩ := c81_readF64 h
      exact ⟨_, h⟩
    · have hb : ∀ r, word ≠ '+' :: r ∧ word ≠ '-' :: r := fun r => by
        constructor <;> (intro h; subst h; revert hw; simp [lower])
      have hsp : ∃ neg, signSplit (sign ++ word) = (neg, word) := by
        simp only [List.mem_cons, List.not_mem_nil, or_false] at hs
        rcases hs with rfl | rfl | rfl
        · exact ⟨false, c81_signSplit (.inl ⟨rfl, .inl rfl⟩) hb⟩
        · exact ⟨false, c81_signSplit (.inl ⟨rfl, .inr rfl⟩) hb⟩
        · exact ⟨true, c81_signSplit (.inr ⟨rfl, rfl⟩) hb⟩
      obtain ⟨neg, hsp⟩ := hsp
      unfold readF64
      rw [hsp]
      simp only
      split
      · exact ⟨_, rfl⟩
      · simp only [List.mem_cons, List.not_mem_nil, or_false] at hw
        rcases hw with hw | hw | hw <;> simp [hw]

theorem c81_rep_max (a b : Nat) : Rep 53 ((2 ^ 54 - 2) * (2 ^ a * 2 ^ b)) := by
  have : (2 ^ 54 - 2) * (2 ^ a * 2 ^ b) = (2 ^ 53 - 1) * 2 ^ (1 + (a + b)) := by
    rw [Nat.pow_add, Nat.pow_add, Nat.pow_one, ← Nat.mul_assoc (2 ^ 53 - 1), (by decide : (2 ^ 53 - 1) * 2 = 2 ^ 54 - 2)]
  rw [this]
  exact rep_of_dvd (by decide) (by decide)

/-- C81: a decimal number is read as the `f64` nearest to it, with its sign (zero has one, too); as infinite from half a step
above the largest `f64` on. -/
theorem c81_nearest (s : Str) (neg : Bool) (v : ℚ) (h : c81_Decimal s neg v) :
    (∃ k, readF64 s = some (.fin neg k) ∧
      ∀ j, Rep 53 j → |(k.val : ℚ) / (2 ^ 1074 : Nat) - v| ≤ |(j : ℚ) / (2 ^ 1074 : Nat) - v|) ∨
    (readF64 s = some (.inf neg) ∧ (2 ^ 1024 - 2 ^ 970 : Nat) ≤ v) := by
  obtain ⟨n, d, hd, hv, hr⟩ := c81_readF64 h
  rw [hr]
  have hM : 0 < 2 ^ 1074 := Nat.two_pow_pos 1074
  have near : ∀ j, Rep 53 j →
      |(roundTo 53 n d : ℚ) / (2 ^ 1074 : Nat) - v| ≤ |(j : ℚ) / (2 ^ 1074 : Nat) - v| := by
    intro j hj
    have hn := roundTo_nearest (p := 53) (n := n) (by decide) hd hj
    rw [← hv] at hn
    generalize 2 ^ 1074 = M at hn hM ⊢
    have hM' : (0 : ℚ) < M := by exact_mod_cast hM
    have e : ∀ x : ℚ, x / M - v = (x - v * M) / M := fun x => by field_simp
    rw [e, e, abs_div, abs_div]
    exact div_le_div_of_nonneg_right hn (abs_nonneg _)
  unfold Value.round
  split
  · next hk => exact .inl ⟨_, rfl, near⟩
  · next hk =>
    refine .inr ⟨rfl, ?_⟩
    have htop : 2 ^ 54 * (2 ^ 970 * 2 ^ 1074) ≤ roundTo 53 n d := by
      have h1 : ¬ roundTo f64.prec n d < f64.top := fun h' => hk ⟨hd, h'⟩
      have h2 : f64.top = 2 ^ 54 * (2 ^ 970 * 2 ^ 1074) := by
        rw [← Nat.pow_add, ← Nat.pow_add]; rfl
      rw [h2] at h1
      exact Nat.le_of_not_lt h1
    have hj := c81_rep_max 970 1074
    have hn := roundTo_nearest (p := 53) (n := n) (by decide) hd hj
    rw [← hv] at hn
    have hT : 2 ^ 1024 - 2 ^ 970 = (2 ^ 54 - 1) * 2 ^ 970 := by
      rw [Nat.sub_mul, ← Nat.pow_add, Nat.one_mul]
    rw [hT]
    have hU : 0 < 2 ^ 970 := Nat.two_pow_pos 970
    generalize (2 : Nat) ^ 1074 = M at *
    generalize (2 : Nat) ^ 970 = U at *
    generalize roundTo 53 n d = R at *
    have hM' : (0 : ℚ) < M := by exact_mod_cast hM
    have hW : (0 : ℚ) < U * M := mul_pos (by exact_mod_cast hU) hM'
    have htop' : (2 : ℚ) ^ 54 * (U * M) ≤ R := by exact_mod_cast htop
    have ej : (((2 ^ 54 - 2) * (U * M) : Nat) : ℚ) = (2 ^ 54 - 2) * (U * M) := by
      rw [Nat.cast_mul, Nat.cast_mul]; norm_num
    have eg : (((2 ^ 54 - 1) * U : Nat) : ℚ) = (2 ^ 54 - 1) * U := by
      rw [Nat.cast_mul]; norm_num
    rw [ej] at hn
    rw [eg]
    refine le_of_mul_le_mul_right ?_ hM'
    rw [mul_assoc]
    generalize v * M = y at *
    generalize (U : ℚ) * M = W at *
    by_contra hc
    rw [not_le] at hc
    have h1 : (R : ℚ) - y ≤ |(2 ^ 54 - 2) * W - y| := le_trans (le_abs_self _) hn
    rcases le_total ((2 ^ 54 - 2) * W) y with h2 | h2
    · rw [abs_of_nonpos (by linarith)] at h1
      linarith
    · rw [abs_of_nonneg (by linarith)] at h1
      linarith

/-- C81: every `f64` is read back from its text, the infinite ones and NaN as well. -/
theorem c81_f64_round_trip (x : Value f64) : readF64 (showF64 x) = some x := by
  by_cases h : x = .nan
  · subst h; decide +kernel
  · exact readF64_showF64 x h

/-! ## Attributes of views -/

/-- C81: a `f32` attribute of a view is read back from its text exactly if it is neither infinite nor NaN. (`serde_json` reads numbers
with an error, but the error is too small to matter.) -/
theorem c81_f32_round_trip (x : Value f32) :
    @decF32 ieeeFloats.toFloats (@encF32 ieeeFloats.toFloats x) = some x ↔ ∃ neg k, x = .fin neg k := by
  match x with
  | .nan => exact ⟨fun h => absurd (show (none : Option (Value f32)) = some _ from h) (by simp), fun ⟨_, _, h⟩ => absurd h (by simp)⟩
  | .inf _ => exact ⟨fun h => absurd (show (none : Option (Value f32)) = some _ from h) (by simp), fun ⟨_, _, h⟩ => absurd h (by simp)⟩
  | .fin neg k => exact ⟨fun _ => ⟨neg, k, rfl⟩, fun _ => readF32_printF32 neg k⟩

/-- The `f32` value written so in JSON. -/
def c81_f32 (tok : Str) : Value f32 := (readF32 tok).getD .nan

section
local instance c81Floats : FloatLaws := ieeeFloats

/-- C81: with IEEE 754 attributes a view is read back from its line exactly if its attributes are finite and no size is fixed at -1
or -2. -/
theorem c81_view (v : AndroidView) : AndroidView.parse v.reconstruct = some v ↔
    ((∃ n k, v.alpha = .fin n k) ∧ (∃ n k, v.scaleX = .fin n k) ∧ (∃ n k, v.scaleY = .fin n k) ∧
      (∃ n k, v.translationX = .fin n k) ∧ ∃ n k, v.translationY = .fin n k) ∧
    v.layout.width ≠ .fixed (-1) ∧ v.layout.width ≠ .fixed (-2) ∧ v.layout.height ≠ .fixed (-1) ∧ v.layout.height ≠ .fixed (-2) := by
  have key : ∀ x : Value f32, Floats.finite x = true ↔ ∃ n k, x = .fin n k := by
    intro x
    match x with
    | .nan => exact ⟨fun h => absurd h (by decide), fun ⟨_, _, h⟩ => absurd h (by simp)⟩
    | .inf _ => exact ⟨fun h => absurd (show false = true from h) (by decide), fun ⟨_, _, h⟩ => absurd h (by simp)⟩
    | .fin neg k => exact ⟨fun _ => ⟨neg, k, rfl⟩, fun _ => rfl⟩
  rw [(c21_view_round_trip_partial v).1, AndroidView.Finite, key, key, key, key, key]

end

/-! ## Colours -/

theorem c81_whole (n : Nat) : (n ≤ 2 ^ 53 → r64 n 1 / 2 ^ 1074 = n) ∧ (2 ^ 53 < n → 2 ^ 52 ≤ r64 n 1 / 2 ^ 1074) := by
  have hM : 2 ^ 250 ≤ 2 ^ 1074 := Nat.pow_le_pow_right (by decide) (by decide)
  constructor
  · intro h
    have := roundTo_exact (p := 53) (k := n * 2 ^ 1074) (d := 1) Nat.one_pos (rep_of_dvd (by decide) h)
    rw [Nat.mul_one] at this
    rw [r64, this]
    exact Nat.mul_div_cancel _ (Nat.two_pow_pos 1074)
  · intro h
    rw [r64]
    generalize 2 ^ 1074 = M at *
    have hM0 : 0 < M := Nat.lt_of_lt_of_le (Nat.two_pow_pos 250) hM
    rw [Nat.le_div_iff_mul_le hM0]
    have e := (roundTo_err (p := 53) (n := n * M) (d := 1) (by decide) (by decide) (by
      rw [Nat.mul_one]
      calc 2 ^ (53 - 1) ≤ n := by omega
        _ = n * 1 := by omega
        _ ≤ n * M := Nat.mul_le_mul_left _ hM0)).2
    have hn : (2 : ℚ) ^ 53 ≤ n := by exact_mod_cast h.le
    have hM' : (0 : ℚ) < M := by exact_mod_cast hM0
    have : (2 : ℚ) ^ 53 * M ≤ n * M := mul_le_mul_of_nonneg_right hn hM'.le
    rw [Nat.cast_mul, Nat.cast_one, div_one] at e
    have e2 : (n : ℚ) * M / 2 ^ 53 ≤ n * M / 2 := div_le_div_of_nonneg_left (by positivity) (by norm_num) (by norm_num)
    have : (2 : ℚ) ^ 52 * M ≤ roundTo 53 (n * M) 1 := by linarith
    exact_mod_cast this

/-- C81: converting a whole number to `f64` and then to `i32`, as the colour reader does, keeps it if it is in the range of `i32`, and
otherwise gives the nearer end of the range. -/
theorem c81_color_whole (n : Int) :
    toI32 (decide (n < 0)) (r64 n.natAbs 1) = Int32.ofInt (max (-2147483648) (min n 2147483647)) := by
  have ⟨w1, w2⟩ := c81_whole n.natAbs
  unfold toI32
  simp only
  congr 1
  have key : r64 n.natAbs 1 / 2 ^ 1074 = n.natAbs ∨
      (2 ^ 52 ≤ r64 n.natAbs 1 / 2 ^ 1074 ∧ 2 ^ 53 < n.natAbs) := by
    by_cases h : n.natAbs ≤ 2 ^ 53
    · exact .inl (w1 h)
    · exact .inr ⟨w2 (by omega), by omega⟩
  generalize r64 n.natAbs 1 / 2 ^ 1074 = m at key
  by_cases hn : n < 0
  · simp only [hn, decide_true, if_true]; omega
  · simp only [hn, decide_false]; simp only [Bool.false_eq_true, if_false]; omega

/-! ## Examples -/

example : c81_Decimal (s% "-12.5e-1") true (5 / 4) :=
  ⟨s% "-", s% "12", s% ".", s% "5", s% "e-1", -1, rfl, .inr ⟨rfl, rfl⟩, by decide, by decide, by decide, .inl rfl,
    .inr ⟨'e', s% "-", s% "1", rfl, .inl rfl, by decide, by decide, .inr ⟨rfl, by rw [← c81_digitsNat]; decide +kernel⟩⟩,
    by rw [← c81_digitsNat]; decide +kernel⟩

-- 0.1 + 0.2 and 0.3 have different texts; 2^53 + 1 is between two values; halves of the smallest value go to the even one
example : (readF64 (s% "0.30000000000000004")).map showF64 = some (s% "0.30000000000000004") ∧
    readF64 (s% "0.30000000000000004") ≠ readF64 (s% "0.3") ∧
    (readF64 (s% "9007199254740993")).map showF64 = some (s% "9007199254740992") ∧
    (readF64 (s% "1e3")).map showF64 = some (s% "1000") ∧ (readF64 (s% "-0")).map showF64 = some (s% "-0") ∧
    (readF64 (s% "1e400")).map showF64 = some (s% "inf") ∧ (readF64 (s% "+iNf")).map showF64 = some (s% "inf") ∧
    readF64 (s% "1e") = none ∧ readF64 (s% ".") = none := by decide +kernel

-- texts of `f32` attributes; the second is read back only because `serde_json` does not take the nearest `f64`
example : printF32 (c81_f32 (s% "0.1")) = s% "0.1" ∧ printF32 (c81_f32 (s% "7.038531e-26")) = s% "7.038531e-26" ∧
    printF32 (c81_f32 (s% "1")) = s% "1.0" ∧ printF32 (c81_f32 (s% "16777217")) = s% "16777216.0" ∧
    printF32 (c81_f32 (s% "1e21")) = s% "1e21" ∧ printF32 (c81_f32 (s% "3.4028235e38")) = s% "3.4028235e38" ∧
    printF32 (c81_f32 (s% "1e-45")) = s% "1e-45" ∧ readF32 (s% "3.5e38") = some (.inf false) ∧ readF32 (s% "1e400") = none := by
  decide +kernel

-- colours given as numbers with a fraction are cut off
example : (@Color.dec ieeeFloats.toFloats (.num (s% "-1.9"))) = some ⟨0xffffffff⟩ ∧
    (@Color.dec ieeeFloats.toFloats (.num (s% "1e3"))) = some ⟨1000⟩ ∧
    (@Color.dec ieeeFloats.toFloats (.num (s% "1e300"))) = some ⟨0x7fffffff⟩ := by decide +kernel

end Swrs
