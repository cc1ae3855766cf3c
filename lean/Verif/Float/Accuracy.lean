import Verif.Float.Layout
/-!
# How exact the numbers of `serde_json` are
-/
namespace Swrs.Ieee

/-- The largest number in 64 bits. -/
abbrev u64max : Nat := 18446744073709551615

theorem foldl_digits (s : Str) (a : Nat) : s.foldl (fun a c => a * 10 + (c.toNat - 48)) a = a * 10 ^ s.length + digitsNat s := by
  induction s generalizing a with
  | nil => simp [digitsNat]
  | cons c cs ih =>
    rw [List.foldl_cons, ih]
    have : digitsNat (c :: cs) = (c.toNat - 48) * 10 ^ cs.length + digitsNat cs := by
      show cs.foldl _ (0 * 10 + (c.toNat - 48)) = _
      rw [ih, Nat.zero_mul, Nat.zero_add]
    rw [this, List.length_cons, Nat.pow_succ]; ring

theorem digitsNat_append2 (s t : Str) : digitsNat (s ++ t) = digitsNat s * 10 ^ t.length + digitsNat t := by
  rw [digitsNat_append', foldl_digits]

theorem isDigit_val {c : Char} (h : isDigit c = true) : c.toNat - 48 ≤ 9 := by
  simp only [isDigit, Bool.and_eq_true, decide_eq_true_eq] at h
  have : c.toNat ≤ 57 := h.2
  omega

theorem digitsNat_lt {s : Str} (h : ∀ c ∈ s, isDigit c = true) : digitsNat s < 10 ^ s.length := by
  induction s with
  | nil => simp [digitsNat]
  | cons c cs ih =>
    have h1 := isDigit_val (h c (by simp))
    have h2 := ih fun x hx => h x (by simp [hx])
    have : digitsNat (c :: cs) = (c.toNat - 48) * 10 ^ cs.length + digitsNat cs := by
      show cs.foldl _ (0 * 10 + (c.toNat - 48)) = _
      rw [foldl_digits, Nat.zero_mul, Nat.zero_add]
    rw [this, List.length_cons, Nat.pow_succ]
    have : (c.toNat - 48) * 10 ^ cs.length ≤ 9 * 10 ^ cs.length := Nat.mul_le_mul_right _ h1
    omega

/-- The digits that are taken. -/
theorem pushDigits_spec {ds : Str} (hds : ∀ c ∈ ds, isDigit c = true) {a : Nat} (ha : a ≤ u64max) :
    ∃ pre post, ds = pre ++ post ∧ pushDigits a ds = (a * 10 ^ pre.length + digitsNat pre, post.length) ∧
      a * 10 ^ pre.length + digitsNat pre ≤ u64max ∧ (post = [] ∨ (1844674407370955160 < a * 10 ^ pre.length + digitsNat pre ∧ u64max < a * 10 ^ ds.length + digitsNat ds)) := by
  induction ds generalizing a with
  | nil => exact ⟨[], [], rfl, by simp [pushDigits, digitsNat], by simpa [digitsNat] using ha, .inl rfl⟩
  | cons c cs ih =>
    have h1 := isDigit_val (hds c (by simp))
    rw [pushDigits]
    split
    · next h =>
      refine ⟨[], c :: cs, rfl, by simp [digitsNat], by simpa [digitsNat] using ha, .inr ⟨?_, ?_⟩⟩
      · simp only [List.length_nil, Nat.pow_zero, Nat.mul_one, digitsNat, List.foldl_nil, Nat.add_zero]
        omega
      · rw [← foldl_digits]
        exact Nat.lt_of_lt_of_le h (le_foldl cs _)
    · next h =>
      obtain ⟨pre, post, rfl, e, hle, hp⟩ := ih (fun x hx => hds x (by simp [hx])) (Nat.le_of_not_lt h)
      have e2 : (a * 10 + (c.toNat - 48)) * 10 ^ pre.length + digitsNat pre = a * 10 ^ (c :: pre).length + digitsNat (c :: pre) := by
        have : digitsNat (c :: pre) = (c.toNat - 48) * 10 ^ pre.length + digitsNat pre := by
          show pre.foldl _ (0 * 10 + (c.toNat - 48)) = _
          rw [foldl_digits, Nat.zero_mul, Nat.zero_add]
        rw [this, List.length_cons, Nat.pow_succ]; ring
      rw [e2] at e hle hp
      refine ⟨c :: pre, post, rfl, e, hle, hp.imp_right fun h => ⟨h.1, ?_⟩⟩
      rw [← foldl_digits, List.foldl_cons, foldl_digits]
      exact h.2

/-- The exponent of `f64_from_parts` with the exponent that is written. -/
def applyExp (neg : Bool) (sig : Nat) (ex : ℤ) : Option ℤ → Option Number
  | none => (fromParts ((-ex).toNat / 308 + 1) (r64 sig 1) ex).map (.f64 neg)
  | some e =>
    if 2147483647 < e.natAbs then
      if sig ≠ 0 ∧ 0 < e then none else some (.f64 neg 0)
    else (fromParts ((-(ex + e)).toNat / 308 + 1) (r64 sig 1) (ex + e)).map (.f64 neg)

/-- What `serde_json` makes of a number: whole numbers of 64 bits, or a significand of 64 bits and an exponent, which differ from the number
in the digits that do not fit. -/
theorem readNumber_spec {tok : Str} (hn : Json.isNumTok tok = true) {neg : Bool} {r int frac : Str} {x : Option ℤ} (hs : signSplit tok = (neg, r))
    (hr : readDecimal r = some ⟨int, frac, x⟩) (hi : ∀ c ∈ int, isDigit c = true) (hf : ∀ c ∈ frac, isDigit c = true) :
    (frac = [] ∧ x = none ∧ digitsNat int ≤ u64max ∧ readNumber tok =
      if neg = false then some (.u64 (digitsNat int))
      else if digitsNat int = 0 ∨ 9223372036854775808 < digitsNat int then some (.f64 true (r64 (digitsNat int) 1))
      else some (.i64 (-(digitsNat int : ℤ)))) ∨
    ∃ (sig : Nat) (ex : ℤ), sig ≤ u64max ∧ readNumber tok = applyExp neg sig ex x ∧
      |(sig : ℚ) * 10 ^ ex - digitsNat (int ++ frac) * 10 ^ (-(frac.length : ℤ))| ≤
        digitsNat (int ++ frac) * 10 ^ (-(frac.length : ℤ)) / 2 ^ 60 ∧
      (sig = 0 → digitsNat (int ++ frac) = 0) ∧ -(frac.length : ℤ) ≤ ex ∧ ex ≤ int.length ∧
      (digitsNat (int ++ frac) ≤ u64max → sig = digitsNat (int ++ frac) ∧ ex = -(frac.length : ℤ)) := by
  obtain ⟨pre1, post1, e1, p1, u1, o1⟩ := pushDigits_spec hi (a := 0) (Nat.zero_le _)
  rw [Nat.zero_mul, Nat.zero_add] at p1 u1 o1
  obtain ⟨pre2, post2, e2, p2, u2, o2⟩ := pushDigits_spec hf u1
  have hread : readNumber tok =
      if frac = [] ∧ x = none ∧ post1.length = 0 then
        if neg = false then some (.u64 (digitsNat pre1))
        else if digitsNat pre1 = 0 ∨ 9223372036854775808 < digitsNat pre1 then some (.f64 true (r64 (digitsNat pre1) 1))
        else some (.i64 (-(digitsNat pre1 : ℤ)))
      else applyExp neg (digitsNat pre1 * 10 ^ pre2.length + digitsNat pre2) ((post1.length : ℤ) - (frac.length - post2.length : Nat)) x := by
    unfold readNumber
    rw [hs]
    simp only [hn, if_true, hr, Option.bind_some, p1, p2]
    split
    · rfl
    · cases x <;> rfl
  by_cases hw : frac = [] ∧ x = none ∧ post1.length = 0
  · left
    have hp1 : post1 = [] := List.length_eq_zero_iff.mp hw.2.2
    subst hp1
    rw [List.append_nil] at e1
    rw [if_pos hw] at hread
    rw [e1]
    exact ⟨hw.1, hw.2.1, u1, hread⟩
  · right
    rw [if_neg hw] at hread
    have hfl : frac.length - post2.length = pre2.length := by rw [e2]; simp
    rw [hfl] at hread
    have d1 := digitsNat_lt (s := post1) (fun c hc => hi c (by rw [e1]; simp [hc]))
    have d2 := digitsNat_lt (s := pre2) (fun c hc => hf c (by rw [e2]; simp [hc]))
    have d3 := digitsNat_lt (s := post2) (fun c hc => hf c (by rw [e2]; simp [hc]))
    have d4 := digitsNat_lt hf
    refine ⟨_, _, u2, hread, ?_, ?_, ?_, ?_, ?_⟩
    · -- the error
      by_cases hp1 : post1 = []
      · subst hp1
        rw [List.append_nil] at e1
        have hI : digitsNat (int ++ frac) = (digitsNat pre1 * 10 ^ pre2.length + digitsNat pre2) * 10 ^ post2.length + digitsNat post2 := by
          rw [digitsNat_append2, e2, digitsNat_append2, e1, List.length_append, Nat.pow_add]; ring
        have hfr : (frac.length : ℤ) = pre2.length + post2.length := by rw [e2]; simp
        rw [hI, hfr]
        generalize digitsNat pre1 * 10 ^ pre2.length + digitsNat pre2 = s at *
        have ez : (10 : ℚ) ^ (-((pre2.length : ℤ) + post2.length)) = 10 ^ (-(pre2.length : ℤ)) / 10 ^ post2.length := by
          rw [neg_add, zpow_add₀ (by norm_num), zpow_neg _ (post2.length : ℤ), zpow_natCast]; rfl
        have e0 : ((([] : Str).length : ℤ) - (pre2.length : Nat)) = -(pre2.length : ℤ) := by simp
        rw [e0, ez]
        have hT : (0 : ℚ) < 10 ^ (-(pre2.length : ℤ)) := by positivity
        generalize (10 : ℚ) ^ (-(pre2.length : ℤ)) = T at *
        rcases o2 with rfl | o2
        · simp [digitsNat]; positivity
        · have hP : (0 : ℚ) < 10 ^ post2.length := by positivity
          have d3' : (digitsNat post2 : ℚ) ≤ 10 ^ post2.length := by exact_mod_cast d3.le
          push_cast
          generalize (10 : ℚ) ^ post2.length = P at *
          have hs' : (1844674407370955160 : ℚ) ≤ s := by exact_mod_cast o2.1.le
          have hD : (0 : ℚ) ≤ digitsNat post2 := by positivity
          have ev : ((s : ℚ) * P + digitsNat post2) * (T / P) = s * T + digitsNat post2 / P * T := by field_simp
          rw [ev]
          have hq0 : 0 ≤ (digitsNat post2 : ℚ) / P := by positivity
          have hq1 : (digitsNat post2 : ℚ) / P ≤ 1 := by rw [div_le_one hP]; exact d3'
          generalize (digitsNat post2 : ℚ) / P = y at *
          have h1 : 0 ≤ y * T := by positivity
          have h2 : y * T ≤ T := by
            have := mul_le_mul_of_nonneg_right hq1 hT.le
            rwa [one_mul] at this
          have h3 : 1844674407370955160 * T ≤ s * T := mul_le_mul_of_nonneg_right hs' hT.le
          rw [show (s : ℚ) * T - (s * T + y * T) = -(y * T) by ring, abs_neg, abs_of_nonneg h1]
          linarith
      · have o1 := o1.resolve_left hp1
        have hI : digitsNat (int ++ frac) = (digitsNat pre1 * 10 ^ post1.length + digitsNat post1) * 10 ^ frac.length + digitsNat frac := by
          rw [digitsNat_append2, e1, digitsNat_append2]
        rw [hI]
        have hs' : (1844674407370955160 : ℚ) ≤ digitsNat pre1 := by exact_mod_cast o1.1.le
        have hF : (0 : ℚ) < 10 ^ frac.length := by positivity
        have hQ : (0 : ℚ) < 10 ^ pre2.length := by positivity
        have hP : (0 : ℚ) < 10 ^ post1.length := by positivity
        have d1' : (digitsNat post1 : ℚ) + 1 ≤ 10 ^ post1.length := by exact_mod_cast d1
        have d2' : (digitsNat pre2 : ℚ) ≤ 10 ^ pre2.length := by exact_mod_cast d2.le
        have d4' : (digitsNat frac : ℚ) ≤ 10 ^ frac.length := by exact_mod_cast d4.le
        have ea : (10 : ℚ) ^ (-(frac.length : ℤ)) = 1 / 10 ^ frac.length := by rw [zpow_neg, zpow_natCast, one_div]
        have eb : (10 : ℚ) ^ ((post1.length : ℤ) - (pre2.length : Nat)) = 10 ^ post1.length / 10 ^ pre2.length := by
          rw [zpow_sub₀ (by norm_num), zpow_natCast, zpow_natCast]
        rw [ea, eb]
        push_cast
        have n1 : (0 : ℚ) ≤ digitsNat post1 := by positivity
        have n2 : (0 : ℚ) ≤ digitsNat pre2 := by positivity
        have n4 : (0 : ℚ) ≤ digitsNat frac := by positivity
        generalize (digitsNat post1 : ℚ) = D1 at *
        generalize (digitsNat pre2 : ℚ) = D2 at *
        generalize (digitsNat frac : ℚ) = D4 at *
        generalize (digitsNat pre1 : ℚ) = s at *
        generalize (10 : ℚ) ^ frac.length = F at *
        generalize (10 : ℚ) ^ pre2.length = Q at *
        generalize (10 : ℚ) ^ post1.length = P at *
        have ev : ((s * P + D1) * F + D4) * (1 / F) = s * P + D1 + D4 / F := by field_simp
        have eu : (s * Q + D2) * (P / Q) = s * P + D2 / Q * P := by field_simp
        rw [ev, eu]
        have y1 : 0 ≤ D4 / F := by positivity
        have y2 : D4 / F ≤ 1 := by rw [div_le_one hF]; exact d4'
        have y3 : 0 ≤ D2 / Q * P := by positivity
        have y4 : D2 / Q * P ≤ P := by
          have : D2 / Q ≤ 1 := by rw [div_le_one hQ]; exact d2'
          have := mul_le_mul_of_nonneg_right this hP.le
          rwa [one_mul] at this
        have h3 : 1844674407370955160 * P ≤ s * P := mul_le_mul_of_nonneg_right hs' hP.le
        rw [abs_le]
        constructor <;> linarith
    · intro h0
      have hz1 : digitsNat pre1 = 0 := by
        have : digitsNat pre1 * 10 ^ pre2.length = 0 := by omega
        rcases Nat.mul_eq_zero.mp this with h | h
        · exact h
        · exact absurd h (Nat.pow_pos (by decide)).ne'
      have hz2 : digitsNat pre2 = 0 := by omega
      have hp1 : post1 = [] := o1.resolve_right (by omega)
      have hp2 : post2 = [] := o2.resolve_right (by omega)
      subst hp1 hp2
      rw [List.append_nil] at e1 e2
      rw [e1, e2, digitsNat_append2, hz1, hz2]; simp
    · have : (frac.length : ℤ) = pre2.length + post2.length := by rw [e2]; simp
      omega
    · have : (int.length : ℤ) = pre1.length + post1.length := by rw [e1]; simp
      omega
    · intro hle
      rw [digitsNat_append2] at hle ⊢
      have h10 : 0 < 10 ^ frac.length := Nat.pow_pos (by decide)
      have hi' : digitsNat int ≤ digitsNat int * 10 ^ frac.length := Nat.le_mul_of_pos_right _ h10
      have hp1 : post1 = [] := o1.resolve_right fun h => by
        have := h.2
        omega
      subst hp1
      rw [List.append_nil] at e1
      subst e1
      have hp2 : post2 = [] := o2.resolve_right fun h => by
        have := h.2
        omega
      subst hp2
      rw [List.append_nil] at e2
      subst e2
      exact ⟨rfl, by simp⟩

/-- The significand as `f64`. -/
theorem r64_sig {q : Nat} (h1 : 1 ≤ q) (h2 : q ≤ u64max) :
    ∃ q' : Nat, r64 q 1 = q' * 2 ^ 1074 ∧ 1 ≤ q' ∧ q' ≤ 2 ^ 64 ∧ |(q' : ℚ) - q| ≤ q / 2 ^ 53 := by
  by_cases h : q ≤ 2 ^ 53
  · refine ⟨q, ?_, h1, Nat.le_trans h (by decide), ?_⟩
    · have := roundTo_exact (p := 53) (k := q * 2 ^ 1074) (d := 1) Nat.one_pos (rep_of_dvd (by decide) h)
      rwa [Nat.mul_one] at this
    · rw [sub_self, abs_zero]; positivity
  · have hs : 1074 ≤ shift 53 (q * 2 ^ 1074 / 1) := by
      rw [Nat.div_one]
      have h0 : q * 2 ^ 1074 ≠ 0 := Nat.mul_ne_zero (by omega) (Nat.two_pow_pos 1074).ne'
      have : 53 + 1074 ≤ (q * 2 ^ 1074).log2 := by
        rw [Nat.le_log2 h0, Nat.pow_add]
        exact Nat.mul_le_mul_right _ (by omega)
      unfold shift; omega
    have hM : (2 : Nat) ^ 250 ≤ 2 ^ 1074 := Nat.pow_le_pow_right (by decide) (by decide)
    have hex : ∃ q', r64 q 1 = q' * 2 ^ 1074 := by
      unfold r64 roundTo
      obtain ⟨j, hj⟩ := Nat.exists_eq_add_of_le hs
      rw [hj, Nat.add_comm, Nat.pow_add, ← Nat.mul_assoc]
      exact ⟨_, rfl⟩
    obtain ⟨q', hq'⟩ := hex
    refine ⟨q', hq', ?_⟩
    have hrep : ∀ a b, Rep 53 (2 ^ a * 2 ^ b) := fun a b => by
      have := rep_of_dvd (p := 53) (m := 1) (s := a + b) (by decide) (by decide)
      rwa [Nat.one_mul, Nat.pow_add] at this
    have hrep := hrep 64 1074
    unfold r64 at hq'
    generalize (2 : Nat) ^ 1074 = M at *
    have hM0 : 0 < M := Nat.lt_of_lt_of_le (Nat.two_pow_pos 250) hM
    have hM' : (0 : ℚ) < M := by exact_mod_cast hM0
    have e := roundTo_err (p := 53) (n := q * M) (d := 1) (by decide) (by decide) (by
      rw [Nat.mul_one]
      calc 2 ^ (53 - 1) ≤ q := by omega
        _ = q * 1 := by omega
        _ ≤ q * M := Nat.mul_le_mul_left _ hM0)
    rw [hq', Nat.cast_mul, Nat.cast_mul, Nat.cast_one, div_one, ← sub_mul, ← sub_mul, mul_div_right_comm] at e
    have e1 := le_of_mul_le_mul_right e.1 hM'
    have e2 := le_of_mul_le_mul_right e.2 hM'
    have hq1 : (2 : ℚ) ^ 53 < q := by exact_mod_cast Nat.lt_of_not_le h
    have hq2 : (q : ℚ) ≤ 2 ^ 64 - 1 := by
      have : (q : ℚ) ≤ ((u64max : Nat) : ℚ) := by exact_mod_cast h2
      exact le_trans this (by norm_num)
    refine ⟨?_, ?_, abs_le.mpr ⟨by linarith, e1⟩⟩
    · have : (0 : ℚ) < q' := by
        have : (q : ℚ) / 2 ^ 53 ≤ q / 2 := div_le_div_of_nonneg_left (by linarith) (by norm_num) (by norm_num)
        linarith
      exact_mod_cast this
    · by_contra hc
      -- otherwise the nearest value would be `2^64`
      have hn := roundTo_nearest (p := 53) (n := q * M) (d := 1) (by decide) (by decide) hrep
      rw [hq', Nat.cast_mul, Nat.cast_mul, Nat.cast_mul, Nat.cast_one, div_one, ← sub_mul, ← sub_mul, abs_mul, abs_mul] at hn
      have hn := le_of_mul_le_mul_right hn (abs_pos.mpr hM'.ne')
      have hc' : (2 : ℚ) ^ 64 < q' := by exact_mod_cast Nat.lt_of_not_le hc
      push_cast at hn
      rw [abs_of_pos (by linarith), abs_of_pos (by linarith)] at hn
      linarith

/-- Divisions by powers of ten are never an error. -/
theorem fromParts_neg {fuel : Nat} {f : Nat} {ex : ℤ} (h : ex < 0) (hf : (-ex).toNat ≤ 308 * (fuel + 1)) : ∃ g, fromParts fuel f ex = some g := by
  induction fuel generalizing f ex with
  | zero =>
    unfold fromParts
    rw [if_pos (by omega), if_neg (by omega)]
    exact ⟨_, rfl⟩
  | succ fuel ih =>
    unfold fromParts
    by_cases hab : ex.natAbs ≤ 308
    · rw [if_pos hab, if_neg (by omega)]; exact ⟨_, rfl⟩
    · rw [if_neg hab]
      split
      · exact ⟨_, rfl⟩
      · rw [if_neg (by omega)]
        exact ih (by omega) (by omega)

/-- Zero. -/
theorem fromParts_zero (fuel : Nat) (ex : ℤ) : fromParts fuel 0 ex = some 0 := by
  have hz : ∀ d, 0 < d → roundTo 53 0 d = 0 := fun d hd => by
    have := roundTo_exact (p := 53) (k := 0) hd ⟨0, by simp⟩
    rwa [Nat.zero_mul] at this
  unfold fromParts
  split
  · split
    · simp only [r64, Nat.zero_mul]
      rw [hz _ (Nat.two_pow_pos _), if_pos (show 0 < f64.top from Nat.two_pow_pos _)]
    · simp only [r64, Nat.zero_mul]
      rw [hz]
      have := rep_roundTo (p := 53) (n := 10 ^ ex.natAbs * 2 ^ 1074) (d := 1) (by decide) (by decide)
      have hM : (2 : Nat) ^ 250 ≤ 2 ^ 1074 := Nat.pow_le_pow_right (by decide) (by decide)
      unfold pow10 r64
      generalize (2 : Nat) ^ 1074 = M at *
      have := (pow_err M ex.natAbs hM).2
      have hA : (0 : ℚ) < 10 ^ ex.natAbs * M := by
        have : 0 < M := Nat.lt_of_lt_of_le (Nat.two_pow_pos 250) hM
        have : (0 : ℚ) < M := by exact_mod_cast this
        positivity
      have hlt : (10 : ℚ) ^ ex.natAbs * M / 2 ^ 53 < 10 ^ ex.natAbs * M := div_lt_self hA (by norm_num)
      have : (0 : ℚ) < roundTo 53 (10 ^ ex.natAbs * M) 1 := by linarith
      exact_mod_cast this
  · rfl

/-- Large numbers: multiplications. -/
theorem fromParts_large (fuel q : Nat) (e : ℤ) (hq : 1 ≤ q) (h1 : 0 ≤ e) (h2 : e ≤ 308) :
    ∃ g : Nat, fromParts fuel (q * 2 ^ 1074) e = (if g < 2 ^ 1024 * 2 ^ 1074 then some g else none) ∧
      |(g : ℚ) / (2 ^ 1074 : Nat) - q * 10 ^ e| ≤ q * 10 ^ e / 2 ^ 51 := by
  have hab : e.natAbs ≤ 308 := by omega
  have hMM : (2 : Nat) ^ 2148 = 2 ^ 1074 * 2 ^ 1074 := by rw [← Nat.pow_add]
  have hM : (2 : Nat) ^ 250 ≤ 2 ^ 1074 := Nat.pow_le_pow_right (by decide) (by decide)
  have htop : f64.top = 2 ^ 1024 * 2 ^ 1074 := by show 2 ^ (1024 + 1074) = _; rw [Nat.pow_add]
  unfold fromParts
  rw [if_pos hab, if_pos h1]
  simp only [pow10, r64, hMM, htop]
  generalize (2 : Nat) ^ 1074 = M at *
  have ee : (10 : ℚ) ^ e = 10 ^ e.natAbs := by
    rw [← zpow_natCast, Int.natAbs_of_nonneg h1]
  rw [ee]
  have := mul_err M q e.natAbs hM hq
  exact ⟨_, rfl, abs_le.mpr ⟨by linarith [this.2], this.1⟩⟩

/-! ### Accuracy -/

section
variable {tok : Str} {neg : Bool} {r int frac : Str} {x : Option ℤ} {v : ℚ}

/-- What there is to a number in JSON. -/
structure IsNum (tok : Str) (neg : Bool) (int frac : Str) (x : Option ℤ) (v : ℚ) : Prop where
  isTok : Json.isNumTok tok = true
  read : readDecimal (signSplit tok).2 = some ⟨int, frac, x⟩
  sign : (signSplit tok).1 = neg
  intDigits : ∀ c ∈ int, isDigit c = true
  fracDigits : ∀ c ∈ frac, isDigit c = true
  len : int.length + frac.length ≤ 2147480000
  val : v = digitsNat (int ++ frac) * 10 ^ (x.getD 0 - frac.length)

/-- Whole numbers of 64 bits. -/
theorem IsNum.whole (h : IsNum tok neg int [] none v) (hd : digitsNat int ≤ u64max) :
    readNumber tok = if neg = false then some (.u64 (digitsNat int))
      else if digitsNat int = 0 ∨ 9223372036854775808 < digitsNat int then some (.f64 true (r64 (digitsNat int) 1))
      else some (.i64 (-(digitsNat int : ℤ))) := by
  obtain ⟨ht, hr, hs, hi, _, _, _⟩ := h
  obtain ⟨pre, post, e, p, u, o⟩ := pushDigits_spec hi (a := 0) (Nat.zero_le _)
  rw [Nat.zero_mul, Nat.zero_add] at p u o
  have hp : post = [] := o.resolve_right fun h => by
    have := h.2
    rw [Nat.zero_mul, Nat.zero_add] at this
    omega
  subst hp
  rw [List.append_nil] at e
  subst e
  unfold readNumber
  rw [show signSplit tok = (neg, (signSplit tok).2) by rw [← hs]]
  simp only [ht, if_true, hr, Option.bind_some, p, List.length_nil, and_self]

/-- The significand and the exponent that `serde_json` works with. -/
theorem IsNum.cases (h : IsNum tok neg int frac x v) :
    (∃ n : Nat, v = n ∧ n ≤ u64max ∧ (readNumber tok =
      if neg = false then some (.u64 n)
      else if n = 0 ∨ 9223372036854775808 < n then some (.f64 true (r64 n 1)) else some (.i64 (-(n : ℤ)))) ∧
      n = digitsNat (int ++ frac)) ∨
    (v = 0 ∧ readNumber tok = some (.f64 neg 0)) ∨
    (10 ^ 1000 ≤ v ∧ readNumber tok = none) ∨ (0 < v ∧ v * 10 ^ 1000 ≤ 1 ∧ readNumber tok = some (.f64 neg 0)) ∨
    ∃ (sig : Nat) (E : ℤ), 1 ≤ sig ∧ sig ≤ u64max ∧
      readNumber tok = (fromParts ((-E).toNat / 308 + 1) (r64 sig 1) E).map (.f64 neg) ∧
      |(sig : ℚ) * 10 ^ E - v| ≤ v / 2 ^ 60 ∧
      (digitsNat (int ++ frac) ≤ u64max → sig = digitsNat (int ++ frac) ∧ E = x.getD 0 - frac.length) := by
  obtain ⟨ht, hr, hs, hi, hf, hl, hv⟩ := h
  rcases readNumber_spec ht (show signSplit tok = (neg, (signSplit tok).2) by rw [← hs]) hr hi hf with
    ⟨rfl, rfl, hle, hrd⟩ | ⟨sig, ex, hsig, hrd, herr, hz, hex1, hex2, hexact⟩
  · exact .inl ⟨digitsNat int, by rw [hv]; simp, hle, hrd, by simp⟩
  · right
    have hT : (0 : ℚ) < 10 ^ (x.getD 0) := by positivity
    have hvv : v = digitsNat (int ++ frac) * 10 ^ (-(frac.length : ℤ)) * 10 ^ (x.getD 0) := by
      rw [hv, sub_eq_add_neg, zpow_add₀ (by norm_num)]; ring
    have herr' : |(sig : ℚ) * 10 ^ (ex + x.getD 0) - v| ≤ v / 2 ^ 60 := by
      have := mul_le_mul_of_nonneg_right herr hT.le
      rw [← abs_of_pos hT, ← abs_mul, sub_mul, abs_of_pos hT] at this
      rw [zpow_add₀ (by norm_num), hvv, ← mul_assoc]
      refine le_trans this (le_of_eq ?_)
      ring
    have hdl : digitsNat (int ++ frac) < 10 ^ (int ++ frac).length := digitsNat_lt fun c hc => by
      rcases List.mem_append.mp hc with h | h
      · exact hi c h
      · exact hf c h
    -- zero
    by_cases h0 : sig = 0
    · left
      have hd0 := hz h0
      refine ⟨by rw [hv, hd0]; simp, ?_⟩
      rw [hrd, h0]
      have hr0 : r64 0 1 = 0 := by
        have := roundTo_exact (p := 53) (k := 0) Nat.one_pos ⟨0, by simp⟩
        unfold r64; rwa [Nat.zero_mul] at this ⊢
      cases x with
      | none => simp only [applyExp, hr0, fromParts_zero, Option.map_some]
      | some e =>
        simp only [applyExp, hr0, fromParts_zero, Option.map_some]
        split <;> simp
    · right
      have hd1 : 1 ≤ digitsNat (int ++ frac) := by
        rcases Nat.eq_zero_or_pos (digitsNat (int ++ frac)) with h | h
        · exact absurd (hexact (by omega)).1 (by omega)
        · exact h
      have hd1' : (1 : ℚ) ≤ digitsNat (int ++ frac) := by exact_mod_cast hd1
      cases x with
      | none =>
        refine .inr (.inr ⟨sig, ex, by omega, hsig, hrd, ?_, fun h => ?_⟩)
        · simpa using herr'
        · have := hexact h
          exact ⟨this.1, by rw [this.2]; simp⟩
      | some e =>
        simp only [Option.getD_some] at *
        by_cases hbig : 2147483647 < e.natAbs
        · simp only [applyExp, if_pos hbig] at hrd
          by_cases he : 0 < e
          · left
            rw [if_pos ⟨h0, he⟩] at hrd
            refine ⟨?_, hrd⟩
            rw [hv]
            have h1 : (10 : ℚ) ^ (1000 : ℤ) ≤ 10 ^ (e - frac.length) := zpow_le_zpow_right₀ (by norm_num) (by omega)
            have h2 : (10 : ℚ) ^ (e - frac.length) ≤ digitsNat (int ++ frac) * 10 ^ (e - frac.length) :=
              le_mul_of_one_le_left (by positivity) hd1'
            have h3 : (10 : ℚ) ^ (1000 : ℤ) = 10 ^ 1000 := zpow_natCast 10 1000
            rw [← h3]
            exact le_trans h1 h2
          · right; left
            rw [if_neg (fun h => he h.2)] at hrd
            refine ⟨by rw [hv]; positivity, ?_, hrd⟩
            rw [hv, show (10 : ℚ) ^ 1000 = 10 ^ ((1000 : Nat) : ℤ) from (zpow_natCast 10 1000).symm, mul_assoc, ← zpow_add₀ (by norm_num)]
            have h1 : (digitsNat (int ++ frac) : ℚ) ≤ 10 ^ (((int ++ frac).length : Nat) : ℤ) := by
              rw [zpow_natCast]; exact_mod_cast hdl.le
            have h2 := mul_le_mul_of_nonneg_right h1 (by positivity : (0 : ℚ) ≤ 10 ^ (e - frac.length + ((1000 : Nat) : ℤ)))
            refine le_trans h2 ?_
            rw [← zpow_add₀ (by norm_num)]
            refine zpow_le_one_of_nonpos₀ (by norm_num) ?_
            rw [List.length_append]; push_cast; omega
        · right; right
          simp only [applyExp, if_neg hbig] at hrd
          refine ⟨sig, ex + e, by omega, hsig, hrd, herr', fun h => ?_⟩
          have := hexact h
          exact ⟨this.1, by rw [this.2]; ring⟩

/-- What is read for a number of moderate size, before it is converted. -/
theorem IsNum.number (h : IsNum tok neg int frac x v) (h1 : 1 / 10 ^ 37 ≤ v) (h2 : v ≤ 10 ^ 39) :
    (∃ n : Nat, v = n ∧ ((neg = false ∧ readNumber tok = some (.u64 n)) ∨ (neg = true ∧ readNumber tok = some (.i64 (-(n : ℤ)))))) ∨
    ∃ g : Nat, readNumber tok = some (.f64 neg g) ∧ |(g : ℚ) / (2 ^ 1074 : Nat) - v| ≤ v / 2 ^ 50 := by
  have hv0 : (0 : ℚ) < v := lt_of_lt_of_le (by norm_num) h1
  rcases h.cases with ⟨n, rfl, hn, hr, _⟩ | ⟨h0, _⟩ | ⟨hbig, _⟩ | ⟨_, hsmall, _⟩ | ⟨sig, E, hs1, hs2, hr, herr, _⟩
  · cases neg with
    | false => exact .inl ⟨n, rfl, .inl ⟨rfl, hr⟩⟩
    | true =>
      rw [if_neg (by simp)] at hr
      have hn1 : 1 ≤ n := by exact_mod_cast hv0
      split at hr
      · obtain ⟨q', hq', _, _, he⟩ := r64_sig hn1 hn
        refine .inr ⟨_, hr, ?_⟩
        rw [hq', Nat.cast_mul]
        have hM : ((2 ^ 1074 : Nat) : ℚ) ≠ 0 := by exact_mod_cast (Nat.two_pow_pos 1074).ne'
        rw [mul_div_cancel_right₀ _ hM]
        refine le_trans he (div_le_div_of_nonneg_left hv0.le (by norm_num) (by norm_num))
      · exact .inl ⟨n, rfl, .inr ⟨rfl, hr⟩⟩
  · exact absurd h0 hv0.ne'
  · exfalso
    have : (10 : ℚ) ^ 39 < 10 ^ 1000 := pow_lt_pow_right₀ (by norm_num) (by norm_num)
    exact absurd (le_trans hbig h2) (not_le.mpr this)
  · exfalso
    have h3 : (10 : ℚ) ^ 38 ≤ 10 ^ 1000 := pow_le_pow_right₀ (by norm_num) (by norm_num)
    have h4 : v * 10 ^ 38 ≤ v * 10 ^ 1000 := mul_le_mul_of_nonneg_left h3 hv0.le
    have h5 : v * 10 ^ 38 ≤ 1 := le_trans h4 hsmall
    have h6 : 1 / 10 ^ 37 * (10 : ℚ) ^ 38 ≤ v * 10 ^ 38 := mul_le_mul_of_nonneg_right h1 (by norm_num)
    clear h3 h4 hsmall
    norm_num at h5 h6
    linarith
  · right
    obtain ⟨q', hq', hq1, hq2, he⟩ := r64_sig hs1 hs2
    have hT : (0 : ℚ) < 10 ^ E := by positivity
    have herr2 := abs_le.mp herr
    have hs1' : (1 : ℚ) ≤ sig := by exact_mod_cast hs1
    have hs2' : (sig : ℚ) ≤ 10 ^ 20 := by
      have : (sig : ℚ) ≤ ((u64max : Nat) : ℚ) := by exact_mod_cast hs2
      exact le_trans this (by norm_num)
    have hE1 : E ≤ 55 := by
      by_contra hc
      have a1 : (10 : ℚ) ^ (55 : ℤ) ≤ 10 ^ E := zpow_le_zpow_right₀ (by norm_num) (by omega)
      have a2 : (10 : ℚ) ^ E ≤ sig * 10 ^ E := le_mul_of_one_le_left hT.le hs1'
      have a3 : v / 2 ^ 60 ≤ v := div_le_self hv0.le (by norm_num)
      norm_num at a1
      linarith
    have hE2 : -59 ≤ E := by
      by_contra hc
      have a1 : (10 : ℚ) ^ E ≤ 10 ^ (-59 : ℤ) := zpow_le_zpow_right₀ (by norm_num) (by omega)
      have a2 : (sig : ℚ) * 10 ^ E ≤ 10 ^ 20 * 10 ^ (-59 : ℤ) := mul_le_mul hs2' a1 hT.le (by norm_num)
      have a3 : v / 2 ^ 60 ≤ v / 2 := div_le_div_of_nonneg_left hv0.le (by norm_num) (by norm_num)
      norm_num at a2 h1
      linarith
    rw [hq'] at hr
    obtain ⟨g, hg, e1, e2⟩ := fromParts_err_core ((-E).toNat / 308 + 1) q' E hq1 hq2 hE2 hE1
    rw [hg, Option.map_some] at hr
    refine ⟨g, hr, ?_⟩
    have he' : |(q' : ℚ) * 10 ^ E - sig * 10 ^ E| ≤ sig * 10 ^ E / 2 ^ 53 := by
      rw [← sub_mul, abs_mul, abs_of_pos hT, mul_div_right_comm]
      exact mul_le_mul_of_nonneg_right he hT.le
    have he2 := abs_le.mp he'
    have p0 : 0 ≤ (q' : ℚ) * 10 ^ E := mul_nonneg (Nat.cast_nonneg _) hT.le
    generalize (q' : ℚ) * 10 ^ E = Q at *
    generalize (sig : ℚ) * 10 ^ E = S at *
    generalize (g : ℚ) / (2 ^ 1074 : Nat) = G at *
    rw [abs_le]
    constructor <;> linarith

/-- Conversion to `f32` of what is near a number of moderate size. -/
theorem round_f32_near (neg : Bool) {n d : Nat} (hd : 0 < d) {v : ℚ} (h1 : 1 / 10 ^ 37 ≤ v) (h2 : v ≤ 34 * 10 ^ 37)
    (h : |(n : ℚ) / d - v * 2 ^ 149| ≤ v * 2 ^ 149 / 2 ^ 50) :
    ∃ k, Value.round f32 (by decide) neg n d = .fin neg k ∧ |(k.val : ℚ) - v * 2 ^ 149| ≤ v * 2 ^ 149 * (1 / 2 ^ 24 + 1 / 2 ^ 48) := by
  have hv0 : (0 : ℚ) < v := lt_of_lt_of_le (by norm_num) h1
  have hd' : (0 : ℚ) < d := by exact_mod_cast hd
  have hV : (2 : ℚ) ^ 24 ≤ v * 2 ^ 149 := by
    have := mul_le_mul_of_nonneg_right h1 (by norm_num : (0 : ℚ) ≤ 2 ^ 149)
    exact le_trans (by norm_num) this
  have hV2 : v * 2 ^ 149 ≤ 34 * 10 ^ 37 * 2 ^ 149 := mul_le_mul_of_nonneg_right h2 (by norm_num)
  generalize v * 2 ^ 149 = V at *
  have hh := abs_le.mp h
  have hn : 2 ^ (24 - 1) * d ≤ n := by
    have : (2 : ℚ) ^ 23 ≤ n / d := by linarith
    rw [le_div_iff₀ hd'] at this
    exact_mod_cast this
  have ⟨r1, r2⟩ := roundTo_err (p := 24) (by decide) hd hn
  have htop : roundTo 24 n d < 2 ^ (128 + 149) := by
    rw [Nat.pow_add]
    have : (roundTo 24 n d : ℚ) < 2 ^ 128 * 2 ^ 149 := by
      have : V * (1 + 1 / 2 ^ 20) ≤ 34 * 10 ^ 37 * 2 ^ 149 * (1 + 1 / 2 ^ 20) := mul_le_mul_of_nonneg_right hV2 (by norm_num)
      have : (34 : ℚ) * 10 ^ 37 * 2 ^ 149 * (1 + 1 / 2 ^ 20) < 2 ^ 128 * 2 ^ 149 := by norm_num
      linarith
    exact_mod_cast this
  refine ⟨⟨roundTo 24 n d, rep_roundTo (by decide) hd, htop⟩, ?_, ?_⟩
  · unfold Value.round
    rw [dif_pos ⟨hd, htop⟩]
    rfl
  · rw [abs_le]
    constructor <;> linarith

/-- The `f32` that is read for a number of moderate size. -/
theorem IsNum.f32 (h : IsNum tok neg int frac x v) (h1 : 1 / 10 ^ 37 ≤ v) (h2 : v ≤ 34 * 10 ^ 37) :
    ∃ k, readF32 tok = some (.fin neg k) ∧ |(k.val : ℚ) - v * 2 ^ 149| ≤ v * 2 ^ 149 * (1 / 2 ^ 24 + 1 / 2 ^ 48) := by
  have hv0 : (0 : ℚ) < v := lt_of_lt_of_le (by norm_num) h1
  rcases h.number h1 (le_trans h2 (by norm_num)) with ⟨n, rfl, ⟨rfl, hr⟩ | ⟨rfl, hr⟩⟩ | ⟨g, hr, he⟩
  · obtain ⟨k, hk, hb⟩ := round_f32_near false (n := n * 2 ^ 149) (d := 1) (by decide) h1 h2 (by
      simp only [Nat.cast_mul, Nat.cast_pow, Nat.cast_ofNat, Nat.cast_one, div_one, sub_self, abs_zero]; positivity)
    refine ⟨k, ?_, hb⟩
    unfold readF32
    rw [hr, Option.map_some]
    exact congrArg some hk
  · obtain ⟨k, hk, hb⟩ := round_f32_near true (n := n * 2 ^ 149) (d := 1) (by decide) h1 h2 (by
      simp only [Nat.cast_mul, Nat.cast_pow, Nat.cast_ofNat, Nat.cast_one, div_one, sub_self, abs_zero]; positivity)
    refine ⟨k, ?_, hb⟩
    unfold readF32
    rw [hr, Option.map_some]
    simp only [Int.natAbs_neg, Int.natAbs_natCast]
    exact congrArg some hk
  · have hp : 0 < 2 ^ (1074 - 149) := Nat.two_pow_pos _
    have hM : (2 : Nat) ^ 1074 = 2 ^ (1074 - 149) * 2 ^ 149 := by rw [← Nat.pow_add]
    rw [hM] at he
    obtain ⟨k, hk, hb⟩ := round_f32_near neg (n := g) (d := 2 ^ (1074 - 149)) hp h1 h2 (by
      generalize (2 : Nat) ^ (1074 - 149) = W at *
      have hW : (0 : ℚ) < W := by exact_mod_cast hp
      have eg : (g : ℚ) / W = g / ((W * 2 ^ 149 : Nat) : ℚ) * 2 ^ 149 := by simp only [Nat.cast_mul, Nat.cast_pow, Nat.cast_ofNat]; field_simp
      rw [eg, ← sub_mul, abs_mul, abs_of_pos (by norm_num : (0 : ℚ) < 2 ^ 149), mul_div_right_comm]
      exact mul_le_mul_of_nonneg_right he (by norm_num))
    refine ⟨k, ?_, hb⟩
    unfold readF32
    rw [hr, Option.map_some, ← hk]

theorem pow_bound : (10 : Nat) ^ 308 * 2 < 2 ^ 1025 ∧ (10 : Nat) ^ 308 * 101 < 2 ^ 1024 * 100 ∧ 2 ^ 1024 * 2 < 10 ^ 309 := by decide +kernel

/-- Which numbers are errors. -/
theorem IsNum.range (h : IsNum tok neg int frac x v) :
    (v ≤ 10 ^ 308 → ∃ y, readF32 tok = some y) ∧ (10 ^ 309 ≤ v → readF32 tok = none) := by
  obtain ⟨_, b1, b2⟩ := pow_bound
  have hU : 0 < (2 : Nat) ^ 1074 := Nat.two_pow_pos 1074
  have some_of : ∀ {y}, readNumber tok = some y → ∃ y, readF32 tok = some y := by
    intro y hy; unfold readF32; rw [hy]; exact ⟨_, rfl⟩
  have none_of : readNumber tok = none → readF32 tok = none := by
    intro hy; unfold readF32; rw [hy]; rfl
  have hlt : (10 : ℚ) ^ 308 < 10 ^ 309 := pow_lt_pow_right₀ (by norm_num) (by norm_num)
  have h308 : (0 : ℚ) < 10 ^ 308 := by positivity
  rcases h.cases with ⟨n, rfl, hn, hr, _⟩ | ⟨h0, hr⟩ | ⟨hbig, hr⟩ | ⟨_, hsmall, hr⟩ | ⟨sig, E, hs1, hs2, hr, herr, _⟩
  · constructor
    · intro _
      split at hr
      · exact some_of hr
      · split at hr
        · exact some_of hr
        · exact some_of hr
    · intro hge
      exfalso
      have h1 : (n : ℚ) ≤ 10 ^ 20 := by
        have : (n : ℚ) ≤ ((u64max : Nat) : ℚ) := by exact_mod_cast hn
        exact le_trans this (by norm_num)
      have h2 : (10 : ℚ) ^ 20 < 10 ^ 309 := pow_lt_pow_right₀ (by norm_num) (by norm_num)
      exact absurd (le_trans hge h1) (not_le.mpr h2)
  · refine ⟨fun _ => some_of hr, fun hge => ?_⟩
    rw [h0] at hge
    exact absurd hge (not_le.mpr (by positivity))
  · refine ⟨fun hle => ?_, fun _ => none_of hr⟩
    have h2 : (10 : ℚ) ^ 308 < 10 ^ 1000 := pow_lt_pow_right₀ (by norm_num) (by norm_num)
    exact absurd (le_trans hbig hle) (not_le.mpr h2)
  · refine ⟨fun _ => some_of hr, fun hge => ?_⟩
    exfalso
    have h2 : (1 : ℚ) < 10 ^ 309 := one_lt_pow₀ (by norm_num) (by norm_num)
    have h3 : (1 : ℚ) ≤ 10 ^ 1000 := one_le_pow₀ (by norm_num)
    have h4 : v * 1 ≤ v * 10 ^ 1000 := mul_le_mul_of_nonneg_left h3 (le_trans (by positivity) hge)
    rw [mul_one] at h4
    exact absurd (lt_of_lt_of_le h2 (le_trans hge (le_trans h4 hsmall))) (lt_irrefl _)
  · obtain ⟨q', hq', hq1, hq2, he⟩ := r64_sig hs1 hs2
    have hT : (0 : ℚ) < 10 ^ E := by positivity
    have hs1' : (1 : ℚ) ≤ sig := by exact_mod_cast hs1
    have hs2' : (sig : ℚ) ≤ 10 ^ 20 := by
      have : (sig : ℚ) ≤ ((u64max : Nat) : ℚ) := by exact_mod_cast hs2
      exact le_trans this (by norm_num)
    have herr2 := abs_le.mp herr
    have he2 : |(q' : ℚ) * 10 ^ E - sig * 10 ^ E| ≤ sig * 10 ^ E / 2 ^ 53 := by
      rw [← sub_mul, abs_mul, abs_of_pos hT, mul_div_right_comm]
      exact mul_le_mul_of_nonneg_right he hT.le
    have he2 := abs_le.mp he2
    have hv0 : 0 ≤ v := by
      have h1 : 0 < (sig : ℚ) * 10 ^ E := mul_pos (lt_of_lt_of_le one_pos hs1') hT
      by_contra hneg
      have : v / 2 ^ 60 < 0 := div_neg_of_neg_of_pos (not_le.mp hneg) (by norm_num)
      have := le_trans (abs_nonneg _) herr
      linarith
    have a2 : (10 : ℚ) ^ E ≤ sig * 10 ^ E := le_mul_of_one_le_left hT.le hs1'
    rw [hq'] at hr
    by_cases hE0 : E < 0
    · obtain ⟨g, hg⟩ := fromParts_neg (fuel := (-E).toNat / 308 + 1) (f := q' * 2 ^ 1074) hE0 (by omega)
      rw [hg, Option.map_some] at hr
      refine ⟨fun _ => some_of hr, fun hge => ?_⟩
      exfalso
      have c1 : (10 : ℚ) ^ E ≤ 1 := zpow_le_one_of_nonpos₀ (by norm_num) hE0.le
      have c2 : (sig : ℚ) * 10 ^ E ≤ 10 ^ 20 * 1 := mul_le_mul hs2' c1 hT.le (by norm_num)
      have c3 : v / 2 ^ 60 ≤ v / 2 := div_le_div_of_nonneg_left hv0 (by norm_num) (by norm_num)
      have c4 : (10 : ℚ) ^ 21 < 10 ^ 309 := pow_lt_pow_right₀ (by norm_num) (by norm_num)
      have c5 : (10 : ℚ) ^ 20 * 1 * 2 < 10 ^ 21 := by norm_num
      have c6 := lt_of_lt_of_le c4 hge
      clear b1 b2 hlt h308 hge c4
      generalize (10 : ℚ) ^ 21 = Z at *
      generalize (10 : ℚ) ^ 20 = Y at *
      generalize (sig : ℚ) * 10 ^ E = S at *
      have := herr2.1
      clear hr hq' hg
      linarith
    · by_cases hE : E ≤ 308
      · obtain ⟨g, hg, eg⟩ := fromParts_large ((-E).toNat / 308 + 1) q' E hq1 (by omega) hE
        rw [hg] at hr
        have eg2 := abs_le.mp eg
        have b1' : (10 : ℚ) ^ 308 * 101 < ((2 ^ 1024 : Nat) : ℚ) * 100 := by
          have : (((10 : Nat) ^ 308 * 101 : Nat) : ℚ) < ((2 ^ 1024 * 100 : Nat) : ℚ) := Nat.cast_lt.mpr b1
          rw [Nat.cast_mul, Nat.cast_mul, Nat.cast_pow] at this
          simpa only [Nat.cast_ofNat] using this
        have b2' : ((2 ^ 1024 : Nat) : ℚ) * 2 < (10 : ℚ) ^ 309 := by
          have : (((2 : Nat) ^ 1024 * 2 : Nat) : ℚ) < ((10 ^ 309 : Nat) : ℚ) := Nat.cast_lt.mpr b2
          rw [Nat.cast_mul, Nat.cast_pow 10] at this
          simpa only [Nat.cast_ofNat] using this
        generalize (2 : Nat) ^ 1074 = M at *
        generalize (2 : Nat) ^ 1024 = T at *
        generalize (10 : ℚ) ^ 308 = B at *
        generalize (10 : ℚ) ^ 309 = C at *
        have hM' : (0 : ℚ) < M := by exact_mod_cast hU
        have gl : g < T * M ↔ (g : ℚ) / M < T := by
          rw [div_lt_iff₀ hM']; exact_mod_cast Iff.rfl
        generalize (q' : ℚ) * 10 ^ E = Q at *
        generalize (sig : ℚ) * 10 ^ E = S at *
        constructor
        · intro hle
          have hgt : g < T * M := by
            rw [gl]
            linarith
          rw [if_pos hgt] at hr
          exact some_of hr
        · intro hge
          have hgt : ¬ g < T * M := by
            rw [gl]
            linarith
          rw [if_neg hgt] at hr
          exact none_of hr
      · have hnone : fromParts ((-E).toNat / 308 + 1) (q' * 2 ^ 1074) E = none := by
          unfold fromParts
          rw [if_neg (by omega), if_neg (Nat.mul_ne_zero (by omega) hU.ne'), if_pos (by omega)]
        rw [hnone, Option.map_none] at hr
        refine ⟨fun hle => ?_, fun _ => none_of hr⟩
        exfalso
        have c1 : (10 : ℚ) ^ (309 : ℤ) ≤ 10 ^ E := zpow_le_zpow_right₀ (by norm_num) (by omega)
        rw [show (10 : ℚ) ^ (309 : ℤ) = 10 ^ 309 from zpow_natCast 10 309] at c1
        have c2 : (10 : ℚ) ^ 309 = 10 ^ 308 * 10 := pow_succ 10 308
        have c3 : v / 2 ^ 60 ≤ v / 2 := div_le_div_of_nonneg_left hv0 (by norm_num) (by norm_num)
        rw [c2] at c1
        have c4 := herr2.2
        clear b1 b2 hlt c2 hr hq' hnone hU
        generalize (10 : ℚ) ^ 308 = B at *
        generalize (sig : ℚ) * 10 ^ E = S at *
        generalize (10 : ℚ) ^ E = Y at *
        linarith

end

end Swrs.Ieee
