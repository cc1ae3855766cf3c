import Verif.Model.Date
import Verif.Base.StrLemmas
/-! Calendar arithmetic and the text form of dates. -/
namespace Swrs.Date

theorem isLeap_iff (y : Int) : isLeap y = true ↔ y % 4 = 0 ∧ (y % 100 ≠ 0 ∨ y % 400 = 0) := by
  simp [isLeap]

/-- The year of a day number, and the day of the year. -/
theorem yearOf_spec (z : Int) : daysBeforeYear (yearOf z).1 + (yearOf z).2 = z ∧
    (yearOf z).2 < if isLeap (yearOf z).1 then 366 else 365 := by
  have key : ∀ a b c d r : Int, 0 ≤ b → b ≤ 3 → 0 ≤ c → c ≤ 24 → 0 ≤ d → d ≤ 3 → 0 ≤ r →
      (r < 365 ∨ (r = 365 ∧ d = 3 ∧ (c < 24 ∨ b = 3))) →
      daysBeforeYear (400 * a + 100 * b + 4 * c + d + 1) + r = 146097 * a + 36524 * b + 1461 * c + 365 * d + r ∧
      (r.toNat < if isLeap (400 * a + 100 * b + 4 * c + d + 1) then 366 else 365) := by
    intro a b c d r h1 h2 h3 h4 h5 h6 h7 h8
    constructor
    · unfold daysBeforeYear; omega
    · split
      next => omega
      next h =>
        rw [isLeap_iff] at h
        omega
  unfold yearOf
  simp only
  have h := key (z / 146097) (min (z % 146097 / 36524) 3)
    ((z % 146097 - min (z % 146097 / 36524) 3 * 36524) / 1461)
    (min ((z % 146097 - min (z % 146097 / 36524) 3 * 36524 -
      (z % 146097 - min (z % 146097 / 36524) 3 * 36524) / 1461 * 1461) / 365) 3)
    (z % 146097 - min (z % 146097 / 36524) 3 * 36524 -
      (z % 146097 - min (z % 146097 / 36524) 3 * 36524) / 1461 * 1461 -
      min ((z % 146097 - min (z % 146097 / 36524) 3 * 36524 -
      (z % 146097 - min (z % 146097 / 36524) 3 * 36524) / 1461 * 1461) / 365) 3 * 365)
    (by omega) (by omega) (by omega) (by omega) (by omega) (by omega) (by omega) (by omega)
  refine ⟨?_, h.2⟩
  have h1 := h.1
  rw [Int.toNat_of_nonneg (by omega), h1]
  omega

theorem daysBeforeYear_succ (y : Int) :
    daysBeforeYear (y + 1) = daysBeforeYear y + if isLeap y then 366 else 365 := by
  unfold daysBeforeYear
  split
  next h => rw [isLeap_iff] at h; omega
  next h => rw [isLeap_iff] at h; omega

theorem daysBeforeYear_mono {y y' : Int} (h : y < y') : daysBeforeYear (y + 1) ≤ daysBeforeYear y' := by
  unfold daysBeforeYear; omega

/-- Year and day of the year are determined by the day number. -/
theorem year_unique {y y' : Int} {d d' : Nat} (hd : d < if isLeap y then 366 else 365)
    (hd' : d' < if isLeap y' then 366 else 365) (h : daysBeforeYear y + d = daysBeforeYear y' + d') :
    y = y' ∧ d = d' := by
  have s := daysBeforeYear_succ y
  have s' := daysBeforeYear_succ y'
  have hy : y = y' := by
    refine Classical.byContradiction fun hne => ?_
    rcases Int.lt_or_gt_of_ne hne with hlt | hlt
    · have := daysBeforeYear_mono hlt
      split at hd <;> split at s <;> simp_all <;> omega
    · have := daysBeforeYear_mono hlt
      split at hd' <;> split at s' <;> simp_all <;> omega
  subst hy
  exact ⟨rfl, by omega⟩

theorem yearOf_daysBeforeYear (y : Int) (d : Nat) (hd : d < if isLeap y then 366 else 365) :
    yearOf (daysBeforeYear y + d) = (y, d) := by
  have h := yearOf_spec (daysBeforeYear y + d)
  have := year_unique h.2 hd h.1
  exact Prod.ext this.1 this.2

theorem monthOf_spec (leap : Bool) (doy : Nat) (h : doy < if leap then 366 else 365) :
    1 ≤ monthOf leap doy ∧ monthOf leap doy ≤ 12 ∧ daysBeforeMonth leap (monthOf leap doy) ≤ doy ∧
    doy < daysBeforeMonth leap (monthOf leap doy + 1) := by
  have key : ∀ leap : Bool, ∀ doy < if leap then 366 else 365,
    1 ≤ monthOf leap doy ∧ monthOf leap doy ≤ 12 ∧ daysBeforeMonth leap (monthOf leap doy) ≤ doy ∧
    doy < daysBeforeMonth leap (monthOf leap doy + 1) := by decide +kernel
  exact key leap doy h

theorem monthOf_unique (leap : Bool) (m d : Nat) (h1 : 1 ≤ m) (h2 : m ≤ 12) (hd : d < daysInMonth leap m) :
    monthOf leap (daysBeforeMonth leap m + d) = m ∧
    daysBeforeMonth leap m + d < if leap then 366 else 365 := by
  have key : ∀ leap : Bool, ∀ m < 13, 1 ≤ m → ∀ d < daysInMonth leap m,
    monthOf leap (daysBeforeMonth leap m + d) = m ∧
    daysBeforeMonth leap m + d < if leap then 366 else 365 := by decide +kernel
  exact key leap m (by omega) h1 d hd

theorem validDate_iff {y : Int} {m d : Nat} : validDate y m d = true ↔ minYear ≤ y ∧ y ≤ maxYear ∧
    1 ≤ m ∧ m ≤ 12 ∧ 1 ≤ d ∧ d ≤ daysInMonth (isLeap y) m := by
  simp [validDate, and_assoc]

theorem validTime_iff {h m s : Nat} : validTime h m s = true ↔ h < 24 ∧ m < 60 ∧ s < 60 := by
  simp [validTime, and_assoc]

/-- A valid date and time. -/
def DateTime.Valid (t : DateTime) : Prop :=
  validDate t.year t.month t.day = true ∧ validTime t.hour t.minute t.second = true

instance (t : DateTime) : Decidable t.Valid := by unfold DateTime.Valid; infer_instance

/-- `from_timestamp` inverts `timestamp`. -/
theorem fromTimestamp_timestamp {t : DateTime} (h : t.Valid) : fromTimestamp (timestamp t) = some t := by
  obtain ⟨y, m, d, hh, mm, ss⟩ := t
  obtain ⟨h1, h2⟩ := h
  simp only [validDate_iff] at h1
  simp only [validTime_iff] at h2
  obtain ⟨a1, a2, a3, a4, a5, a6⟩ := h1
  obtain ⟨b1, b2, b3⟩ := h2
  obtain ⟨c1, c2⟩ := monthOf_unique (isLeap y) m (d - 1) a3 a4 (by omega)
  have hyear := yearOf_daysBeforeYear y (daysBeforeMonth (isLeap y) m + (d - 1)) c2
  have e1 : timestamp ⟨y, m, d, hh, mm, ss⟩ / 86400 + 719162 =
      daysBeforeYear y + ((daysBeforeMonth (isLeap y) m + (d - 1) : Nat) : Int) := by
    unfold timestamp daysSinceEpoch; simp only; omega
  have e2 : (timestamp ⟨y, m, d, hh, mm, ss⟩ % 86400).toNat = hh * 3600 + mm * 60 + ss := by
    unfold timestamp; simp only; omega
  unfold fromTimestamp
  simp only [e1, e2, hyear, c1, a1, a2, and_self, if_true, Option.some.injEq, DateTime.mk.injEq, true_and]
  refine ⟨by omega, by omega, by omega, by omega⟩

/-- `timestamp` inverts `from_timestamp`, which only yields valid dates. -/
theorem timestamp_fromTimestamp {ts : Int} {t : DateTime} (h : fromTimestamp ts = some t) :
    t.Valid ∧ timestamp t = ts := by
  unfold fromTimestamp at h
  simp only at h
  have hy := yearOf_spec (ts / 86400 + 719162)
  generalize hyo : yearOf (ts / 86400 + 719162) = yo at hy h
  obtain ⟨y, doy⟩ := yo
  simp only at hy h
  obtain ⟨m1, m2, m3, m4⟩ := monthOf_spec (isLeap y) doy hy.2
  split at h
  next hr =>
    simp only [Option.some.injEq] at h
    subst h
    refine ⟨⟨?_, ?_⟩, ?_⟩
    · rw [validDate_iff]
      refine ⟨hr.1, hr.2, m1, m2, by simp, ?_⟩
      simp only [daysInMonth]; omega
    · rw [validTime_iff]
      simp only
      omega
    · unfold timestamp daysSinceEpoch
      simp only
      omega
  next => simp at h

theorem fromTimestamp_none {ts : Int} : fromTimestamp ts = none ↔ ¬ ∃ t : DateTime, t.Valid ∧ timestamp t = ts := by
  constructor
  · rintro h ⟨t, hv, ht⟩
    rw [← ht, fromTimestamp_timestamp hv] at h; simp at h
  · intro h
    cases h' : fromTimestamp ts with
    | none => rfl
    | some t => exact absurd ⟨t, timestamp_fromTimestamp h'⟩ h

/-! ### text form -/

/-- Reading the six pieces of a date text. -/
def read6 (a b c d e f : Str) : Out Unit UInt64 := do
  let year ← Out.ofOption () (parseSigned (-2147483648) 2147483647 a)
  let month ← Out.ofOption () (parseUnsigned 10 4294967295 b)
  let day ← Out.ofOption () (parseUnsigned 10 4294967295 c)
  let hour ← Out.ofOption () (parseUnsigned 10 4294967295 d)
  let minute ← Out.ofOption () (parseUnsigned 10 4294967295 e)
  let second ← Out.ofOption () (parseUnsigned 10 4294967295 f)
  if validDate year month day && validTime hour minute second then
    Out.ok (Int64.ofInt (timestamp { year, month, day, hour, minute, second })).toUInt64
  else Out.panic

theorem deserialize_append {a b c d e f g : Str} (ha : byteLen a = 4) (hb : byteLen b = 2) (hc : byteLen c = 2)
    (hd : byteLen d = 2) (he : byteLen e = 2) (hf : byteLen f = 2) :
    deserialize (a ++ b ++ c ++ d ++ e ++ f ++ g) = read6 a b c d e f := by
  have s1 := slice_append [] a (b ++ c ++ d ++ e ++ f ++ g)
  have s2 := slice_append a b (c ++ d ++ e ++ f ++ g)
  have s3 := slice_append (a ++ b) c (d ++ e ++ f ++ g)
  have s4 := slice_append (a ++ b ++ c) d (e ++ f ++ g)
  have s5 := slice_append (a ++ b ++ c ++ d) e (f ++ g)
  have s6 := slice_append (a ++ b ++ c ++ d ++ e) f g
  simp only [byteLen_append, byteLen_nil, ha, hb, hc, hd, he, hf, List.nil_append, List.append_assoc,
    Nat.zero_add, Nat.reduceAdd] at s1 s2 s3 s4 s5 s6
  unfold deserialize read6
  simp only [List.append_assoc, s1, s2, s3, s4, s5, s6, Out.unwrap_some, Out.ok_bind]

theorem slice_some {v t : Str} {x y : Nat} (ht : slice v x y = some t) :
    ∃ p r, v = p ++ t ++ r ∧ byteLen p = x ∧ byteLen t + x = y := by
  unfold slice at ht
  split at ht
  next hxy =>
    cases h1 : sliceTo v y with
    | none => simp [h1] at ht
    | some w =>
      simp only [h1, Option.bind_some] at ht
      obtain ⟨r, hr, hl⟩ := sliceTo_eq_some.mp h1
      obtain ⟨p, hp, hpl⟩ := sliceFrom_eq_some.mp ht
      subst hp
      rw [byteLen_append] at hl
      exact ⟨p, r, hr, hpl, by omega⟩
  next => simp at ht

theorem length_le_byteLen (s : Str) : s.length ≤ byteLen s := by
  induction s with
  | nil => simp
  | cons c s ih =>
    have := Char.utf8Size_pos c
    simp only [List.length_cons, byteLen_cons]; omega

theorem digitsVal_lt {s : Str} {acc n : Nat} (h : digitsVal 10 s acc = some n) :
    n < (acc + 1) * 10 ^ s.length := by
  induction s generalizing acc with
  | nil => simp [digitsVal] at h; simp [h]
  | cons c s ih =>
    unfold digitsVal at h
    cases hd : digitVal 10 c with
    | none => simp [hd] at h
    | some d =>
      simp only [hd] at h
      have := ih h
      have hlt : d < 10 := by
        unfold digitVal at hd
        have := (Option.filter_eq_some_iff.mp hd).2
        simpa using this
      rw [List.length_cons, Nat.pow_succ]
      calc n < (acc * 10 + d + 1) * 10 ^ s.length := this
        _ ≤ ((acc + 1) * 10) * 10 ^ s.length := Nat.mul_le_mul_right _ (by omega)
        _ = (acc + 1) * (10 ^ s.length * 10) := by rw [Nat.mul_assoc, Nat.mul_comm 10]

/-- A four-byte number is between -999 and 9999. -/
theorem parseSigned_four {lo hi y : Int} {t : Str} (hl : byteLen t = 4) (h : parseSigned lo hi t = some y) :
    -999 ≤ y ∧ y ≤ 9999 := by
  have hlen := length_le_byteLen t
  unfold parseSigned at h
  split at h
  next => simp at h
  next hne =>
    cases hdv : digitsVal 10 (signSplit t).2 0 with
    | none => simp [hdv] at h
    | some n =>
      simp only [hdv] at h
      have hb := digitsVal_lt hdv
      simp only [Nat.zero_add, Nat.one_mul] at hb
      have hsp : (signSplit t).2.length ≤ 4 ∧ ((signSplit t).1 = true → (signSplit t).2.length ≤ 3) := by
        unfold signSplit
        split
        next r => simp only [List.length_cons] at hlen; constructor <;> simp <;> omega
        next r => simp only [List.length_cons] at hlen; constructor <;> simp <;> omega
        next => constructor <;> simp; omega
      have hb4 : n < 10 ^ 4 := Nat.lt_of_lt_of_le hb (Nat.pow_le_pow_right (by omega) hsp.1)
      by_cases hs : (signSplit t).1 = true
      · have hb3 : n < 10 ^ 3 := Nat.lt_of_lt_of_le hb (Nat.pow_le_pow_right (by omega) (hsp.2 hs))
        simp [hs] at h
        omega
      · simp [hs] at h
        omega

theorem deserialize_ok {v : Str} {n : UInt64} (h : deserialize v = .ok n) :
    14 ≤ byteLen v ∧ ∃ t : DateTime, t.Valid ∧ -999 ≤ t.year ∧ t.year ≤ 9999 ∧
      n = (Int64.ofInt (timestamp t)).toUInt64 := by
  unfold deserialize at h
  simp only [Out.bind_eq_ok, Out.unwrap_eq_ok, Out.ofOption_eq_ok] at h
  obtain ⟨t0, h0, y, hy, t1, h1, m, hm, t2, h2, d, hd, t3, h3, hh, hhh, t4, h4, mm, hmm, t5, h5, ss, hss, h⟩ := h
  obtain ⟨p0, r0, e0, l0, l0'⟩ := slice_some h0
  obtain ⟨p5, r5, e5, l5, l5'⟩ := slice_some h5
  have hyr := parseSigned_four (by omega) hy
  split at h
  next hv =>
    simp only [Bool.and_eq_true] at hv
    refine ⟨?_, ⟨y, m, d, hh, mm, ss⟩, hv, hyr.1, hyr.2, ?_⟩
    · rw [e5]; simp only [byteLen_append]; omega
    · simpa using h.symm
  next => simp at h

/-! ### digits -/

theorem byteLen_digits {s : Str} (h : ∀ c ∈ s, c.utf8Size = 1) : byteLen s = s.length := by
  induction s with
  | nil => rfl
  | cons c s ih =>
    simp only [byteLen_cons, List.length_cons, h c (by simp), ih fun x hx => h x (by simp [hx])]; omega

theorem utf8Size_digit {c : Char} (h : isDigit c = true) : c.utf8Size = 1 := by
  simp only [isDigit, Bool.and_eq_true, decide_eq_true_eq] at h
  have h2 : c.val.toNat ≤ 57 := h.2
  unfold Char.utf8Size
  rw [if_pos]
  rw [UInt32.le_iff_toNat_le]
  simp
  omega

theorem byteLen_natStr (n : Nat) : byteLen (natStr 10 n) = (natStr 10 n).length :=
  byteLen_digits fun c hc => utf8Size_digit (natStr_digits rfl n c hc)

theorem natStr_length_le {n k : Nat} (hk : 0 < k) : (natStr 10 n).length ≤ k ↔ n < 10 ^ k := by
  induction k generalizing n with
  | zero => omega
  | succ k ih =>
    rw [natStr]
    split
    next h =>
      simp only [List.length_singleton]
      have : 10 ≤ 10 ^ (k + 1) := by rw [Nat.pow_succ]; have := Nat.pow_pos (a := 10) (n := k) (by omega); omega
      constructor <;> intro <;> omega
    next h =>
      rw [List.length_append, List.length_singleton]
      cases k with
      | zero =>
        have := List.length_pos_iff.mpr (natStr_ne_nil 10 (n / 10))
        constructor <;> intro <;> omega
      | succ k =>
        have := ih (n := n / 10) (by omega)
        rw [Nat.add_le_add_iff_right, this, Nat.pow_succ 10 (k + 1), Nat.div_lt_iff_lt_mul (by omega)]

end Swrs.Date
