import Verif.Proofs.Project
import Verif.Base.FloatInst
/-!
# C14, C15: creation date and project file
-/
namespace Swrs

open Date in
/-! ## C14 — Creation date survives -/

/-- The day after a date. -/
def Date.nextDay (y : Int) (m d : Nat) : Int × Nat × Nat :=
  if d < (if m = 2 then (if y % 4 = 0 ∧ (y % 100 ≠ 0 ∨ y % 400 = 0) then 29 else 28)
      else if m = 4 ∨ m = 6 ∨ m = 9 ∨ m = 11 then 30 else 31) then (y, m, d + 1)
  else if m < 12 then (y, m + 1, 1)
  else (y + 1, 1, 1)

open Date in
/-- C14: the calendar of the model is the Gregorian one: 1970-01-01 is day 0 and each day is followed by the next
one of the calendar. -/
theorem c14_calendar : daysSinceEpoch 1970 1 1 = 0 ∧
    ∀ (y : Int) (m d : Nat), validDate y m d = true →
      daysSinceEpoch (nextDay y m d).1 (nextDay y m d).2.1 (nextDay y m d).2.2 = daysSinceEpoch y m d + 1 := by
  refine ⟨by decide, fun y m d h => ?_⟩
  obtain ⟨-, -, h1, h2, h3, h4⟩ := validDate_iff.mp h
  have hs := daysBeforeYear_succ y
  have hb : ∀ b, daysBeforeMonth b 1 = 0 := fun b => rfl
  have key : ∀ leap : Bool, ∀ m < 13, 1 ≤ m →
      (daysInMonth leap m = if m = 2 then (if leap then 29 else 28)
        else if m = 4 ∨ m = 6 ∨ m = 9 ∨ m = 11 then 30 else 31) ∧
      daysBeforeMonth leap (m + 1) = daysBeforeMonth leap m + daysInMonth leap m ∧
      daysBeforeMonth leap 13 = (if leap then 366 else 365) := by decide +kernel
  obtain ⟨k1, k2, k3⟩ := key (isLeap y) m (by omega) h1
  have hleap : (if y % 4 = 0 ∧ (y % 100 ≠ 0 ∨ y % 400 = 0) then 29 else 28) = if isLeap y then 29 else 28 := by
    by_cases hl : isLeap y = true
    · rw [if_pos ((isLeap_iff y).mp hl), if_pos hl]
    · rw [if_neg (fun hh => hl ((isLeap_iff y).mpr hh)), if_neg hl]
  unfold nextDay
  rw [hleap, ← k1]
  split
  next hd => unfold daysSinceEpoch; simp only; omega
  next hd =>
    have hde : d = daysInMonth (isLeap y) m := by omega
    split
    next hm => unfold daysSinceEpoch; simp only; rw [k2]; omega
    next hm =>
      have : m = 12 := by omega
      subst this
      unfold daysSinceEpoch; simp only
      rw [hs, hb]
      rw [k3] at k2
      split at k2 <;> split <;> simp_all <;> omega

open Date in
/-- C14: `from_timestamp` and `timestamp` are inverse to each other on valid dates. -/
theorem c14_calendar_inverse (ts : Int) (t : DateTime) :
    fromTimestamp ts = some t ↔ t.Valid ∧ timestamp t = ts := by
  constructor
  · exact timestamp_fromTimestamp
  · rintro ⟨h, rfl⟩; exact fromTimestamp_timestamp h

/-- A number padded with zeros on the left to `k` digits. -/
def Date.pad (k n : Nat) : Str := List.replicate (k - (natStr 10 n).length) '0' ++ natStr 10 n

namespace Date

theorem digitsVal_zeros (k : Nat) (s : Str) :
    digitsVal 10 (List.replicate k '0' ++ s) 0 = digitsVal 10 s 0 := by
  induction k with
  | zero => rfl
  | succ k ih => rw [List.replicate_succ, List.cons_append]; simp only [digitsVal]; exact ih

theorem pad_digits (k n : Nat) : ∀ c ∈ pad k n, isDigit c = true := by
  intro c hc
  simp only [pad, List.mem_append, List.mem_replicate] at hc
  rcases hc with ⟨_, rfl⟩ | hc
  · decide
  · exact natStr_digits rfl n c hc

theorem pad_ne_nil (k n : Nat) : pad k n ≠ [] := by simp [pad, natStr_ne_nil]

theorem byteLen_pad {k n : Nat} (hk : 0 < k) (h : n < 10 ^ k) : byteLen (pad k n) = k := by
  rw [byteLen_digits fun c hc => utf8Size_digit (pad_digits k n c hc)]
  have := (natStr_length_le (n := n) hk).mpr h
  simp only [pad, List.length_append, List.length_replicate]; omega

theorem digitsVal_pad (k n : Nat) : digitsVal 10 (pad k n) 0 = some n := by
  rw [pad, digitsVal_zeros, digitsVal_natStr_acc (by omega) (by omega)]

theorem parseUnsigned_pad {k n max : Nat} (h : n ≤ max) : parseUnsigned 10 max (pad k n) = some n := by
  unfold parseUnsigned
  have hne := pad_ne_nil k n
  have hd := pad_digits k n
  have hv := digitsVal_pad k n
  generalize pad k n = s at hne hd hv
  split
  next r => have := hd '+' (by simp); simp [not_isDigit_plus] at this
  next => simp [hne, hv, h]

theorem parseSigned_pad {k n : Nat} {lo hi : Int} (h1 : lo ≤ n) (h2 : n ≤ hi) :
    parseSigned lo hi (pad k n) = some (n : Int) := by
  have hne := pad_ne_nil k n
  have hd := pad_digits k n
  have hv := digitsVal_pad k n
  generalize pad k n = s at hne hd hv
  have hs : signSplit s = (false, s) := by
    unfold signSplit
    split
    next r => have := hd '+' (by simp); simp [not_isDigit_plus] at this
    next r => have := hd '-' (by simp); simp [not_isDigit_minus] at this
    next => rfl
  simp [parseSigned, hs, hne, hv, h1, h2]

/-- Sketchware's date text: four-digit year, two-digit month, day, hour, minute, second. -/
def sketchwareText (y m d hh mm ss : Nat) : Str :=
  pad 4 y ++ pad 2 m ++ pad 2 d ++ pad 2 hh ++ pad 2 mm ++ pad 2 ss

theorem day_le {y : Int} {m d : Nat} (h : validDate y m d = true) : d ≤ 31 := by
  obtain ⟨_, _, h1, h2, h3, h4⟩ := validDate_iff.mp h
  have key : ∀ leap : Bool, ∀ m < 13, daysInMonth leap m ≤ 31 := by decide +kernel
  have := key (isLeap y) m (by omega)
  omega

end Date

open Date in
/-- C14: the date text of Sketchware (zero-padded) is read as the time it denotes, for every valid date of
the years 0 to 9999. -/
theorem c14_reads_padded (y m d hh mm ss : Nat) (hy : y ≤ 9999)
    (h : (DateTime.mk y m d hh mm ss).Valid) :
    deserialize (sketchwareText y m d hh mm ss) =
      .ok (Int64.ofInt (timestamp ⟨y, m, d, hh, mm, ss⟩)).toUInt64 := by
  have hv := h.1
  have ht := h.2
  simp only at hv ht
  have h31 := day_le hv
  have h12 := (validDate_iff.mp hv).2.2.2.1
  obtain ⟨t1, t2, t3⟩ := validTime_iff.mp ht
  have := deserialize_append (a := pad 4 y) (b := pad 2 m) (c := pad 2 d) (d := pad 2 hh) (e := pad 2 mm)
    (f := pad 2 ss) (g := []) (byteLen_pad (by omega) (by omega)) (byteLen_pad (by omega) (by omega))
    (byteLen_pad (by omega) (by omega)) (byteLen_pad (by omega) (by omega)) (byteLen_pad (by omega) (by omega))
    (byteLen_pad (by omega) (by omega))
  rw [List.append_nil] at this
  unfold sketchwareText
  rw [this]
  unfold read6
  rw [parseSigned_pad (by omega) (by omega), parseUnsigned_pad (by omega), parseUnsigned_pad (by omega),
    parseUnsigned_pad (by omega), parseUnsigned_pad (by omega), parseUnsigned_pad (by omega)]
  simp [hv, ht]

/-- 2022-01-02 03:04:05. -/
example : (Date.DateTime.mk 2022 1 2 3 4 5).Valid ∧ Date.sketchwareText 2022 1 2 3 4 5 = s% "20220102030405" ∧
    Date.timestamp ⟨2022, 1, 2, 3, 4, 5⟩ = 1641092645 := by decide +kernel
example : (Date.DateTime.mk 2000 2 29 0 0 0).Valid ∧ ¬ (Date.DateTime.mk 1900 2 29 0 0 0).Valid := by
  decide +kernel

open Date in
/-- The full property C14 is false of the code: the creation time 2022-01-02 03:04:05 is written `202212345`,
and reading that text panics. -/
theorem c14_date_round_trip_false :
    (¬ ∀ ts : UInt64, ∃ s, serialize ts = some s ∧ deserialize s = .ok ts) ∧
    serialize 1641092645 = some (s% "202212345") ∧ deserialize (s% "202212345") = .panic := by
  have h1 : serialize 1641092645 = some (s% "202212345") := by decide +kernel
  have h2 : deserialize (s% "202212345") = .panic := by decide +kernel
  refine ⟨fun h => ?_, h1, h2⟩
  obtain ⟨s, hs, hd⟩ := h 1641092645
  rw [h1] at hs
  simp only [Option.some.injEq] at hs
  subst hs
  rw [h2] at hd; simp at hd

namespace Date

/-- Every part of the date takes its full width: four characters for the year, two digits for the others. -/
def FullWidth (t : DateTime) : Prop :=
  ((1000 ≤ t.year ∧ t.year ≤ 9999) ∨ (-999 ≤ t.year ∧ t.year ≤ -100)) ∧
  10 ≤ t.month ∧ 10 ≤ t.day ∧ 10 ≤ t.hour ∧ 10 ≤ t.minute ∧ 10 ≤ t.second

theorem natStr_two {n : Nat} (h1 : 10 ≤ n) (h2 : n < 100) : byteLen (natStr 10 n) = 2 := by
  rw [byteLen_natStr]
  have a := (natStr_length_le (n := n) (k := 2) (by omega)).mpr (by omega)
  have b := mt (natStr_length_le (n := n) (k := 1) (by omega)).mp (by omega)
  omega

theorem natStr_le_two {n : Nat} (h2 : n < 100) : byteLen (natStr 10 n) ≤ 2 ∧ (n < 10 → byteLen (natStr 10 n) ≤ 1) := by
  rw [byteLen_natStr]
  refine ⟨(natStr_length_le (n := n) (k := 2) (by omega)).mpr (by omega), fun h => ?_⟩
  exact (natStr_length_le (n := n) (k := 1) (by omega)).mpr (by omega)

theorem intStr_four {y : Int} (h : (1000 ≤ y ∧ y ≤ 9999) ∨ (-999 ≤ y ∧ y ≤ -100)) : byteLen (intStr y) = 4 := by
  cases y with
  | ofNat n =>
    simp only [intStr, Int.ofNat_eq_natCast] at h ⊢
    rw [byteLen_natStr]
    have a := (natStr_length_le (n := n) (k := 4) (by omega)).mpr (by omega)
    have b := mt (natStr_length_le (n := n) (k := 3) (by omega)).mp (by omega)
    omega
  | negSucc n =>
    simp only [intStr, byteLen_cons]
    rw [byteLen_natStr]
    have a := (natStr_length_le (n := n + 1) (k := 3) (by omega)).mpr (by omega)
    have b := mt (natStr_length_le (n := n + 1) (k := 2) (by omega)).mp (by omega)
    have : '-'.utf8Size = 1 := by decide
    omega

theorem intStr_le_four {y : Int} (h : -999 ≤ y ∧ y ≤ 9999) : byteLen (intStr y) ≤ 4 ∧
    (-99 ≤ y ∧ y ≤ 999 → byteLen (intStr y) ≤ 3) := by
  cases y with
  | ofNat n =>
    simp only [intStr, Int.ofNat_eq_natCast] at h ⊢
    rw [byteLen_natStr]
    have a := (natStr_length_le (n := n) (k := 4) (by omega)).mpr (by omega)
    refine ⟨a, fun hn => (natStr_length_le (n := n) (k := 3) (by omega)).mpr (by omega)⟩
  | negSucc n =>
    simp only [intStr, byteLen_cons]
    rw [byteLen_natStr]
    have a := (natStr_length_le (n := n + 1) (k := 3) (by omega)).mpr (by omega)
    have : '-'.utf8Size = 1 := by decide
    refine ⟨by omega, fun hn => ?_⟩
    have b := (natStr_length_le (n := n + 1) (k := 2) (by omega)).mpr (by omega)
    omega

/-- Timestamps of representable dates fit an `i64`. -/
theorem timestamp_range {t : DateTime} (h : t.Valid) :
    -(2 ^ 63) ≤ timestamp t ∧ timestamp t < 2 ^ 63 := by
  have h31 := day_le h.1
  obtain ⟨h1, h2, h3, h4, h5, h6⟩ := validDate_iff.mp h.1
  obtain ⟨t1, t2, t3⟩ := validTime_iff.mp h.2
  have key : ∀ leap : Bool, ∀ m < 13, daysBeforeMonth leap m ≤ 366 := by decide +kernel
  have := key (isLeap t.year) t.month (by omega)
  unfold timestamp daysSinceEpoch daysBeforeYear
  unfold minYear at h1
  unfold maxYear at h2
  omega

end Date

open Date in
/-- C14, proved part. The creation time `ts` denoting the date `t` is written and read back as the same time
exactly when every part of `t` takes its full width. Missing: the other dates, for which the property is false. -/
theorem c14_date_round_trip_partial (ts : UInt64) (t : DateTime) (hv : t.Valid)
    (hts : timestamp t = ts.toInt64.toInt) :
    ∃ s, serialize ts = some s ∧ (deserialize s = .ok ts ↔ FullWidth t) := by
  have hft : fromTimestamp ts.toInt64.toInt = some t := by rw [← hts]; exact fromTimestamp_timestamp hv
  refine ⟨text t, by simp [serialize, hft], ?_⟩
  have h31 := day_le hv.1
  obtain ⟨v1, v2, v3, v4, v5, v6⟩ := validDate_iff.mp hv.1
  obtain ⟨t1, t2, t3⟩ := validTime_iff.mp hv.2
  constructor
  · intro h
    obtain ⟨hlen, t', hv', y1, y2, he⟩ := deserialize_ok h
    have hr := timestamp_range hv'
    have hts' : ts.toInt64.toInt = timestamp t' := by
      rw [he]
      simp only [Int64.toInt64_toUInt64]
      rw [Int64.toInt_ofInt_of_le (by omega) (by omega)]
    have hft' := fromTimestamp_timestamp hv'
    rw [← hts', hft] at hft'
    simp only [Option.some.injEq] at hft'
    subst hft'
    unfold text at hlen
    simp only [byteLen_append] at hlen
    obtain ⟨a1, a2⟩ := intStr_le_four ⟨y1, y2⟩
    obtain ⟨b1, b2⟩ := natStr_le_two (n := t.month) (by omega)
    obtain ⟨c1, c2⟩ := natStr_le_two (n := t.day) (by omega)
    obtain ⟨d1, d2⟩ := natStr_le_two (n := t.hour) (by omega)
    obtain ⟨e1, e2⟩ := natStr_le_two (n := t.minute) (by omega)
    obtain ⟨f1, f2⟩ := natStr_le_two (n := t.second) (by omega)
    unfold FullWidth
    omega
  · rintro ⟨hy, hm, hd, hh, hmm, hs⟩
    have hmin : minYear = -262144 := rfl
    have hmax : maxYear = 262143 := rfl
    have := deserialize_append (a := intStr t.year) (b := natStr 10 t.month) (c := natStr 10 t.day)
      (d := natStr 10 t.hour) (e := natStr 10 t.minute) (f := natStr 10 t.second) (g := [])
      (intStr_four hy) (natStr_two hm (by omega)) (natStr_two hd (by omega)) (natStr_two hh (by omega))
      (natStr_two hmm (by omega)) (natStr_two hs (by omega))
    rw [List.append_nil] at this
    unfold text
    rw [this]
    unfold read6
    rw [parseSigned_intStr (by omega) (by omega), parseUnsigned_natStr (by omega), parseUnsigned_natStr (by omega),
      parseUnsigned_natStr (by omega), parseUnsigned_natStr (by omega), parseUnsigned_natStr (by omega)]
    have hvv := hv.1
    have htt := hv.2
    simp only [Out.ofOption_some, Out.ok_bind, hvv, htt, Bool.and_self, if_true, hts, Int64.ofInt_toInt]
    simp

/-- A creation time that is read back: 2022-12-31 23:59:58. -/
example : Date.FullWidth ⟨2022, 12, 31, 23, 59, 58⟩ ∧ (Date.DateTime.mk 2022 12 31 23 59 58).Valid ∧
    Date.timestamp ⟨2022, 12, 31, 23, 59, 58⟩ = (1672531198 : UInt64).toInt64.toInt := by
  refine ⟨by unfold Date.FullWidth; simp, by decide +kernel, by decide +kernel⟩

/-! ## C15 — Project file round trip -/

/-- A project created on 2022-01-02 03:04:05. -/
def c15_witness : Project where
  id := 601
  appName := s% "My \"App\""
  workspaceName := s% "ws"
  packageName := s% "com.my.app"
  versionCode := 1
  versionName := s% "1.0"
  dateCreated := 1641092645
  customIcon := false
  colorPalette := ProjectColorPalette.default
  sketchwareVersion := 150

/-- The full property C15 is false of the code: reading the text written for `c15_witness` panics. -/
theorem c15_project_round_trip_false [FloatLaws] :
    (¬ ∀ p : Project, ∃ s, p.reconstruct = .ok s ∧ Project.parse s = .ok p) ∧
    ∃ s, c15_witness.reconstruct = .ok s ∧ Project.parse s = .panic := by
  obtain ⟨_, h1, h2⟩ := c14_date_round_trip_false
  have e : c15_witness.reconstruct = .ok (c15_witness.enc (s% "202212345")).print := by
    unfold Project.reconstruct
    rw [show c15_witness.dateCreated = 1641092645 from rfl, h1]
    rfl
  have p : Project.parse (c15_witness.enc (s% "202212345")).print = .panic := by
    rw [Project.parse_print_enc, h2]; rfl
  refine ⟨fun h => ?_, _, e, p⟩
  obtain ⟨s, hs, hp⟩ := h c15_witness
  rw [e] at hs
  injection hs with hs
  rw [← hs, p] at hp
  simp at hp

/-- C15, proved part. A project whose creation time denotes a representable date is written to a text; that text
parses to the same project exactly when every part of the date takes its full width. All other fields are
arbitrary. Missing: projects with other dates, for which the property is false. -/
theorem c15_project_round_trip_partial [FloatLaws] (p : Project) (t : Date.DateTime) (hv : t.Valid)
    (hts : Date.timestamp t = p.dateCreated.toInt64.toInt) :
    ∃ s, p.reconstruct = .ok s ∧ (Project.parse s = .ok p ↔ Date.FullWidth t) := by
  obtain ⟨d, hd, hiff⟩ := c14_date_round_trip_partial p.dateCreated t hv hts
  refine ⟨(p.enc d).print, by simp [Project.reconstruct, hd], ?_⟩
  rw [Project.parse_print_enc, ← hiff]
  cases h : Date.deserialize d with
  | ok n =>
    simp only [Out.ok_bind, Out.pure_eq, Out.ok.injEq]
    constructor
    · intro he; exact congrArg Project.dateCreated he
    · rintro rfl; rfl
  | err e => simp
  | panic => simp

/-- C15: a text written by Sketchware (zero-padded date) for a project is read as that project. -/
theorem c15_reads_sketchware [FloatLaws] (p : Project) (y m d hh mm ss : Nat) (hy : y ≤ 9999)
    (h : (Date.DateTime.mk y m d hh mm ss).Valid)
    (hts : Date.timestamp ⟨y, m, d, hh, mm, ss⟩ = p.dateCreated.toInt64.toInt) :
    Project.parse (p.enc (Date.sketchwareText y m d hh mm ss)).print = .ok p := by
  rw [Project.parse_print_enc, c14_reads_padded y m d hh mm ss hy h, hts]
  simp

/-- C15: writing a project panics exactly when its creation time is not a representable date. -/
theorem c15_reconstruct_panics (p : Project) : p.reconstruct = .panic ↔
    ¬ ∃ t : Date.DateTime, t.Valid ∧ Date.timestamp t = p.dateCreated.toInt64.toInt := by
  rw [← Date.fromTimestamp_none]
  unfold Project.reconstruct Date.serialize
  cases Date.fromTimestamp p.dateCreated.toInt64.toInt <;> simp

example : ({ c15_witness with dateCreated := 0x7fffffffffffffff } : Project).reconstruct = .panic := by
  decide +kernel
example : c15_witness.dateCreated.toInt64.toInt = Date.timestamp ⟨2022, 1, 2, 3, 4, 5⟩ := by decide +kernel

end Swrs
