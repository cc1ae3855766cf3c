import Verif.Proofs.Color
import Verif.Base.FloatInst
/-!
# C08, C09, C10: colours
-/
namespace Swrs.Color

/-! ## C08 — Colour channels -/

/-- C08: the channels given to `from_argb` are read back, `from_rgb` is opaque, and every colour is `from_argb` of
its own channels. -/
theorem c08_channels :
    (∀ a r g b : UInt8, (fromArgb a r g b).alpha = a ∧ (fromArgb a r g b).red = r ∧
      (fromArgb a r g b).green = g ∧ (fromArgb a r g b).blue = b ∧
      (fromArgb a r g b).rgb = (r, g, b)) ∧
    (∀ r g b : UInt8, (fromRgb r g b).alpha = 255 ∧ (fromRgb r g b).rgb = (r, g, b)) ∧
    (∀ c : Color, fromArgb c.alpha c.red c.green c.blue = c) := by
  have key : ∀ a r g b : UInt8, (fromArgb a r g b).alpha = a ∧ (fromArgb a r g b).red = r ∧
      (fromArgb a r g b).green = g ∧ (fromArgb a r g b).blue = b := by
    intro a r g b
    have h := fromArgb_toNat a r g b
    have ha := a.toNat_lt
    have hr := r.toNat_lt
    have hg := g.toNat_lt
    have hb := b.toNat_lt
    refine ⟨?_, ?_, ?_, ?_⟩ <;> apply UInt8.toNat_inj.mp
    · rw [alpha_toNat, h]; omega
    · rw [red_toNat, h]; omega
    · rw [green_toNat, h]; omega
    · rw [blue_toNat, h]; omega
  refine ⟨fun a r g b => ?_, fun r g b => ?_, fun c => ?_⟩
  · obtain ⟨h1, h2, h3, h4⟩ := key a r g b
    exact ⟨h1, h2, h3, h4, by simp [rgb, h2, h3, h4]⟩
  · obtain ⟨h1, h2, h3, h4⟩ := key 255 r g b
    rw [fromRgb_eq]
    exact ⟨h1, by simp [rgb, h2, h3, h4]⟩
  · apply ext_nat
    rw [fromArgb_toNat, alpha_toNat, red_toNat, green_toNat, blue_toNat]
    omega

/-- C08: the value of a colour is `0xAARRGGBB`. -/
theorem c08_value (a r g b : UInt8) : (fromArgb a r g b).value.toNat =
    a.toNat * 0x1000000 + r.toNat * 0x10000 + g.toNat * 0x100 + b.toNat := fromArgb_toNat a r g b

example : (fromArgb 0x12 0x34 0x56 0x78).value = 0x12345678 := by decide

/-! ## C09 — Hex colours -/

/-- Specification: a hexadecimal digit, either case. -/
def IsHex (c : Char) : Prop :=
  ('0' ≤ c ∧ c ≤ '9') ∨ ('a' ≤ c ∧ c ≤ 'f') ∨ ('A' ≤ c ∧ c ≤ 'F')

instance (c : Char) : Decidable (IsHex c) := by unfold IsHex; infer_instance

/-- Specification: value of a hexadecimal digit. -/
def hexOf (c : Char) : Nat :=
  if c ≤ '9' then c.toNat - '0'.toNat
  else if c ≤ 'F' then c.toNat - 'A'.toNat + 10
  else c.toNat - 'a'.toNat + 10

/-- Specification: value of a hexadecimal numeral. -/
def hexNumeral (s : Str) : Nat := s.foldl (fun n c => 16 * n + hexOf c) 0

theorem char_le_iff (a b : Char) : a ≤ b ↔ a.toNat ≤ b.toNat := by
  rw [Char.le_def, UInt32.le_iff_toNat_le]; rfl

theorem digitVal_hex {c : Char} (h : IsHex c) : digitVal 16 c = some (hexOf c) := by
  unfold IsHex at h
  simp only [char_le_iff] at h
  unfold digitVal hexOf
  simp only [char_le_iff]
  have e : '0'.toNat = 48 ∧ '9'.toNat = 57 ∧ 'a'.toNat = 97 ∧ 'f'.toNat = 102 ∧ 'A'.toNat = 65
    ∧ 'F'.toNat = 70 := by decide
  obtain ⟨e0, e9, ea, ef, eA, eF⟩ := e
  rw [e0, e9, ea, ef, eA, eF] at h
  rw [e0, e9, ea, eA, eF]
  rcases h with h | h | h
  · rw [if_pos h, if_pos h.2]; simp; omega
  · rw [if_neg (by omega), if_pos h, if_neg (by omega), if_neg (by omega)]
    simp only [Option.filter_eq_some_iff, Option.some.injEq, decide_eq_true_eq]; omega
  · rw [if_neg (by omega), if_neg (by omega), if_pos h, if_neg (by omega), if_pos h.2]
    simp only [Option.filter_eq_some_iff, Option.some.injEq, decide_eq_true_eq]; omega

theorem digitVal_not_hex {c : Char} (h : ¬ IsHex c) : digitVal 16 c = none := by
  unfold IsHex at h
  simp only [char_le_iff] at h
  have e : '0'.toNat = 48 ∧ '9'.toNat = 57 ∧ 'a'.toNat = 97 ∧ 'f'.toNat = 102 ∧ 'A'.toNat = 65
    ∧ 'F'.toNat = 70 := by decide
  obtain ⟨e0, e9, ea, ef, eA, eF⟩ := e
  rw [e0, e9, ea, ef, eA, eF] at h
  unfold digitVal
  simp only
  rw [if_neg (by omega), if_neg (by omega), if_neg (by omega)]
  rfl

theorem digitsVal_hex {s : Str} (h : ∀ c ∈ s, IsHex c) (acc : Nat) :
    digitsVal 16 s acc = some (s.foldl (fun n c => 16 * n + hexOf c) acc) := by
  induction s generalizing acc with
  | nil => rfl
  | cons c s ih =>
    simp only [digitsVal, digitVal_hex (h c (by simp)), List.foldl_cons]
    rw [ih (fun x hx => h x (by simp [hx])), Nat.mul_comm]

theorem digitsVal_not_hex {s : Str} (h : ¬ ∀ c ∈ s, IsHex c) (acc : Nat) :
    digitsVal 16 s acc = none := by
  induction s generalizing acc with
  | nil => simp at h
  | cons c s ih =>
    by_cases hc : IsHex c
    · simp only [digitsVal, digitVal_hex hc]
      apply ih
      intro hall
      apply h
      intro x hx
      simp only [List.mem_cons] at hx
      rcases hx with rfl | hx
      · exact hc
      · exact hall x hx
    · simp only [digitsVal, digitVal_not_hex hc]

/-- The text `parse_hex` reads: `ff` is put before a six-byte text. -/
def prefixed (txt : Str) : Str := if byteLen txt = 6 then 'f' :: 'f' :: txt else txt

/-- C09: exactly which texts `parse_hex` accepts, and with what value. An optional `+` is accepted (only when `ff`
has not been put before it). Everything else is an error; there is no panic case. -/
theorem c09_accepts (txt : Str) (c : Color) :
    parseHex txt = some c ↔
      ∃ digits, (prefixed txt = digits ∨ prefixed txt = '+' :: digits) ∧ digits ≠ [] ∧
        (∀ d ∈ digits, IsHex d) ∧ hexNumeral digits < 2 ^ 32 ∧
        c.value.toNat = hexNumeral digits := by
  have hplus : ¬ IsHex '+' := by decide
  have hpre : (if byteLen txt = 6 then s% "ff" else []) ++ txt = prefixed txt := by
    unfold prefixed; split <;> rfl
  unfold parseHex
  simp only [hpre, Option.map_eq_some_iff]
  have fin : ∀ digits : Str, digits ≠ [] →
      ((∃ n, (digitsVal 16 digits 0).filter (· ≤ 4294967295) = some n ∧ ofU32 (UInt32.ofNat n) = c) ↔
       ((∀ d ∈ digits, IsHex d) ∧ hexNumeral digits < 2 ^ 32 ∧ c.value.toNat = hexNumeral digits)) := by
    intro digits hne
    by_cases hall : ∀ d ∈ digits, IsHex d
    · rw [digitsVal_hex hall]
      change (∃ n, Option.filter _ (some (hexNumeral digits)) = some n ∧ _) ↔ _
      simp only [Option.filter_eq_some_iff, Option.some.injEq, decide_eq_true_eq]
      constructor
      · rintro ⟨n, ⟨rfl, hn⟩, rfl⟩
        refine ⟨hall, by omega, ?_⟩
        rw [ofU32_eq]
        exact UInt32.toNat_ofNat_of_lt (by show _ < 4294967296; omega)
      · rintro ⟨_, h1, h2⟩
        refine ⟨hexNumeral digits, ⟨rfl, by omega⟩, ?_⟩
        rw [ofU32_eq]
        apply ext_nat
        rw [h2]
        exact UInt32.toNat_ofNat_of_lt (by show _ < 4294967296; omega)
    · rw [digitsVal_not_hex hall]
      simp [hall]
  unfold parseUnsigned
  split
  next r hr =>
    by_cases hne : r = []
    · subst hne
      constructor
      · rintro ⟨n, h, _⟩; simp at h
      · rintro ⟨digits, h1 | h1, h2, h3, _⟩
        · rw [hr] at h1; subst h1
          exact absurd (h3 '+' (by simp)) hplus
        · rw [hr] at h1; simp at h1; exact absurd h1 h2
    · simp only [hne, if_false]
      rw [fin r hne]
      constructor
      · intro h; exact ⟨r, Or.inr hr, hne, h⟩
      · rintro ⟨digits, h1 | h1, h2, h3, h4⟩
        · rw [hr] at h1; subst h1
          exact absurd (h3 '+' (by simp)) hplus
        · rw [hr] at h1; simp at h1; subst h1; exact ⟨h3, h4⟩
  next hnp =>
    by_cases hne : prefixed txt = []
    · simp only [hne, if_true]
      constructor
      · rintro ⟨n, h, _⟩; simp at h
      · rintro ⟨digits, h1 | h1, h2, _⟩
        · exact absurd h1.symm h2
        · simp at h1
    · simp only [hne, if_false]
      rw [fin _ hne]
      constructor
      · intro h; exact ⟨_, Or.inl rfl, hne, h⟩
      · rintro ⟨digits, h1 | h1, h2, h3, h4⟩
        · subst h1; exact ⟨h3, h4⟩
        · exact absurd h1 (hnp digits)

theorem utf8Size_hex {c : Char} (h : IsHex c) : c.utf8Size = 1 := by
  unfold IsHex at h
  simp only [char_le_iff] at h
  have e : '9'.toNat = 57 ∧ 'f'.toNat = 102 ∧ 'F'.toNat = 70 := by decide
  obtain ⟨e9, ef, eF⟩ := e
  rw [e9, ef, eF] at h
  rw [Char.utf8Size_eq_one_iff, UInt32.le_iff_toNat_le]
  change c.toNat ≤ 127
  omega

/-- C09: six hex digits give the opaque colour with these channels. -/
theorem c09_six_digits (d1 d2 d3 d4 d5 d6 : Char) (h : ∀ d ∈ [d1, d2, d3, d4, d5, d6], IsHex d) :
    parseHex [d1, d2, d3, d4, d5, d6] =
      some (fromRgb (UInt8.ofNat (hexOf d1 * 16 + hexOf d2)) (UInt8.ofNat (hexOf d3 * 16 + hexOf d4))
        (UInt8.ofNat (hexOf d5 * 16 + hexOf d6))) := by
  have hb : byteLen [d1, d2, d3, d4, d5, d6] = 6 := by
    simp only [byteLen_cons, byteLen_nil, utf8Size_hex (h d1 (by simp)), utf8Size_hex (h d2 (by simp)),
      utf8Size_hex (h d3 (by simp)), utf8Size_hex (h d4 (by simp)), utf8Size_hex (h d5 (by simp)),
      utf8Size_hex (h d6 (by simp))]
  have hlt : ∀ d, IsHex d → hexOf d < 16 := by
    intro d hd
    have := digitVal_hex hd
    simp only [digitVal, Option.filter_eq_some_iff, decide_eq_true_eq] at this
    exact this.2
  have l1 := hlt d1 (h d1 (by simp))
  have l2 := hlt d2 (h d2 (by simp))
  have l3 := hlt d3 (h d3 (by simp))
  have l4 := hlt d4 (h d4 (by simp))
  have l5 := hlt d5 (h d5 (by simp))
  have l6 := hlt d6 (h d6 (by simp))
  rw [c09_accepts]
  refine ⟨['f', 'f', d1, d2, d3, d4, d5, d6], Or.inl (by simp only [prefixed, hb, if_true]), by simp, ?_, ?_, ?_⟩
  · intro d hd
    simp only [List.mem_cons] at hd h
    rcases hd with rfl | rfl | hd
    · decide
    · decide
    · exact h d hd
  · have : hexOf 'f' = 15 := by decide
    simp only [hexNumeral, List.foldl_cons, List.foldl_nil, this]; omega
  · have : hexOf 'f' = 15 := by decide
    rw [fromRgb_eq, fromArgb_toNat]
    simp only [hexNumeral, List.foldl_cons, List.foldl_nil, this]
    rw [UInt8.toNat_ofNat', UInt8.toNat_ofNat', UInt8.toNat_ofNat', show (255 : UInt8).toNat = 255 from rfl]
    omega

-- upper and lower case digits
example : parseHex (s% "FFaa00") = some (fromRgb 255 170 0) := c09_six_digits 'F' 'F' 'a' 'a' '0' '0' (by decide +kernel)

theorem natStr16_length {n : Nat} {k : Nat} (hk : 0 < k) (h : n < 16 ^ k) : (natStr 16 n).length ≤ k := by
  induction k generalizing n with
  | zero => omega
  | succ k ih =>
    rw [natStr]
    split
    next => simp
    next h' =>
      simp only [not_or, Nat.not_lt] at h'
      rw [List.length_append]
      have hk0 : 0 < k := by
        rcases Nat.eq_zero_or_pos k with rfl | hk0
        · simp at h; omega
        · exact hk0
      have : n / 16 < 16 ^ k := by
        apply Nat.div_lt_of_lt_mul
        rw [Nat.pow_succ] at h; omega
      have := ih hk0 this
      simp; omega

theorem digitsVal_zeros (k : Nat) (s : Str) :
    digitsVal 16 (List.replicate k '0' ++ s) 0 = digitsVal 16 s 0 := by
  induction k with
  | zero => rfl
  | succ k ih =>
    have : digitVal 16 '0' = some 0 := by decide
    simp [List.replicate_succ, digitsVal, this, ih]

theorem natStr16_hex (n : Nat) : ∀ c ∈ natStr 16 n, IsHex c := by
  have key : ∀ n < 16, IsHex (digitChar n) := by decide
  induction n using Nat.strongRecOn with
  | _ n ih =>
    rw [natStr]
    split
    next h => intro c hc; simp at hc; subst hc; exact key n (by omega)
    next h =>
      simp only [not_or, Nat.not_lt] at h
      intro c hc
      simp only [List.mem_append, List.mem_singleton] at hc
      rcases hc with hc | rfl
      · exact ih _ (Nat.div_lt_self (by omega) (by omega)) c hc
      · exact key _ (Nat.mod_lt _ (by omega))

/-- C09: the eight hex digits printed for a colour parse to that colour. -/
theorem c09_print_parse (c : Color) : ∃ digits, c.display = '0' :: 'x' :: digits ∧
    digits.length = 8 ∧ (∀ d ∈ digits, IsHex d) ∧ parseHex digits = some c := by
  have hlt := c.value.toNat_lt
  have hlen := natStr16_length (n := c.value.toNat) (k := 8) (by omega) (by omega)
  have hlen8 : (hex8 c.value.toNat).length = 8 := by simp [hex8]; omega
  have hhex : ∀ d ∈ hex8 c.value.toNat, IsHex d := by
    intro d hd
    simp only [hex8, List.mem_append, List.mem_replicate] at hd
    rcases hd with ⟨_, rfl⟩ | hd
    · decide
    · exact natStr16_hex _ d hd
  refine ⟨hex8 c.value.toNat, rfl, hlen8, hhex, ?_⟩
  rw [c09_accepts]
  have hval : hexNumeral (hex8 c.value.toNat) = c.value.toNat := by
    have h1 := digitsVal_hex hhex 0
    have h2 : digitsVal 16 (hex8 c.value.toNat) 0 = some c.value.toNat := by
      rw [hex8, digitsVal_zeros, digitsVal_natStr_acc (b := 16) (by omega) (by omega)]
    rw [h2] at h1
    simpa [hexNumeral] using h1.symm
  have hb : byteLen (hex8 c.value.toNat) = 8 := by
    have : ∀ s : Str, (∀ d ∈ s, IsHex d) → byteLen s = s.length := by
      intro s hs
      induction s with
      | nil => rfl
      | cons d s ih =>
        rw [byteLen_cons, utf8Size_hex (hs d (by simp)), ih fun x hx => hs x (by simp [hx])]
        simp; omega
    rw [this _ hhex, hlen8]
  refine ⟨hex8 c.value.toNat, Or.inl (by simp [prefixed, hb]), ?_, hhex, by rw [hval]; omega, hval.symm⟩
  intro h0; rw [h0] at hlen8; simp at hlen8

example : parseHex (s% "20008dcd") = some ⟨0x20008dcd⟩ := by decide +kernel
example : parseHex (s% "FFaa00") = some (fromRgb 0xff 0xaa 0) := by decide +kernel
example : parseHex (s% "12345678") = some ⟨0x12345678⟩ ∧ parseHex (s% "+12") = some ⟨0x12⟩ ∧
  parseHex (s% "xyzxyz") = none ∧ parseHex (s% "+12345") = none ∧ parseHex (s% "123456789") = none := by
  decide +kernel

/-! ## C10 — Colours survive JSON -/

/-- C10: writing a colour as JSON text and reading the text back gives the same colour. -/
theorem c10_round_trip [Floats] (c : Color) : Json.fromStr dec c.enc.print = some c :=
  Json.fromStr_print (by simp [enc]) (dec_enc c)

/-- C10, the part that holds of every float implementation: reading the decimal text of an `i64` integer gives the colour whose 32 bits (two's complement) are the
integer clamped to the `i32` range. -/
theorem c10_clamp_partial [Floats] (n : Int) (h1 : -(2 ^ 63) ≤ n) (h2 : n < 2 ^ 63) :
    ∃ c, Json.fromStr dec (intStr n) = some c ∧
      (c.value.toNat : Int) = (max (-(2 ^ 31)) (min n (2 ^ 31 - 1))) % 2 ^ 32 := by
  refine ⟨⟨(Int32.ofInt (clampI32 n)).toUInt32⟩, ?_, ?_⟩
  · exact Json.fromStr_print (j := Json.encInt n) (by simp) (dec_encInt n (by omega) (by omega))
  · have e : clampI32 n = max (-(2 ^ 31)) (min n (2 ^ 31 - 1)) := by
      unfold clampI32; split
      · omega
      · split <;> omega
    rw [← e]
    have hb : -(2147483648 : Int) ≤ clampI32 n ∧ clampI32 n ≤ 2147483647 := by
      unfold clampI32; split
      · omega
      · split <;> omega
    change (((Int32.ofInt (clampI32 n)).toUInt32.toNat : Nat) : Int) = _
    generalize clampI32 n = m at hb
    have : (Int32.ofInt m).toUInt32.toNat = (m % 2 ^ 32).toNat := by
      change (Int32.ofInt m).toBitVec.toNat = _
      rw [show (Int32.ofInt m).toBitVec = BitVec.ofInt 32 m from rfl, BitVec.toNat_ofInt]
      rfl
    rw [this]; omega

-- a number that is kept and one that is clamped
example [Floats] : (∃ c, Json.fromStr dec (intStr (-5)) = some c ∧ (c.value.toNat : Int) = 2 ^ 32 - 5) ∧
    ∃ c, Json.fromStr dec (intStr 99999999999) = some c ∧ (c.value.toNat : Int) = 2 ^ 31 - 1 :=
  ⟨c10_clamp_partial (-5) (by decide) (by decide), c10_clamp_partial 99999999999 (by decide) (by decide)⟩

/-- C10: the unsigned form of an ARGB value with the top bit set is read as `0x7fffffff`, not as the colour. -/
theorem c10_unsigned_not_accepted [Floats] (c : Color) (h : 2 ^ 31 ≤ c.value.toNat) :
    Json.fromStr dec (intStr c.value.toNat) = some ⟨0x7fffffff⟩ ∧ (⟨0x7fffffff⟩ : Color) ≠ c := by
  have hlt := c.value.toNat_lt
  constructor
  · have : clampI32 (c.value.toNat : Int) = 2147483647 := by
      unfold clampI32
      rw [if_neg (by omega)]
      split <;> omega
    have h := dec_encInt (c.value.toNat : Int) (by omega) (by omega)
    rw [this] at h
    exact Json.fromStr_print (j := Json.encInt (c.value.toNat : Int)) (by simp)
      (by rw [h]; rfl)
  · rintro rfl; simp at h

-- opaque white, written as an unsigned number
example [Floats] : Json.fromStr dec (intStr 4294967295) = some ⟨0x7fffffff⟩ := (c10_unsigned_not_accepted ⟨0xffffffff⟩ (by decide)).1

/-- C10: an unsigned 64-bit integer of at least `2^63` wraps around before it is clamped. -/
theorem c10_u64_wraps [Floats] (n : Int) (h1 : 2 ^ 63 ≤ n) (h2 : n < 2 ^ 64) :
    Json.fromStr dec (intStr n) = Json.fromStr dec (intStr (n - 2 ^ 64)) := by
  have e1 : dec (Json.encInt n) = dec (Json.encInt (n - 2 ^ 64)) := by
    rw [dec_encInt (n - 2 ^ 64) (by omega) (by omega)]
    simp only [Json.encInt, dec, Json.intOfTok_intStr]
    rw [if_neg (by omega), if_pos ⟨by omega, by omega⟩, ofU32_eq]
    rfl
  have p : ∀ n, Json.parse (intStr n) = some (Json.encInt n) := fun n =>
    Json.parse_print (Json.encInt n) (by simp)
  simp only [Json.fromStr, p, Option.bind_some, e1]

example [Floats] : Json.fromStr dec (s% "-16777216") = some ⟨0xff000000⟩ := by
  have := c10_round_trip ⟨0xff000000⟩
  rw [show (enc ⟨0xff000000⟩).print = s% "-16777216" by decide +kernel] at this
  exact this

end Swrs.Color
