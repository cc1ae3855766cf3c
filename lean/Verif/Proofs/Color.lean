import Verif.Model.Color
/-! Arithmetic reading of the colour accessors. -/
namespace Swrs.Color

theorem chan_toNat (x : UInt32) : ((x &&& 0b111111111).toUInt8).toNat = x.toNat % 256 := by
  rw [UInt32.toNat_toUInt8, UInt32.toNat_and]
  have : (0b111111111 : UInt32).toNat = 2 ^ 9 - 1 := rfl
  rw [this, Nat.and_two_pow_sub_one_eq_mod]
  omega

theorem alpha_toNat (c : Color) : c.alpha.toNat = c.value.toNat / 16777216 := by
  have := c.value.toNat_lt
  unfold alpha
  rw [chan_toNat, UInt32.toNat_shiftRight]
  have : (24 : UInt32).toNat % 32 = 24 := rfl
  rw [this, Nat.shiftRight_eq_div_pow]
  omega
theorem red_toNat (c : Color) : c.red.toNat = c.value.toNat / 65536 % 256 := by
  unfold red
  rw [chan_toNat, UInt32.toNat_shiftRight]
  have : (16 : UInt32).toNat % 32 = 16 := rfl
  rw [this, Nat.shiftRight_eq_div_pow]
theorem green_toNat (c : Color) : c.green.toNat = c.value.toNat / 256 % 256 := by
  unfold green
  rw [chan_toNat, UInt32.toNat_shiftRight]
  have : (8 : UInt32).toNat % 32 = 8 := rfl
  rw [this, Nat.shiftRight_eq_div_pow]
theorem blue_toNat (c : Color) : c.blue.toNat = c.value.toNat % 256 := by
  unfold blue
  rw [chan_toNat, UInt32.toNat_shiftRight]
  have : (0 : UInt32).toNat % 32 = 0 := rfl
  rw [this, Nat.shiftRight_zero]

theorem or4 {a r g b : Nat} (hr : r < 256) (hg : g < 256) (hb : b < 256) :
    a <<< 24 ||| r <<< 16 ||| g <<< 8 ||| b = a * 16777216 + r * 65536 + g * 256 + b := by
  have e1 : g <<< 8 ||| b = g <<< 8 + b := (Nat.shiftLeft_add_eq_or_of_lt (i := 8) (by omega) g).symm
  have e2 : r <<< 16 ||| (g <<< 8 + b) = r <<< 16 + (g <<< 8 + b) :=
    (Nat.shiftLeft_add_eq_or_of_lt (i := 16) (by simp [Nat.shiftLeft_eq]; omega) r).symm
  have e3 : a <<< 24 ||| (r <<< 16 + (g <<< 8 + b)) = a <<< 24 + (r <<< 16 + (g <<< 8 + b)) :=
    (Nat.shiftLeft_add_eq_or_of_lt (i := 24) (by simp [Nat.shiftLeft_eq]; omega) a).symm
  rw [Nat.or_assoc, e1, Nat.or_assoc, e2, e3]
  simp [Nat.shiftLeft_eq]; omega

theorem shl_toNat (x : UInt8) (k : Nat) (hk : k ≤ 24) :
    (x.toUInt32 <<< (UInt32.ofNat k)).toNat = x.toNat <<< k := by
  have hx := x.toNat_lt
  have : (UInt32.ofNat k).toNat % 32 = k := by
    rw [UInt32.toNat_ofNat']; omega
  rw [UInt32.toNat_shiftLeft, this, UInt8.toNat_toUInt32, Nat.shiftLeft_eq]
  apply Nat.mod_eq_of_lt
  calc x.toNat * 2 ^ k < 2 ^ 8 * 2 ^ k := Nat.mul_lt_mul_of_pos_right hx (Nat.two_pow_pos k)
    _ = 2 ^ (8 + k) := (Nat.pow_add 2 8 k).symm
    _ ≤ 2 ^ 32 := Nat.pow_le_pow_right (by omega) (by omega)

theorem fromArgb_toNat (a r g b : UInt8) : (fromArgb a r g b).value.toNat =
    a.toNat * 16777216 + r.toNat * 65536 + g.toNat * 256 + b.toNat := by
  unfold fromArgb
  simp only [UInt32.toNat_or]
  rw [show (24 : UInt32) = UInt32.ofNat 24 from rfl, show (16 : UInt32) = UInt32.ofNat 16 from rfl,
    show (8 : UInt32) = UInt32.ofNat 8 from rfl, show (0 : UInt32) = UInt32.ofNat 0 from rfl,
    shl_toNat a 24 (by omega), shl_toNat r 16 (by omega), shl_toNat g 8 (by omega),
    shl_toNat b 0 (by omega)]
  exact or4 r.toNat_lt g.toNat_lt b.toNat_lt

theorem fromRgb_eq (r g b : UInt8) : fromRgb r g b = fromArgb 255 r g b := rfl

theorem ofU32_eq (v : UInt32) : ofU32 v = ⟨v⟩ := by
  unfold ofU32
  congr 1
  apply UInt32.toNat_inj.mp
  have := v.toNat_lt
  rw [UInt32.toNat_and]
  have : (0xffffffff : UInt32).toNat = 2 ^ 32 - 1 := rfl
  rw [this, Nat.and_two_pow_sub_one_eq_mod]
  omega

theorem ext_nat {c d : Color} (h : c.value.toNat = d.value.toNat) : c = d := by
  cases c; cases d; congr 1; exact UInt32.toNat_inj.mp h

theorem dec_encInt [Floats] (n : Int) (h1 : -9223372036854775808 ≤ n) (h2 : n < 9223372036854775808) :
    dec (Json.encInt n) = some ⟨(Int32.ofInt (clampI32 n)).toUInt32⟩ := by
  simp only [Json.encInt, dec, Json.intOfTok_intStr]
  by_cases h0 : 0 ≤ n
  · rw [if_pos ⟨h0, h2⟩, ofU32_eq]
  · rw [if_neg (by omega), if_neg (by omega), if_pos ⟨h1, by omega⟩, ofU32_eq]

theorem dec_enc [Floats] (c : Color) : dec c.enc = some c := by
  have h1 := c.value.toInt32.toInt_lt
  have h2 := c.value.toInt32.le_toInt
  unfold enc Json.encI32
  rw [dec_encInt _ (by omega) (by omega)]
  have : clampI32 c.value.toInt32.toInt = c.value.toInt32.toInt := by
    unfold clampI32; rw [if_neg (by omega), if_neg (by omega)]
  rw [this, Int32.ofInt_toInt]
  simp

end Swrs.Color
