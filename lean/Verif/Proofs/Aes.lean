import Verif.Model.Aes
/-!
# AES-128 decryption inverts encryption, and conversely
-/
namespace Swrs.Aes

/-- A property of all bytes checked on the 256 numbers. -/
theorem forall_byte {p : Byte → Prop} (h : ∀ n : Fin 256, p (UInt8.ofNat n.val)) (b : Byte) : p b := by
  have := h ⟨b.toNat, b.toNat_lt⟩
  simpa using this

theorem invSbox_sbox (b : Byte) : invSbox (sbox b) = b := forall_byte (p := fun b => invSbox (sbox b) = b) (by decide +kernel) b
theorem sbox_invSbox (b : Byte) : sbox (invSbox b) = b := forall_byte (p := fun b => sbox (invSbox b) = b) (by decide +kernel) b

theorem xor_cancel (a b : Byte) : a ^^^ b ^^^ b = a := by rw [UInt8.xor_assoc, UInt8.xor_self, UInt8.xor_zero]

theorem xtime_xor (a b : Byte) : xtime (a ^^^ b) = xtime a ^^^ xtime b := by
  unfold xtime
  have hs : (a ^^^ b) <<< 1 = (a <<< 1) ^^^ (b <<< 1) := UInt8.shiftLeft_xor
  have hm : (if (a ^^^ b) &&& 0x80 = 0 then (0 : Byte) else 0x1b) =
      (if a &&& 0x80 = 0 then 0 else 0x1b) ^^^ (if b &&& 0x80 = 0 then 0 else 0x1b) := by
    have hd : (a ^^^ b) &&& 0x80 = (a &&& 0x80) ^^^ (b &&& 0x80) := by
      apply UInt8.toBitVec_inj.mp
      simp only [UInt8.toBitVec_and, UInt8.toBitVec_xor]
      apply BitVec.eq_of_getElem_eq
      intro i hi
      simp only [BitVec.getElem_and, BitVec.getElem_xor, Bool.and_xor_distrib_right]
    have hv : ∀ c : Byte, c &&& 0x80 = 0 ∨ c &&& 0x80 = 0x80 :=
      forall_byte (p := fun c => c &&& 0x80 = 0 ∨ c &&& 0x80 = 0x80) (by decide +kernel)
    rw [hd]
    rcases hv a with ha | ha <;> rcases hv b with hb | hb <;> rw [ha, hb] <;> decide
  rw [hs, hm]
  ac_rfl

theorem Col.xor_cancel (p q : Col) : (p.xor q).xor q = p := by
  simp [Col.xor, Aes.xor_cancel]
theorem Blk.xor_cancel (p q : Blk) : (p.xor q).xor q = p := by
  simp [Blk.xor, Col.xor_cancel]

theorem map_inv {f g : Byte → Byte} (h : ∀ b, f (g b) = b) (s : Blk) : (s.map g).map f = s := by
  simp [Blk.map, Col.map, h]

theorem invShiftRows_shiftRows (s : Blk) : invShiftRows (shiftRows s) = s := rfl
theorem shiftRows_invShiftRows (s : Blk) : shiftRows (invShiftRows s) = s := rfl

theorem mul2_xor (a b : Byte) : mul2 (a ^^^ b) = mul2 a ^^^ mul2 b := xtime_xor a b
theorem mul3_xor (a b : Byte) : mul3 (a ^^^ b) = mul3 a ^^^ mul3 b := by
  simp only [mul3, xtime_xor]; ac_rfl
theorem mul9_xor (a b : Byte) : mul9 (a ^^^ b) = mul9 a ^^^ mul9 b := by
  simp only [mul9, xtime_xor]; ac_rfl
theorem mul11_xor (a b : Byte) : mul11 (a ^^^ b) = mul11 a ^^^ mul11 b := by
  simp only [mul11, xtime_xor]; ac_rfl
theorem mul13_xor (a b : Byte) : mul13 (a ^^^ b) = mul13 a ^^^ mul13 b := by
  simp only [mul13, xtime_xor]; ac_rfl
theorem mul14_xor (a b : Byte) : mul14 (a ^^^ b) = mul14 a ^^^ mul14 b := by
  simp only [mul14, xtime_xor]; ac_rfl

/-- Regrouping of a sum of sixteen terms by columns. -/
theorem xor_transpose (a0 a1 a2 a3 b0 b1 b2 b3 c0 c1 c2 c3 d0 d1 d2 d3 : Byte) :
    (a0 ^^^ a1 ^^^ a2 ^^^ a3) ^^^ (b0 ^^^ b1 ^^^ b2 ^^^ b3) ^^^ (c0 ^^^ c1 ^^^ c2 ^^^ c3) ^^^ (d0 ^^^ d1 ^^^ d2 ^^^ d3) =
    (a0 ^^^ b0 ^^^ c0 ^^^ d0) ^^^ (a1 ^^^ b1 ^^^ c1 ^^^ d1) ^^^ (a2 ^^^ b2 ^^^ c2 ^^^ d2) ^^^ (a3 ^^^ b3 ^^^ c3 ^^^ d3) := by
  ac_rfl

theorem invMixCol_mixCol (p : Col) : invMixCol (mixCol p) = p := by
  obtain ⟨a, b, c, d⟩ := p
  simp only [invMixCol, mixCol, Col.mk.injEq, mul9_xor, mul11_xor, mul13_xor, mul14_xor]
  refine ⟨?_, ?_, ?_, ?_⟩
  · rw [xor_transpose]
    have h0 : ∀ x : Byte, mul14 (mul2 x) ^^^ mul11 x ^^^ mul13 x ^^^ mul9 (mul3 x) = x :=
      forall_byte (p := fun x => mul14 (mul2 x) ^^^ mul11 x ^^^ mul13 x ^^^ mul9 (mul3 x) = x) (by decide +kernel)
    have h1 : ∀ x : Byte, mul14 (mul3 x) ^^^ mul11 (mul2 x) ^^^ mul13 x ^^^ mul9 x = 0 :=
      forall_byte (p := fun x => mul14 (mul3 x) ^^^ mul11 (mul2 x) ^^^ mul13 x ^^^ mul9 x = 0) (by decide +kernel)
    have h2 : ∀ x : Byte, mul14 x ^^^ mul11 (mul3 x) ^^^ mul13 (mul2 x) ^^^ mul9 x = 0 :=
      forall_byte (p := fun x => mul14 x ^^^ mul11 (mul3 x) ^^^ mul13 (mul2 x) ^^^ mul9 x = 0) (by decide +kernel)
    have h3 : ∀ x : Byte, mul14 x ^^^ mul11 x ^^^ mul13 (mul3 x) ^^^ mul9 (mul2 x) = 0 :=
      forall_byte (p := fun x => mul14 x ^^^ mul11 x ^^^ mul13 (mul3 x) ^^^ mul9 (mul2 x) = 0) (by decide +kernel)
    rw [h0 a, h1 b, h2 c, h3 d]
    simp
  · rw [xor_transpose]
    have h0 : ∀ x : Byte, mul9 (mul2 x) ^^^ mul14 x ^^^ mul11 x ^^^ mul13 (mul3 x) = 0 :=
      forall_byte (p := fun x => mul9 (mul2 x) ^^^ mul14 x ^^^ mul11 x ^^^ mul13 (mul3 x) = 0) (by decide +kernel)
    have h1 : ∀ x : Byte, mul9 (mul3 x) ^^^ mul14 (mul2 x) ^^^ mul11 x ^^^ mul13 x = x :=
      forall_byte (p := fun x => mul9 (mul3 x) ^^^ mul14 (mul2 x) ^^^ mul11 x ^^^ mul13 x = x) (by decide +kernel)
    have h2 : ∀ x : Byte, mul9 x ^^^ mul14 (mul3 x) ^^^ mul11 (mul2 x) ^^^ mul13 x = 0 :=
      forall_byte (p := fun x => mul9 x ^^^ mul14 (mul3 x) ^^^ mul11 (mul2 x) ^^^ mul13 x = 0) (by decide +kernel)
    have h3 : ∀ x : Byte, mul9 x ^^^ mul14 x ^^^ mul11 (mul3 x) ^^^ mul13 (mul2 x) = 0 :=
      forall_byte (p := fun x => mul9 x ^^^ mul14 x ^^^ mul11 (mul3 x) ^^^ mul13 (mul2 x) = 0) (by decide +kernel)
    rw [h0 a, h1 b, h2 c, h3 d]
    simp
  · rw [xor_transpose]
    have h0 : ∀ x : Byte, mul13 (mul2 x) ^^^ mul9 x ^^^ mul14 x ^^^ mul11 (mul3 x) = 0 :=
      forall_byte (p := fun x => mul13 (mul2 x) ^^^ mul9 x ^^^ mul14 x ^^^ mul11 (mul3 x) = 0) (by decide +kernel)
    have h1 : ∀ x : Byte, mul13 (mul3 x) ^^^ mul9 (mul2 x) ^^^ mul14 x ^^^ mul11 x = 0 :=
      forall_byte (p := fun x => mul13 (mul3 x) ^^^ mul9 (mul2 x) ^^^ mul14 x ^^^ mul11 x = 0) (by decide +kernel)
    have h2 : ∀ x : Byte, mul13 x ^^^ mul9 (mul3 x) ^^^ mul14 (mul2 x) ^^^ mul11 x = x :=
      forall_byte (p := fun x => mul13 x ^^^ mul9 (mul3 x) ^^^ mul14 (mul2 x) ^^^ mul11 x = x) (by decide +kernel)
    have h3 : ∀ x : Byte, mul13 x ^^^ mul9 x ^^^ mul14 (mul3 x) ^^^ mul11 (mul2 x) = 0 :=
      forall_byte (p := fun x => mul13 x ^^^ mul9 x ^^^ mul14 (mul3 x) ^^^ mul11 (mul2 x) = 0) (by decide +kernel)
    rw [h0 a, h1 b, h2 c, h3 d]
    simp
  · rw [xor_transpose]
    have h0 : ∀ x : Byte, mul11 (mul2 x) ^^^ mul13 x ^^^ mul9 x ^^^ mul14 (mul3 x) = 0 :=
      forall_byte (p := fun x => mul11 (mul2 x) ^^^ mul13 x ^^^ mul9 x ^^^ mul14 (mul3 x) = 0) (by decide +kernel)
    have h1 : ∀ x : Byte, mul11 (mul3 x) ^^^ mul13 (mul2 x) ^^^ mul9 x ^^^ mul14 x = 0 :=
      forall_byte (p := fun x => mul11 (mul3 x) ^^^ mul13 (mul2 x) ^^^ mul9 x ^^^ mul14 x = 0) (by decide +kernel)
    have h2 : ∀ x : Byte, mul11 x ^^^ mul13 (mul3 x) ^^^ mul9 (mul2 x) ^^^ mul14 x = 0 :=
      forall_byte (p := fun x => mul11 x ^^^ mul13 (mul3 x) ^^^ mul9 (mul2 x) ^^^ mul14 x = 0) (by decide +kernel)
    have h3 : ∀ x : Byte, mul11 x ^^^ mul13 x ^^^ mul9 (mul3 x) ^^^ mul14 (mul2 x) = x :=
      forall_byte (p := fun x => mul11 x ^^^ mul13 x ^^^ mul9 (mul3 x) ^^^ mul14 (mul2 x) = x) (by decide +kernel)
    rw [h0 a, h1 b, h2 c, h3 d]
    simp

theorem mixCol_invMixCol (p : Col) : mixCol (invMixCol p) = p := by
  obtain ⟨a, b, c, d⟩ := p
  simp only [mixCol, invMixCol, Col.mk.injEq, mul2_xor, mul3_xor]
  refine ⟨?_, ?_, ?_, ?_⟩
  · rw [xor_transpose]
    have h0 : ∀ x : Byte, mul2 (mul14 x) ^^^ mul3 (mul9 x) ^^^ mul13 x ^^^ mul11 x = x :=
      forall_byte (p := fun x => mul2 (mul14 x) ^^^ mul3 (mul9 x) ^^^ mul13 x ^^^ mul11 x = x) (by decide +kernel)
    have h1 : ∀ x : Byte, mul2 (mul11 x) ^^^ mul3 (mul14 x) ^^^ mul9 x ^^^ mul13 x = 0 :=
      forall_byte (p := fun x => mul2 (mul11 x) ^^^ mul3 (mul14 x) ^^^ mul9 x ^^^ mul13 x = 0) (by decide +kernel)
    have h2 : ∀ x : Byte, mul2 (mul13 x) ^^^ mul3 (mul11 x) ^^^ mul14 x ^^^ mul9 x = 0 :=
      forall_byte (p := fun x => mul2 (mul13 x) ^^^ mul3 (mul11 x) ^^^ mul14 x ^^^ mul9 x = 0) (by decide +kernel)
    have h3 : ∀ x : Byte, mul2 (mul9 x) ^^^ mul3 (mul13 x) ^^^ mul11 x ^^^ mul14 x = 0 :=
      forall_byte (p := fun x => mul2 (mul9 x) ^^^ mul3 (mul13 x) ^^^ mul11 x ^^^ mul14 x = 0) (by decide +kernel)
    rw [h0 a, h1 b, h2 c, h3 d]
    simp
  · rw [xor_transpose]
    have h0 : ∀ x : Byte, mul14 x ^^^ mul2 (mul9 x) ^^^ mul3 (mul13 x) ^^^ mul11 x = 0 :=
      forall_byte (p := fun x => mul14 x ^^^ mul2 (mul9 x) ^^^ mul3 (mul13 x) ^^^ mul11 x = 0) (by decide +kernel)
    have h1 : ∀ x : Byte, mul11 x ^^^ mul2 (mul14 x) ^^^ mul3 (mul9 x) ^^^ mul13 x = x :=
      forall_byte (p := fun x => mul11 x ^^^ mul2 (mul14 x) ^^^ mul3 (mul9 x) ^^^ mul13 x = x) (by decide +kernel)
    have h2 : ∀ x : Byte, mul13 x ^^^ mul2 (mul11 x) ^^^ mul3 (mul14 x) ^^^ mul9 x = 0 :=
      forall_byte (p := fun x => mul13 x ^^^ mul2 (mul11 x) ^^^ mul3 (mul14 x) ^^^ mul9 x = 0) (by decide +kernel)
    have h3 : ∀ x : Byte, mul9 x ^^^ mul2 (mul13 x) ^^^ mul3 (mul11 x) ^^^ mul14 x = 0 :=
      forall_byte (p := fun x => mul9 x ^^^ mul2 (mul13 x) ^^^ mul3 (mul11 x) ^^^ mul14 x = 0) (by decide +kernel)
    rw [h0 a, h1 b, h2 c, h3 d]
    simp
  · rw [xor_transpose]
    have h0 : ∀ x : Byte, mul14 x ^^^ mul9 x ^^^ mul2 (mul13 x) ^^^ mul3 (mul11 x) = 0 :=
      forall_byte (p := fun x => mul14 x ^^^ mul9 x ^^^ mul2 (mul13 x) ^^^ mul3 (mul11 x) = 0) (by decide +kernel)
    have h1 : ∀ x : Byte, mul11 x ^^^ mul14 x ^^^ mul2 (mul9 x) ^^^ mul3 (mul13 x) = 0 :=
      forall_byte (p := fun x => mul11 x ^^^ mul14 x ^^^ mul2 (mul9 x) ^^^ mul3 (mul13 x) = 0) (by decide +kernel)
    have h2 : ∀ x : Byte, mul13 x ^^^ mul11 x ^^^ mul2 (mul14 x) ^^^ mul3 (mul9 x) = x :=
      forall_byte (p := fun x => mul13 x ^^^ mul11 x ^^^ mul2 (mul14 x) ^^^ mul3 (mul9 x) = x) (by decide +kernel)
    have h3 : ∀ x : Byte, mul9 x ^^^ mul13 x ^^^ mul2 (mul11 x) ^^^ mul3 (mul14 x) = 0 :=
      forall_byte (p := fun x => mul9 x ^^^ mul13 x ^^^ mul2 (mul11 x) ^^^ mul3 (mul14 x) = 0) (by decide +kernel)
    rw [h0 a, h1 b, h2 c, h3 d]
    simp
  · rw [xor_transpose]
    have h0 : ∀ x : Byte, mul3 (mul14 x) ^^^ mul9 x ^^^ mul13 x ^^^ mul2 (mul11 x) = 0 :=
      forall_byte (p := fun x => mul3 (mul14 x) ^^^ mul9 x ^^^ mul13 x ^^^ mul2 (mul11 x) = 0) (by decide +kernel)
    have h1 : ∀ x : Byte, mul3 (mul11 x) ^^^ mul14 x ^^^ mul9 x ^^^ mul2 (mul13 x) = 0 :=
      forall_byte (p := fun x => mul3 (mul11 x) ^^^ mul14 x ^^^ mul9 x ^^^ mul2 (mul13 x) = 0) (by decide +kernel)
    have h2 : ∀ x : Byte, mul3 (mul13 x) ^^^ mul11 x ^^^ mul14 x ^^^ mul2 (mul9 x) = 0 :=
      forall_byte (p := fun x => mul3 (mul13 x) ^^^ mul11 x ^^^ mul14 x ^^^ mul2 (mul9 x) = 0) (by decide +kernel)
    have h3 : ∀ x : Byte, mul3 (mul9 x) ^^^ mul13 x ^^^ mul11 x ^^^ mul2 (mul14 x) = x :=
      forall_byte (p := fun x => mul3 (mul9 x) ^^^ mul13 x ^^^ mul11 x ^^^ mul2 (mul14 x) = x) (by decide +kernel)
    rw [h0 a, h1 b, h2 c, h3 d]
    simp

theorem invMix_mix (s : Blk) : invMix (mix s) = s := by simp [invMix, mix, invMixCol_mixCol]
theorem mix_invMix (s : Blk) : mix (invMix s) = s := by simp [invMix, mix, mixCol_invMixCol]

theorem invRounds_rounds (ks : List Blk) (s : Blk) : invRounds ks (rounds ks s) = s := by
  induction ks generalizing s with
  | nil => rfl
  | cons k ks ih =>
    cases ks with
    | nil => simp only [invRounds, rounds, Blk.xor_cancel, invShiftRows_shiftRows, map_inv invSbox_sbox]
    | cons k' ks =>
      simp only [rounds, invRounds] at ih ⊢
      rw [ih, Blk.xor_cancel, invMix_mix, invShiftRows_shiftRows, map_inv invSbox_sbox]

theorem rounds_invRounds (ks : List Blk) (s : Blk) : rounds ks (invRounds ks s) = s := by
  induction ks generalizing s with
  | nil => rfl
  | cons k ks ih =>
    cases ks with
    | nil => simp only [invRounds, rounds, Blk.xor_cancel, shiftRows_invShiftRows, map_inv sbox_invSbox]
    | cons k' ks =>
      simp only [rounds, invRounds] at ih ⊢
      rw [map_inv sbox_invSbox, shiftRows_invShiftRows, mix_invMix, Blk.xor_cancel, ih]

/-- Decryption inverts encryption. -/
theorem decrypt_encrypt (key s : Blk) : decrypt key (encrypt key s) = s := by
  simp [decrypt, encrypt, invRounds_rounds, Blk.xor_cancel]
/-- Encryption inverts decryption. -/
theorem encrypt_decrypt (key s : Blk) : encrypt key (decrypt key s) = s := by
  simp [decrypt, encrypt, rounds_invRounds, Blk.xor_cancel]

end Swrs.Aes
