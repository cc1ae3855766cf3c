import Verif.Proofs.AesSpec2
/-!
# C64: the cipher

The round trip (C01) does not fix the cipher. Here the encryption is shown to be AES-128 as FIPS 197 defines it (by the field
GF(2^8), `Verif.Proofs.AesSpec`) in cipher block chaining mode with PKCS #7 padding, the key and the initialisation vector
being the text "sketchwaresecure".
-/
namespace Swrs
open Fips197

/-! ## C64 — The cipher -/

/-- The bytes of the key. -/
def keyText : Nat → UInt8 := fun k => UInt8.ofNat ("sketchwaresecure".toList.getD k ' ').toNat

/-- The byte `k` of the ciphertext of the byte string `p`, whose length is a multiple of 16: byte `k % 16` of block `k / 16`. -/
def cipherByte (p : Bytes) (k : Nat) : UInt8 :=
  cbc (fun c r => keyText (r + 4 * c)) (input keyText) (bytes p) (k / 16) (Fin.ofNat 4 k) (Fin.ofNat 4 (k / 4))

theorem words_key : words Crypto.KEY = fun (c r : Fin 4) => keyText (r + 4 * c) := by
  refine state_ext (forall_four ?_ ?_ ?_ ?_) <;> refine forall_four ?_ ?_ ?_ ?_ <;> decide +kernel
theorem state_key : state Crypto.KEY = input keyText := by
  refine state_ext (forall_four ?_ ?_ ?_ ?_) <;> refine forall_four ?_ ?_ ?_ ?_ <;> decide +kernel

/-- C64: the plaintext is padded to the next multiple of 16 with the number of bytes added, and encrypted. -/
theorem c64_encrypt (d : Bytes) (k : Nat) (hk : k < (encryptSw d).length) :
    (encryptSw d)[k]? =
      some (cipherByte (d ++ List.replicate (16 - d.length % 16) (UInt8.ofNat (16 - d.length % 16))) k) := by
  rw [encryptSw_length] at hk
  have hl := Crypto.pad_length d
  have := cbcEnc_bytes Crypto.KEY (d := Crypto.pad d) (by omega) (k := k) (by omega)
  rw [words_key, state_key] at this
  exact this

/-- C64: there are as many bytes as in the padded plaintext. -/
theorem c64_length (d : Bytes) : (encryptSw d).length = (d ++ List.replicate (16 - d.length % 16) (UInt8.ofNat (16 - d.length % 16))).length := by
  rw [encryptSw_length, List.length_append, List.length_replicate]
  omega

/-- C64: exactly the ciphertexts of padded texts are decrypted, any number from 1 to 255 of padding bytes being accepted. -/
theorem c64_decrypt (c d : Bytes) : decryptSwEncrypted c = .ok d ↔
    ∃ n, 0 < n ∧ n < 256 ∧ c.length % 16 = 0 ∧ c.length = d.length + n ∧
      ∀ k < c.length, c[k]? = some (cipherByte (d ++ List.replicate n (UInt8.ofNat n)) k) := by
  have len : ∀ p : Bytes, p.length % 16 = 0 → (Crypto.ofBlocks (Crypto.cbcEnc Crypto.KEY (Crypto.toBlocks p))).length = p.length := by
    intro p hp
    obtain ⟨bs, rfl⟩ := Crypto.exists_blocks hp
    rw [Crypto.toBlocks_ofBlocks, Crypto.ofBlocks_length, Crypto.cbcEnc_length, Crypto.ofBlocks_length]
  rw [decryptSwEncrypted_eq_ok]
  constructor
  · rintro ⟨n, hn, hm, rfl⟩
    have hp : (d ++ List.replicate n.toNat n).length % 16 = 0 := by simpa using hm
    have hl := len _ hp
    refine ⟨n.toNat, ?_, n.toNat_lt, by omega, by simpa using hl, fun k hk => ?_⟩
    · rcases Nat.eq_zero_or_pos n.toNat with h | h
      · exact absurd (UInt8.toNat_inj.mp (by simpa using h)) hn
      · exact h
    · rw [hl] at hk
      have := cbcEnc_bytes Crypto.KEY hp hk
      rw [words_key, state_key] at this
      rw [this, UInt8.ofNat_toNat]
      rfl
  · rintro ⟨n, h0, h1, h2, h3, hk⟩
    have hn : (UInt8.ofNat n).toNat = n := UInt8.toNat_ofNat_of_lt' (by simpa [UInt8.size] using h1)
    refine ⟨UInt8.ofNat n, ?_, by rw [hn]; omega, ?_⟩
    · intro h; rw [h] at hn; simp at hn; omega
    · rw [hn]
      have hp : (d ++ List.replicate n (UInt8.ofNat n)).length % 16 = 0 := by simp; omega
      have hl := len _ hp
      apply List.ext_getElem?
      intro k
      by_cases hlt : k < c.length
      · rw [hk k hlt]
        have := cbcEnc_bytes Crypto.KEY hp (k := k) (by simp; omega)
        rw [words_key, state_key] at this
        exact this.symm
      · rw [List.getElem?_eq_none (by omega), List.getElem?_eq_none]
        rw [hl]; simp; omega

-- the ciphertext of a text of 20 bytes has a byte 31
example : 31 < (encryptSw (List.replicate 20 7)).length := by decide +kernel
-- inverses in the field
example : times 0x53 0xca = 1 ∧ inverse 0x53 = 0xca ∧ sub 0x53 = 0xed := by decide +kernel

-- FIPS 197, appendix B, by the specification
example : let key : Nat → UInt8 := fun k => [0x2b, 0x7e, 0x15, 0x16, 0x28, 0xae, 0xd2, 0xa6, 0xab, 0xf7, 0x15, 0x88, 0x09, 0xcf, 0x4f, 0x3c].getD k 0
    let plain : Nat → UInt8 := fun k => [0x32, 0x43, 0xf6, 0xa8, 0x88, 0x5a, 0x30, 0x8d, 0x31, 0x31, 0x98, 0xa2, 0xe0, 0x37, 0x07, 0x34].getD k 0
    subBytes (after (fun c r => key (r + 4 * c)) (input plain) 0) 0 0 = 0xd4 ∧ word (fun c r => key (r + 4 * c)) 4 0 = 0xa0 := by
  decide +kernel

end Swrs
