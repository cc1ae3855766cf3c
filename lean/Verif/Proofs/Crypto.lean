import Verif.Model.Crypto
import Verif.Proofs.Aes
/-!
# Proofs about the encryption
-/
namespace Swrs.Crypto
open Aes

theorem blkBytes_length (b : Blk) : (blkBytes b).length = 16 := rfl

theorem toBlocks_blk (b : Blk) (r : Bytes) : toBlocks (blkBytes b ++ r) = b :: toBlocks r := by
  simp [blkBytes, toBlocks]

theorem toBlocks_ofBlocks (bs : List Blk) : toBlocks (ofBlocks bs) = bs := by
  induction bs with
  | nil => simp [ofBlocks, toBlocks]
  | cons b bs ih => rw [ofBlocks, toBlocks_blk, ih]

theorem ofBlocks_length (bs : List Blk) : (ofBlocks bs).length = 16 * bs.length := by
  induction bs with
  | nil => rfl
  | cons b bs ih => simp only [ofBlocks, List.length_append, blkBytes_length, ih, List.length_cons]; omega

theorem exists_blk {d : Bytes} (h : 16 ≤ d.length) : ∃ b r, d = blkBytes b ++ r := by
  match d, h with
  | a :: b :: c :: d :: e :: f :: g :: h :: i :: j :: k :: l :: m :: n :: o :: p :: r, _ =>
    exact ⟨⟨⟨a, b, c, d⟩, ⟨e, f, g, h⟩, ⟨i, j, k, l⟩, ⟨m, n, o, p⟩⟩, r, rfl⟩

/-- A byte string of a length divisible by 16 is a list of blocks. -/
theorem exists_blocks {d : Bytes} (h : d.length % 16 = 0) : ∃ bs, d = ofBlocks bs := by
  generalize hn : d.length / 16 = n
  induction n generalizing d with
  | zero =>
    have : d.length = 0 := by omega
    exact ⟨[], by rw [List.length_eq_zero_iff] at this; exact this⟩
  | succ n ih =>
    obtain ⟨b, r, rfl⟩ := exists_blk (d := d) (by omega)
    rw [List.length_append, blkBytes_length] at h hn
    obtain ⟨bs, rfl⟩ := ih (d := r) (by omega) (by omega)
    exact ⟨b :: bs, rfl⟩

theorem ofBlocks_toBlocks {d : Bytes} (h : d.length % 16 = 0) : ofBlocks (toBlocks d) = d := by
  obtain ⟨bs, rfl⟩ := exists_blocks h
  rw [toBlocks_ofBlocks]

theorem cbcDec_cbcEnc (iv : Blk) (bs : List Blk) : cbcDec iv (cbcEnc iv bs) = bs := by
  induction bs generalizing iv with
  | nil => rfl
  | cons b bs ih => simp only [cbcEnc, cbcDec, ih, decrypt_encrypt, Blk.xor_cancel]

theorem cbcEnc_cbcDec (iv : Blk) (cs : List Blk) : cbcEnc iv (cbcDec iv cs) = cs := by
  induction cs generalizing iv with
  | nil => rfl
  | cons c cs ih => simp only [cbcEnc, cbcDec, Blk.xor_cancel, encrypt_decrypt, ih]

theorem cbcEnc_length (iv : Blk) (bs : List Blk) : (cbcEnc iv bs).length = bs.length := by
  induction bs generalizing iv with
  | nil => rfl
  | cons b bs ih => simp [cbcEnc, ih]

theorem cbcDec_length (iv : Blk) (bs : List Blk) : (cbcDec iv bs).length = bs.length := by
  induction bs generalizing iv with
  | nil => rfl
  | cons b bs ih => simp [cbcDec, ih]

theorem pad_length (d : Bytes) : (pad d).length = 16 * (d.length / 16 + 1) := by
  simp only [pad, List.length_append, List.length_replicate]; omega

/-- What `unpad` accepts. -/
theorem unpad_eq_some {p d : Bytes} :
    unpad p = some d ↔ ∃ n : UInt8, n ≠ 0 ∧ p = d ++ List.replicate n.toNat n := by
  unfold unpad
  constructor
  · intro h
    split at h
    next => simp at h
    next n hn =>
      split at h
      next => simp at h
      next hc =>
        split at h
        next ha =>
          simp at h
          refine ⟨n, fun h0 => hc (.inl h0), ?_⟩
          have hl : ¬ p.length < n.toNat := fun h0 => hc (.inr h0)
          have : p.drop (p.length - n.toNat) = List.replicate n.toNat n := by
            rw [List.eq_replicate_iff]
            refine ⟨by simp; omega, ?_⟩
            intro b hb
            rw [List.all_eq_true] at ha
            simpa using ha b hb
          rw [← this, ← h, List.take_append_drop]
        next => simp at h
  · rintro ⟨n, hn, rfl⟩
    have hpos : 0 < n.toNat := by
      rcases Nat.eq_zero_or_pos n.toNat with h | h
      · exact absurd (UInt8.toNat_inj.mp (by simpa using h)) hn
      · exact h
    have hlast : (d ++ List.replicate n.toNat n).getLast? = some n := by
      rw [List.getLast?_append, List.getLast?_replicate, if_neg (by omega)]; rfl
    rw [hlast]
    have hc : ¬ (n = 0 ∨ (d ++ List.replicate n.toNat n).length < n.toNat) := by simp [hn]
    have hk : (d ++ List.replicate n.toNat n).length - n.toNat = d.length := by simp
    simp only [if_neg hc, hk, List.drop_left, List.take_left]
    rw [if_pos]
    simp

end Swrs.Crypto

namespace Swrs
open Crypto

/-- Exactly the accepted ciphertexts and their values. -/
theorem decryptSwEncrypted_eq_ok {c d : Bytes} :
    decryptSwEncrypted c = .ok d ↔ ∃ n : UInt8, n ≠ 0 ∧ (d.length + n.toNat) % 16 = 0 ∧
      c = ofBlocks (cbcEnc KEY (toBlocks (d ++ List.replicate n.toNat n))) := by
  unfold decryptSwEncrypted
  constructor
  · intro h
    split at h
    next => simp at h
    next hm =>
      have hm : c.length % 16 = 0 := by omega
      obtain ⟨cs, rfl⟩ := exists_blocks hm
      rw [toBlocks_ofBlocks, Out.ofOption_eq_ok, unpad_eq_some] at h
      obtain ⟨n, hn, hp⟩ := h
      have hl := congrArg List.length hp
      rw [ofBlocks_length, List.length_append, List.length_replicate] at hl
      refine ⟨n, hn, by omega, ?_⟩
      rw [← hp, toBlocks_ofBlocks, cbcEnc_cbcDec]
  · rintro ⟨n, hn, hm, rfl⟩
    rw [ofBlocks_length, if_neg (by omega), toBlocks_ofBlocks, cbcDec_cbcEnc, ofBlocks_toBlocks (by simp; omega),
      Out.ofOption_eq_ok, unpad_eq_some]
    exact ⟨n, hn, rfl⟩

theorem decrypt_encryptSw (d : Bytes) : decryptSwEncrypted (encryptSw d) = .ok d := by
  rw [decryptSwEncrypted_eq_ok]
  have hn : (UInt8.ofNat (16 - d.length % 16)).toNat = 16 - d.length % 16 := UInt8.toNat_ofNat_of_lt' (by simp [UInt8.size]; omega)
  refine ⟨UInt8.ofNat (16 - d.length % 16), ?_, ?_, ?_⟩
  · intro h
    rw [h] at hn
    simp at hn
    omega
  · rw [hn]; omega
  · rw [hn]; rfl

theorem encryptSw_length (d : Bytes) : (encryptSw d).length = 16 * (d.length / 16 + 1) := by
  unfold encryptSw
  have h := pad_length d
  obtain ⟨bs, hb⟩ := exists_blocks (d := pad d) (by omega)
  rw [hb, toBlocks_ofBlocks, ofBlocks_length, cbcEnc_length, ← ofBlocks_length, ← hb, h]

end Swrs
