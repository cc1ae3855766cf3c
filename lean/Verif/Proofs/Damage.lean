import Verif.Proofs.Crypto
import Verif.Proofs.AesSpec2
/-!
# Lemmas about changes of encrypted data
-/
namespace Swrs.Crypto
open Aes

/-- The block before block `k`. -/
def before (iv : Blk) (cs : List Blk) : Nat → Option Blk
  | 0 => some iv
  | k + 1 => cs[k]?

theorem cbcDec_getElem (cs : List Blk) : ∀ (iv : Blk) (k : Nat), (cbcDec iv cs)[k]? =
    cs[k]?.bind fun c => (before iv cs k).map fun p => (Aes.decrypt KEY c).xor p := by
  induction cs with
  | nil => intro iv k; simp [cbcDec]
  | cons c cs ih =>
    intro iv k
    cases k with
    | zero => simp [cbcDec, before]
    | succ k =>
      rw [cbcDec, List.getElem?_cons_succ, ih, List.getElem?_cons_succ]
      cases k <;> simp [before]

theorem blkBytes_inj {a b : Blk} (h : blkBytes a = blkBytes b) : a = b := by
  have := congrArg toBlocks (congrArg (· ++ ([] : Bytes)) h)
  simp only [toBlocks_blk] at this
  exact (List.cons.inj this).1

theorem blkBytes_xor (a b : Blk) : blkBytes (a.xor b) = List.zipWith (· ^^^ ·) (blkBytes a) (blkBytes b) := rfl

/-- The bytes of a block, and the block. -/
theorem block_getElem {bs bs' : List Blk} {i : Nat} (hl : bs.length = bs'.length) :
    bs[i]? = bs'[i]? ↔ ∀ j < 16, (ofBlocks bs)[16 * i + j]? = (ofBlocks bs')[16 * i + j]? := by
  by_cases hi : i < bs.length
  · have h1 : bs[i]? = some bs[i] := List.getElem?_eq_getElem hi
    have h2 : bs'[i]? = some (bs'[i]'(by omega)) := List.getElem?_eq_getElem (by omega)
    constructor
    · intro h j hj
      rw [Fips197.ofBlocks_getElem hj h1, Fips197.ofBlocks_getElem hj (h ▸ h1)]
    · intro h
      rw [h1, h2]
      congr 1
      apply blkBytes_inj
      apply List.ext_getElem?
      intro j
      by_cases hj : j < 16
      · have := h j hj
        rwa [Fips197.ofBlocks_getElem hj h1, Fips197.ofBlocks_getElem hj h2] at this
      · rw [List.getElem?_eq_none (by rw [blkBytes_length]; omega), List.getElem?_eq_none (by rw [blkBytes_length]; omega)]
  · rw [List.getElem?_eq_none (by omega), List.getElem?_eq_none (by omega)]
    simp only [true_iff]
    intro j hj
    rw [List.getElem?_eq_none (by rw [ofBlocks_length]; omega), List.getElem?_eq_none (by rw [ofBlocks_length]; omega)]

theorem xor_right_inj {a b c : Blk} (h : a.xor c = b.xor c) : a = b := by
  have := congrArg (fun x : Blk => x.xor c) h
  simpa only [Blk.xor_cancel] using this

theorem decrypt_inj {a b : Blk} (h : Aes.decrypt KEY a = Aes.decrypt KEY b) : a = b := by
  rw [← Aes.encrypt_decrypt KEY a, h, Aes.encrypt_decrypt]

/-- What a change of one block changes. -/
theorem cbcDec_change {cs cs' : List Blk} {i : Nat} (hl : cs'.length = cs.length) (hs : ∀ k, k ≠ i → cs'[k]? = cs[k]?) (iv : Blk) :
    (∀ k, k ≠ i → k ≠ i + 1 → (cbcDec iv cs')[k]? = (cbcDec iv cs)[k]?) ∧
    ((cbcDec iv cs')[i]? = (cbcDec iv cs)[i]? ↔ cs'[i]? = cs[i]?) := by
  have hb : ∀ k, k ≠ i + 1 → before iv cs' k = before iv cs k := by
    intro k hk
    cases k with
    | zero => rfl
    | succ k => exact hs k (by omega)
  constructor
  · intro k h1 h2
    rw [cbcDec_getElem, cbcDec_getElem, hs k h1, hb k h2]
  · rw [cbcDec_getElem, cbcDec_getElem, hb i (by omega)]
    refine ⟨fun h => ?_, fun h => by rw [h]⟩
    by_cases hi : i < cs.length
    · have e1 : cs[i]? = some cs[i] := List.getElem?_eq_getElem hi
      have e2 : cs'[i]? = some (cs'[i]'(by omega)) := List.getElem?_eq_getElem (by omega)
      obtain ⟨p, hp⟩ : ∃ p, before iv cs i = some p := by
        cases i with
        | zero => exact ⟨_, rfl⟩
        | succ i => exact ⟨cs[i], List.getElem?_eq_getElem (by omega)⟩
      rw [e1, e2, hp] at h
      simp only [Option.bind_some, Option.map_some, Option.some.injEq] at h
      rw [e1, e2, decrypt_inj (xor_right_inj h)]
    · rw [List.getElem?_eq_none (by omega), List.getElem?_eq_none (by omega)]

/-- The changed bits come back in the next block. -/
theorem cbcDec_next {cs : List Blk} {i : Nat} {iv c n : Blk} (h1 : cs[i]? = some c) (h2 : cs[i + 1]? = some n) :
    (cbcDec iv cs)[i + 1]? = some ((Aes.decrypt KEY n).xor c) := by
  rw [cbcDec_getElem, h2]
  simp [before, h1]

end Swrs.Crypto

namespace Swrs.Crypto
open Aes

theorem ofBlocks_take (bs : List Blk) : ∀ n, (ofBlocks bs).take (16 * n) = ofBlocks (bs.take n) := by
  induction bs with
  | nil => intro n; simp [ofBlocks]
  | cons b bs ih =>
    intro n
    cases n with
    | zero => simp [ofBlocks]
    | succ n =>
      rw [ofBlocks, List.take_succ_cons, ofBlocks, List.take_append, blkBytes_length, show 16 * (n + 1) - 16 = 16 * n by omega, ih,
        List.take_of_length_le (by rw [blkBytes_length]; omega)]

theorem cbcEnc_take (bs : List Blk) : ∀ (iv : Blk) n, (cbcEnc iv bs).take n = cbcEnc iv (bs.take n) := by
  induction bs with
  | nil => intro iv n; simp [cbcEnc]
  | cons b bs ih =>
    intro iv n
    cases n with
    | zero => simp [cbcEnc]
    | succ n => simp [cbcEnc, ih]

theorem cbcEnc_inj {iv : Blk} {a b : List Blk} (h : cbcEnc iv a = cbcEnc iv b) : a = b := by
  rw [← cbcDec_cbcEnc iv a, h, cbcDec_cbcEnc]

theorem ofBlocks_inj {a b : List Blk} (h : ofBlocks a = ofBlocks b) : a = b := by
  rw [← toBlocks_ofBlocks a, h, toBlocks_ofBlocks]

/-- The blocks of a text. -/
theorem exists_padded (d : Bytes) : ∃ bs : List Blk, pad d = ofBlocks bs ∧ encryptSw d = ofBlocks (cbcEnc KEY bs) ∧
    bs.length = d.length / 16 + 1 := by
  obtain ⟨bs, hb⟩ := exists_blocks (d := pad d) (by rw [pad_length]; omega)
  refine ⟨bs, hb, by rw [encryptSw, hb, toBlocks_ofBlocks], ?_⟩
  have := congrArg List.length hb
  rw [pad_length, ofBlocks_length] at this
  omega

theorem pad_take (d : Bytes) {n : Nat} (h : n ≤ d.length) : (pad d).take n = d.take n := by
  simp only [pad]
  rw [List.take_append_of_le_length h]

theorem pad_getElem (d : Bytes) {k : Nat} (h : k < d.length) : (pad d)[k]? = d[k]? := by
  simp only [pad]
  rw [List.getElem?_append_left h]

theorem decrypt_blocks {cs : List Blk} {d : Bytes} (h : decryptSwEncrypted (ofBlocks cs) = .ok d) :
    ∃ n : UInt8, n ≠ 0 ∧ ofBlocks (cbcDec KEY cs) = d ++ List.replicate n.toNat n := by
  rw [decryptSwEncrypted, if_neg (by rw [ofBlocks_length]; omega), toBlocks_ofBlocks, Out.ofOption_eq_ok] at h
  exact unpad_eq_some.mp h

theorem decrypt_of_blocks {cs : List Blk} {d : Bytes} {n : UInt8} (hn : n ≠ 0)
    (h : ofBlocks (cbcDec KEY cs) = d ++ List.replicate n.toNat n) : decryptSwEncrypted (ofBlocks cs) = .ok d := by
  rw [decryptSwEncrypted, if_neg (by rw [ofBlocks_length]; omega), toBlocks_ofBlocks, Out.ofOption_eq_ok]
  exact unpad_eq_some.mpr ⟨n, hn, h⟩

/-- Changed bytes of one block, as blocks. -/
theorem change_blocks {cs : List Blk} {c' : Bytes} {i : Nat} (hl : c'.length = (ofBlocks cs).length)
    (hs : ∀ k, k / 16 ≠ i → c'[k]? = (ofBlocks cs)[k]?) :
    ∃ cs', c' = ofBlocks cs' ∧ cs'.length = cs.length ∧ ∀ k, k ≠ i → cs'[k]? = cs[k]? := by
  obtain ⟨cs', rfl⟩ := exists_blocks (d := c') (by rw [hl, ofBlocks_length]; omega)
  have hl' : cs'.length = cs.length := by rw [ofBlocks_length, ofBlocks_length] at hl; omega
  refine ⟨cs', rfl, hl', fun k hk => (block_getElem hl').mpr fun j hj => hs _ ?_⟩
  rw [Nat.mul_add_div (by omega), Nat.div_eq_of_lt hj]
  omega

/-- The decrypted bytes outside the changed block and the next one. -/
theorem change_bytes {cs cs' : List Blk} {i : Nat} (hl : cs'.length = cs.length) (hs : ∀ k, k ≠ i → cs'[k]? = cs[k]?) {k : Nat}
    (h1 : k / 16 ≠ i) (h2 : k / 16 ≠ i + 1) : (ofBlocks (cbcDec KEY cs'))[k]? = (ofBlocks (cbcDec KEY cs))[k]? := by
  have := (block_getElem (by rw [cbcDec_length, cbcDec_length, hl])).mp ((cbcDec_change hl hs KEY).1 (k / 16) h1 h2) (k % 16) (by omega)
  rwa [show 16 * (k / 16) + k % 16 = k by omega] at this

end Swrs.Crypto
