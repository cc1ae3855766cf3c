import Verif.Proofs.Damage
/-!
# C106 and C107: what a change of an encrypted file does, and what encrypted files show
-/
namespace Swrs
open Crypto

/-! ## C106 — Damage to an encrypted file -/

/-- C106: when bytes in block `i` of an encrypted file are changed, and this is none of the last two blocks, the file is still decrypted.
All bytes outside block `i` and the next one are right; the next block has the same bits changed; block `i` is wrong. -/
theorem c106_change (d c' : Bytes) (i : Nat) (hl : c'.length = (encryptSw d).length)
    (hs : ∀ k, k / 16 ≠ i → c'[k]? = (encryptSw d)[k]?) (hi : i + 1 < d.length / 16) :
    ∃ d', decryptSwEncrypted c' = .ok d' ∧ d'.length = d.length ∧
      (∀ k, k / 16 ≠ i → k / 16 ≠ i + 1 → d'[k]? = d[k]?) ∧
      (∀ j < 16, ∃ x x' y y', (encryptSw d)[16 * i + j]? = some x ∧ c'[16 * i + j]? = some x' ∧
        d[16 * (i + 1) + j]? = some y ∧ d'[16 * (i + 1) + j]? = some y' ∧ y' = y ^^^ (x ^^^ x')) ∧
      (c' ≠ encryptSw d → ∃ j < 16, d'[16 * i + j]? ≠ d[16 * i + j]?) := by
  obtain ⟨bs, hp, he, hb⟩ := exists_padded d
  rw [he] at hl hs ⊢
  obtain ⟨cs', rfl, hl', hs'⟩ := change_blocks hl hs
  have hbl : cs'.length = bs.length := by rw [hl', cbcEnc_length]
  have hdl := congrArg List.length hp
  rw [pad_length, ofBlocks_length] at hdl
  have hd16 : 16 * (d.length / 16) ≤ d.length := by omega
  have hpl : (ofBlocks (cbcDec KEY cs')).length = 16 * bs.length := by rw [ofBlocks_length, cbcDec_length, hbl]
  have hsame : ∀ k, k / 16 ≠ i → k / 16 ≠ i + 1 → (ofBlocks (cbcDec KEY cs'))[k]? = (pad d)[k]? := by
    intro k h1 h2
    rw [change_bytes hl' hs' h1 h2, cbcDec_cbcEnc, ← hp]
  let n : UInt8 := UInt8.ofNat (16 - d.length % 16)
  have hn : n.toNat = 16 - d.length % 16 := UInt8.toNat_ofNat_of_lt' (by simp [UInt8.size]; omega)
  have hn0 : n ≠ 0 := by
    intro h
    rw [h] at hn
    simp at hn
    omega
  have htail : (ofBlocks (cbcDec KEY cs')).drop d.length = List.replicate n.toNat n := by
    have : (pad d).drop d.length = List.replicate n.toNat n := by
      rw [hn]; simp only [pad, List.drop_left]; rfl
    rw [← this]
    apply List.ext_getElem?
    intro k
    rw [List.getElem?_drop, List.getElem?_drop]
    have : d.length / 16 ≤ (d.length + k) / 16 := Nat.div_le_div_right (by omega)
    exact hsame _ (by omega) (by omega)
  have hget : ∀ k, k < d.length → ((ofBlocks (cbcDec KEY cs')).take d.length)[k]? = (ofBlocks (cbcDec KEY cs'))[k]? := fun k hk => by
    rw [List.getElem?_take_of_lt hk]
  refine ⟨(ofBlocks (cbcDec KEY cs')).take d.length, decrypt_of_blocks hn0 (by rw [← htail, List.take_append_drop]), ?_, ?_, ?_, ?_⟩
  · rw [List.length_take, hpl]; omega
  · intro k h1 h2
    by_cases hk : k < d.length
    · rw [hget k hk, hsame k h1 h2, pad_getElem d hk]
    · rw [List.getElem?_eq_none (by rw [List.length_take]; omega), List.getElem?_eq_none (by omega)]
  · intro j hj
    have hci : i < (cbcEnc KEY bs).length := by rw [cbcEnc_length]; omega
    have hcn : i + 1 < (cbcEnc KEY bs).length := by rw [cbcEnc_length]; omega
    have e1 : (cbcEnc KEY bs)[i]? = some (cbcEnc KEY bs)[i] := List.getElem?_eq_getElem hci
    have e2 : (cbcEnc KEY bs)[i + 1]? = some (cbcEnc KEY bs)[i + 1] := List.getElem?_eq_getElem hcn
    have e3 : cs'[i]? = some (cs'[i]'(by omega)) := List.getElem?_eq_getElem (by omega)
    have e4 := (hs' (i + 1) (by omega)).trans e2
    have f1 := cbcDec_next (iv := KEY) e1 e2
    have f2 := cbcDec_next (iv := KEY) e3 e4
    rw [cbcDec_cbcEnc] at f1
    have g1 := Fips197.ofBlocks_getElem hj e1
    have g2 := Fips197.ofBlocks_getElem hj e3
    have g3 := Fips197.ofBlocks_getElem hj f1
    have g4 := Fips197.ofBlocks_getElem hj f2
    have hk : 16 * (i + 1) + j < d.length := by omega
    rw [← hp, pad_getElem d hk, blkBytes_xor] at g3
    rw [blkBytes_xor, ← hget _ hk] at g4
    generalize hx : (cbcEnc KEY bs)[i] = x at *
    generalize hy : cs'[i] = y at *
    generalize hz : Aes.decrypt KEY (cbcEnc KEY bs)[i + 1] = z at *
    have a1 : (blkBytes x)[j]? = some ((blkBytes x)[j]'(by rw [blkBytes_length]; omega)) := List.getElem?_eq_getElem _
    have a2 : (blkBytes y)[j]? = some ((blkBytes y)[j]'(by rw [blkBytes_length]; omega)) := List.getElem?_eq_getElem _
    have a3 : (blkBytes z)[j]? = some ((blkBytes z)[j]'(by rw [blkBytes_length]; omega)) := List.getElem?_eq_getElem _
    rw [List.getElem?_zipWith, a1, a3] at g3
    rw [List.getElem?_zipWith, a2, a3] at g4
    refine ⟨_, _, _, _, g1.trans a1, g2.trans a2, g3, g4, ?_⟩
    rw [← UInt8.xor_assoc, Aes.xor_cancel]
  · intro hne
    refine Classical.byContradiction fun hall => ?_
    apply hne
    have hall : ∀ j < 16, ((ofBlocks (cbcDec KEY cs')).take d.length)[16 * i + j]? = d[16 * i + j]? := by
      intro j hj
      refine Classical.byContradiction fun h => ?_
      exact hall ⟨j, hj, h⟩
    have hblk : (cbcDec KEY cs')[i]? = (cbcDec KEY (cbcEnc KEY bs))[i]? := by
      rw [block_getElem (by rw [cbcDec_length, cbcDec_length, hl'])]
      intro j hj
      have hk : 16 * i + j < d.length := by omega
      rw [← hget _ hk, hall j hj, cbcDec_cbcEnc, ← hp, pad_getElem d hk]
    have hci := (cbcDec_change hl' hs' KEY).2.mp hblk
    congr 1
    apply List.ext_getElem?
    intro k
    by_cases hk : k = i
    · rw [hk]; exact hci
    · exact hs' k hk

/-- C106: wherever the changed block is, if the file is still decrypted, the bytes outside this block and the next one are right. -/
theorem c106_elsewhere (d c' d' : Bytes) (i : Nat) (hl : c'.length = (encryptSw d).length)
    (hs : ∀ k, k / 16 ≠ i → c'[k]? = (encryptSw d)[k]?) (h : decryptSwEncrypted c' = .ok d') (k : Nat) (hk : k < d.length)
    (hk' : k < d'.length) (h1 : k / 16 ≠ i) (h2 : k / 16 ≠ i + 1) : d'[k]? = d[k]? := by
  obtain ⟨bs, hp, he, hb⟩ := exists_padded d
  rw [he] at hl hs
  obtain ⟨cs', rfl, hl', hs'⟩ := change_blocks hl hs
  obtain ⟨n, _, hd⟩ := decrypt_blocks h
  have := change_bytes hl' hs' h1 h2
  rw [cbcDec_cbcEnc, ← hp, pad_getElem d hk, hd, List.getElem?_append_left hk'] at this
  exact this

/-- C106: an encrypted file that has been cut off is not decrypted, or to a beginning of the text that is not the whole text. -/
theorem c106_cut (d d' : Bytes) (l : Nat) (hl : l < (encryptSw d).length) (h : decryptSwEncrypted ((encryptSw d).take l) = .ok d') :
    d' <+: d ∧ d'.length < d.length := by
  obtain ⟨bs, hp, he, hb⟩ := exists_padded d
  have hlen : (encryptSw d).length = 16 * (d.length / 16 + 1) := encryptSw_length d
  have h16 : l % 16 = 0 := by
    refine Classical.byContradiction fun hc => ?_
    rw [decryptSwEncrypted, if_pos (by rw [List.length_take]; omega)] at h
    cases h
  obtain ⟨m, rfl⟩ : ∃ m, l = 16 * m := ⟨l / 16, by omega⟩
  rw [he, ofBlocks_take, cbcEnc_take] at h
  obtain ⟨n, hn, hd⟩ := decrypt_blocks h
  rw [cbcDec_cbcEnc, ← ofBlocks_take, ← hp, pad_take d (by omega)] at hd
  have hpos : 0 < n.toNat := by
    rcases Nat.eq_zero_or_pos n.toNat with h | h
    · exact absurd (UInt8.toNat_inj.mp (by simpa using h)) hn
    · exact h
  have hlen' := congrArg List.length hd
  rw [List.length_take, List.length_append, List.length_replicate] at hlen'
  refine ⟨List.IsPrefix.trans ⟨_, hd.symm⟩ (List.take_prefix _ _), by omega⟩

/-- A text of four blocks in which one bit of the first encrypted block is changed. -/
example : ∃ d c' d' : Bytes, c'.length = (encryptSw d).length ∧ (∀ k, k / 16 ≠ 0 → c'[k]? = (encryptSw d)[k]?) ∧ 0 + 1 < d.length / 16 ∧
    c' ≠ encryptSw d ∧ decryptSwEncrypted c' = .ok d' ∧ d'.drop 16 = 1 :: List.replicate 47 0 := by
  let d : Bytes := List.replicate 64 0
  let c' : Bytes := (encryptSw d).modify 0 (· ^^^ 1)
  have hl : c'.length = (encryptSw d).length := by simp [c']
  have hs : ∀ k, k / 16 ≠ 0 → c'[k]? = (encryptSw d)[k]? := fun k hk => by
    simp only [c']
    rw [List.getElem?_modify]
    have : ¬ 0 = k := fun h => by subst h; simp at hk
    simp [this]
  obtain ⟨d', h, _⟩ := c106_change d c' 0 hl hs (by simp [d])
  exact ⟨d, c', _, hl, hs, by simp [d], by decide +kernel, h, by
    have : (match decryptSwEncrypted c' with | .ok x => x.drop 16 | _ => []) = 1 :: List.replicate 47 0 := by decide +kernel
    rw [h] at this
    exact this⟩

/-- A text whose first block ends in a byte 1: cut after that block, it is decrypted to the 15 bytes before. -/
example : 16 < (encryptSw (List.replicate 15 7 ++ [1, 9, 9])).length ∧
    decryptSwEncrypted ((encryptSw (List.replicate 15 7 ++ [1, 9, 9])).take 16) = .ok (List.replicate 15 7) := by decide +kernel

/-! ## C107 — What two encrypted files have in common -/

/-- C107: two encrypted files begin with the same `n` blocks exactly if the two texts begin with the same `16 n` bytes. -/
theorem c107_common (d d' : Bytes) (n : Nat) (h : 16 * n ≤ d.length) (h' : 16 * n ≤ d'.length) :
    (encryptSw d).take (16 * n) = (encryptSw d').take (16 * n) ↔ d.take (16 * n) = d'.take (16 * n) := by
  obtain ⟨bs, hp, he, _⟩ := exists_padded d
  obtain ⟨bs', hp', he', _⟩ := exists_padded d'
  rw [he, he', ofBlocks_take, ofBlocks_take, cbcEnc_take, cbcEnc_take, ← pad_take d h, ← pad_take d' h', hp, hp', ofBlocks_take,
    ofBlocks_take]
  constructor
  · intro e
    rw [cbcEnc_inj (ofBlocks_inj e)]
  · intro e
    rw [ofBlocks_inj e]

/-- C107: text that is added at the end leaves the encrypted blocks of the whole blocks before it unchanged. -/
theorem c107_append (d e : Bytes) : (encryptSw (d ++ e)).take (16 * (d.length / 16)) = (encryptSw d).take (16 * (d.length / 16)) := by
  rw [c107_common _ _ _ (by rw [List.length_append]; omega) (by omega)]
  rw [List.take_append_of_le_length (by omega)]

/-- Two texts that differ in their 17th byte only: the first encrypted block is the same, the second is not. -/
example : (encryptSw (List.replicate 16 7 ++ [1])).take 16 = (encryptSw (List.replicate 16 7 ++ [2])).take 16 ∧
    encryptSw (List.replicate 16 7 ++ [1]) ≠ encryptSw (List.replicate 16 7 ++ [2]) := by decide +kernel

end Swrs
