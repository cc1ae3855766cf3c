import Verif.Proofs.AesSpec
import Verif.Proofs.Crypto
/-! # The model of AES and of CBC against FIPS 197 -/
namespace Swrs
namespace Fips197

theorem word_key {key : Fin 4 → Word} {i : Nat} (h : i < 4) : word key i = key ⟨i, h⟩ := by
  rw [word, dif_pos h]
theorem word_first {key : Fin 4 → Word} {i : Nat} (h : 4 ≤ i) (hm : i % 4 = 0) : word key i = fun r =>
    word key (i - 4) r ^^^ (sub (word key (i - 1) (r + 1)) ^^^ (if r = 0 then rcon (i / 4) else 0)) := by
  rw [word, dif_neg (by omega), if_pos hm]
theorem word_other {key : Fin 4 → Word} {i : Nat} (h : 4 ≤ i) (hm : i % 4 ≠ 0) : word key i = fun r =>
    word key (i - 4) r ^^^ word key (i - 1) r := by
  rw [word, dif_neg (by omega), if_neg hm]

theorem roundKey_zero (k : Aes.Blk) : roundKey (words k) 0 = words k := by
  funext c
  unfold roundKey
  rw [word_key (by omega)]
  congr 1
  apply Fin.ext; simp

/-- One step of the key schedule. -/
theorem roundKey_succ {key : Fin 4 → Word} {n : Nat} {k : Aes.Blk} (h : roundKey key n = words k) :
    roundKey key (n + 1) = words (Aes.nextKey (rcon (n + 1)) k) := by
  have hk : ∀ c : Fin 4, word key (4 * n + c.val) = words k c := fun c => congrFun h c
  have k0 := hk 0; have k1 := hk 1; have k2 := hk 2; have k3 := hk 3
  simp only [show (0 : Fin 4).val = 0 from rfl, show (1 : Fin 4).val = 1 from rfl, show (2 : Fin 4).val = 2 from rfl,
    show (3 : Fin 4).val = 3 from rfl] at k0 k1 k2 k3
  have w0 : word key (4 * (n + 1) + 0) = words (Aes.nextKey (rcon (n + 1)) k) 0 := by
    rw [word_first (by omega) (by omega), show 4 * (n + 1) + 0 - 4 = 4 * n + 0 by omega, show 4 * (n + 1) + 0 - 1 = 4 * n + 3 by omega,
      show (4 * (n + 1) + 0) / 4 = n + 1 by omega, k0, k3]
    funext r
    revert r
    refine forall_four ?_ ?_ ?_ ?_ <;> rw [sub_eq] <;> rfl
  have w1 : word key (4 * (n + 1) + 1) = words (Aes.nextKey (rcon (n + 1)) k) 1 := by
    rw [word_other (by omega) (by omega), show 4 * (n + 1) + 1 - 4 = 4 * n + 1 by omega,
      show 4 * (n + 1) + 1 - 1 = 4 * (n + 1) + 0 by omega, k1, w0]
    funext r
    revert r
    refine forall_four ?_ ?_ ?_ ?_ <;> rfl
  have w2 : word key (4 * (n + 1) + 2) = words (Aes.nextKey (rcon (n + 1)) k) 2 := by
    rw [word_other (by omega) (by omega), show 4 * (n + 1) + 2 - 4 = 4 * n + 2 by omega,
      show 4 * (n + 1) + 2 - 1 = 4 * (n + 1) + 1 by omega, k2, w1]
    funext r
    revert r
    refine forall_four ?_ ?_ ?_ ?_ <;> rfl
  have w3 : word key (4 * (n + 1) + 3) = words (Aes.nextKey (rcon (n + 1)) k) 3 := by
    rw [word_other (by omega) (by omega), show 4 * (n + 1) + 3 - 4 = 4 * n + 3 by omega,
      show 4 * (n + 1) + 3 - 1 = 4 * (n + 1) + 2 by omega, k3, w2]
    funext r
    revert r
    refine forall_four ?_ ?_ ?_ ?_ <;> rfl
  funext c
  revert c
  exact forall_four w0 w1 w2 w3

/-- Rounds of the model from a state of the specification. -/
theorem rounds_eq {key : Fin 4 → Word} {s : State} (m : Nat) : ∀ (n : Nat) (k b : Aes.Blk), roundKey key n = words k →
    after key s n = state b →
    state (Aes.rounds (Aes.expand ((List.range (m + 1)).map fun i => rcon (n + 1 + i)) k) b) =
      addKey (shiftRows (subBytes (after key s (n + m)))) (roundKey key (n + m + 1)) := by
  induction m with
  | zero =>
    intro n k b hk hb
    have hk' := roundKey_succ hk
    show state ((Aes.shiftRows (b.map Aes.sbox)).xor (Aes.nextKey (rcon (n + 1)) k)) = _
    rw [← addKey_eq, ← shiftRows_eq, ← subBytes_eq, ← hb, ← hk']
    rfl
  | succ m ih =>
    intro n k b hk hb
    have hk' := roundKey_succ hk
    have hb' : after key s (n + 1) = state ((Aes.mix (Aes.shiftRows (b.map Aes.sbox))).xor (Aes.nextKey (rcon (n + 1)) k)) := by
      rw [after, hb, subBytes_eq, shiftRows_eq, mixColumns_eq, hk', addKey_eq]
    have := ih (n + 1) _ _ hk' hb'
    rw [List.range_succ_eq_map, List.map_cons, List.map_map, Aes.expand]
    have he : ((List.range (m + 1)).map ((fun i => rcon (n + 1 + i)) ∘ Nat.succ)) =
        (List.range (m + 1)).map fun i => rcon (n + 1 + 1 + i) := by
      apply List.map_congr_left
      intro i _
      show rcon (n + 1 + (i + 1)) = _
      rw [show n + 1 + (i + 1) = n + 1 + 1 + i by omega]
    rw [he]
    have hne : ∃ k2 ks, Aes.expand ((List.range (m + 1)).map fun i => rcon (n + 1 + 1 + i)) (Aes.nextKey (rcon (n + 1 + 0)) k) = k2 :: ks := by
      rw [List.range_succ_eq_map, List.map_cons, Aes.expand]
      exact ⟨_, _, rfl⟩
    obtain ⟨k2, ks, hks⟩ := hne
    rw [hks, Aes.rounds, ← hks]
    · rw [show n + 1 + 0 = n + 1 by omega, this, show n + 1 + m = n + (m + 1) by omega]
    · simp

/-- The model of AES-128 is the cipher of FIPS 197. -/
theorem encrypt_eq (k b : Aes.Blk) : state (Aes.encrypt k b) = cipher (words k) (state b) := by
  have h0 : after (words k) (state b) 0 = state (b.xor k) := by
    rw [after, roundKey_zero, addKey_eq]
  have := rounds_eq (s := state b) 9 0 k (b.xor k) (roundKey_zero k) h0
  have hr : ((List.range (9 + 1)).map fun i => rcon (0 + 1 + i)) = Aes.rcons := by decide +kernel
  rw [hr] at this
  exact this

/-! ### CBC -/

/-- The bytes of a state, column by column — FIPS 197, 3.4. -/
def input (f : Nat → UInt8) : State := fun r c => f (r + 4 * c)

/-- Cipher block chaining: block `i` is the cipher of the plain block plus the previous one, the first of the plain block plus
the initialisation vector. `p` gives the plain bytes. -/
def cbc (key : Fin 4 → Word) (iv : State) (p : Nat → UInt8) : Nat → State
  | 0 => cipher key (fun r c => input p r c ^^^ iv r c)
  | i + 1 => cipher key (fun r c => input (fun j => p (16 * (i + 1) + j)) r c ^^^ cbc key iv p i r c)

open Crypto

theorem cbcEnc_zero {iv b : Aes.Blk} {bs : List Aes.Blk} (h : bs[0]? = some b) :
    (cbcEnc iv bs)[0]? = some (Aes.encrypt KEY (b.xor iv)) := by
  cases bs with
  | nil => simp at h
  | cons x xs => simp at h; subst h; rfl

theorem cbcEnc_succ {bs : List Aes.Blk} : ∀ {iv b c : Aes.Blk} {i : Nat}, (cbcEnc iv bs)[i]? = some c → bs[i + 1]? = some b →
    (cbcEnc iv bs)[i + 1]? = some (Aes.encrypt KEY (b.xor c)) := by
  induction bs with
  | nil => intro iv b c i h hb; simp at hb
  | cons x xs ih =>
    intro iv b c i h hb
    cases i with
    | zero =>
      simp [cbcEnc] at h; subst h
      simp at hb
      rw [cbcEnc, List.getElem?_cons_succ]
      exact cbcEnc_zero hb
    | succ i =>
      rw [cbcEnc, List.getElem?_cons_succ] at h ⊢
      rw [List.getElem?_cons_succ] at hb
      exact ih h hb

theorem xor_state (a b : Aes.Blk) : (fun r c => state a r c ^^^ state b r c) = state (a.xor b) := by
  refine state_ext (forall_four ?_ ?_ ?_ ?_) <;> refine forall_four ?_ ?_ ?_ ?_ <;> rfl

theorem cbcEnc_eq {iv : Aes.Blk} {bs : List Aes.Blk} {p : Nat → UInt8}
    (hp : ∀ i b, bs[i]? = some b → input (fun j => p (16 * i + j)) = state b) {i : Nat} (hi : i < bs.length) :
    ∃ c, (cbcEnc iv bs)[i]? = some c ∧ state c = cbc (words KEY) (state iv) p i := by
  induction i with
  | zero =>
    have hb : bs[0]? = some bs[0] := List.getElem?_eq_getElem hi
    refine ⟨_, cbcEnc_zero hb, ?_⟩
    have := hp 0 _ hb
    simp only [Nat.mul_zero, Nat.zero_add] at this
    rw [encrypt_eq, cbc, this, xor_state]
  | succ i ih =>
    obtain ⟨c, hc, he⟩ := ih (by omega)
    have hb : bs[i + 1]? = some bs[i + 1] := List.getElem?_eq_getElem hi
    refine ⟨_, cbcEnc_succ hc hb, ?_⟩
    rw [encrypt_eq, cbc, ← he, hp _ _ hb, xor_state]

theorem blkBytes_getElem (b : Aes.Blk) : ∀ r c : Fin 4, (blkBytes b)[r.val + 4 * c.val]? = some (state b r c) := by
  refine forall_four ?_ ?_ ?_ ?_ <;> refine forall_four ?_ ?_ ?_ ?_ <;> rfl

theorem ofBlocks_getElem {bs : List Aes.Blk} {i j : Nat} (hj : j < 16) {b : Aes.Blk} (h : bs[i]? = some b) :
    (ofBlocks bs)[16 * i + j]? = (blkBytes b)[j]? := by
  induction bs generalizing i with
  | nil => simp at h
  | cons x xs ih =>
    rw [ofBlocks]
    cases i with
    | zero =>
      simp at h; subst h
      rw [List.getElem?_append_left (by rw [blkBytes_length]; omega), Nat.mul_zero, Nat.zero_add]
    | succ i =>
      rw [List.getElem?_append_right (by rw [blkBytes_length]; omega), blkBytes_length,
        show 16 * (i + 1) + j - 16 = 16 * i + j by omega]
      exact ih (by simpa using h)

/-- The bytes of a list, as a function. -/
def bytes (d : List UInt8) : Nat → UInt8 := fun k => d.getD k 0

theorem input_ofBlocks {bs : List Aes.Blk} {i : Nat} {b : Aes.Blk} (h : bs[i]? = some b) :
    input (fun j => bytes (ofBlocks bs) (16 * i + j)) = state b := by
  refine state_ext fun r c => ?_
  have h1 := ofBlocks_getElem (j := r.val + 4 * c.val) (by omega) h
  rw [blkBytes_getElem] at h1
  simp only [input, bytes, List.getD_eq_getElem?_getD, h1, Option.getD_some]

/-- The bytes of the ciphertext of a list of blocks. -/
theorem cbcEnc_bytes (iv : Aes.Blk) {d : List UInt8} (hd : d.length % 16 = 0) {k : Nat} (hk : k < d.length) :
    (ofBlocks (cbcEnc iv (toBlocks d)))[k]? =
      some (cbc (words KEY) (state iv) (bytes d) (k / 16) (Fin.ofNat 4 k) (Fin.ofNat 4 (k / 4))) := by
  obtain ⟨bs, rfl⟩ := exists_blocks hd
  rw [toBlocks_ofBlocks]
  rw [ofBlocks_length] at hk
  obtain ⟨c, hc, he⟩ := cbcEnc_eq (iv := iv) (p := bytes (ofBlocks bs)) (fun i b h => input_ofBlocks h)
    (i := k / 16) (by omega)
  have h1 := ofBlocks_getElem (j := k % 16) (by omega) hc
  rw [show 16 * (k / 16) + k % 16 = k by omega] at h1
  rw [h1, ← he]
  have h2 := blkBytes_getElem c (Fin.ofNat 4 k) (Fin.ofNat 4 (k / 4))
  rw [← h2]
  congr 1
  simp only [Fin.val_ofNat]
  omega

end Fips197
end Swrs
