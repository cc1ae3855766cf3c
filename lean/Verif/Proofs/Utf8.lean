import Verif.Model.Utf8
/-!
# UTF-8 decoding inverts encoding, and conversely
-/
namespace Swrs

theorem toNat_ofNat8 {n : Nat} (h : n < 256) : (UInt8.ofNat n).toNat = n := UInt8.toNat_ofNat_of_lt' h

theorem char_ofNat_toNat (c : Char) : Char.ofNat c.toNat = c := Char.ofNat_toNat c

theorem toNat_ofNat {n : Nat} (h : n < 0xD800 ∨ (0xE000 ≤ n ∧ n < 0x110000)) : (Char.ofNat n).toNat = n := by
  have hv : n.isValidChar := by
    unfold Nat.isValidChar; omega
  rw [Char.ofNat, dif_pos hv]
  rfl

theorem char_toNat_valid (c : Char) : c.toNat < 0xD800 ∨ (0xE000 ≤ c.toNat ∧ c.toNat < 0x110000) := by
  have := c.valid
  simp only [UInt32.isValidChar, Nat.isValidChar] at this
  unfold Char.toNat
  omega

theorem inRange_iff {lo hi : Nat} {b : UInt8} : inRange lo hi b = true ↔ lo ≤ b.toNat ∧ b.toNat ≤ hi := by
  simp [inRange]

theorem fromUtf8_utf8Char (c : Char) (r : List UInt8) : fromUtf8 (utf8Char c ++ r) = (fromUtf8 r).map (c :: ·) := by
  have hc := char_toNat_valid c
  have hcc := char_ofNat_toNat c
  unfold utf8Char
  generalize c.toNat = n at hc hcc
  dsimp only
  split
  next h1 =>
    have e0 : (UInt8.ofNat n).toNat = n := toNat_ofNat8 (by omega)
    rw [List.cons_append, List.nil_append, fromUtf8.eq_def]
    dsimp only
    rw [if_pos (by simp only [inRange_iff, e0]; omega), e0, hcc]
  next h1 =>
    split
    next h2 =>
      have e0 : (UInt8.ofNat (0xC0 + n / 64)).toNat = 0xC0 + n / 64 := toNat_ofNat8 (by omega)
      have e1 : (UInt8.ofNat (0x80 + n % 64)).toNat = 0x80 + n % 64 := toNat_ofNat8 (by omega)
      rw [List.cons_append, List.cons_append, List.nil_append, fromUtf8.eq_def]
      dsimp only
      rw [if_neg (by simp only [inRange_iff, e0]; omega),
        if_pos (by simp only [Bool.and_eq_true, inRange_iff, e0, e1]; omega), e0, e1]
      have : (0xC0 + n / 64 - 0xC0) * 64 + (0x80 + n % 64 - 0x80) = n := by omega
      rw [this, hcc]
    next h2 =>
      split
      next h3 =>
        have e0 : (UInt8.ofNat (0xE0 + n / 4096)).toNat = 0xE0 + n / 4096 := toNat_ofNat8 (by omega)
        have e1 : (UInt8.ofNat (0x80 + n / 64 % 64)).toNat = 0x80 + n / 64 % 64 := toNat_ofNat8 (by omega)
        have e2 : (UInt8.ofNat (0x80 + n % 64)).toNat = 0x80 + n % 64 := toNat_ofNat8 (by omega)
        rw [List.cons_append, List.cons_append, List.cons_append, List.nil_append, fromUtf8.eq_def]
        dsimp only
        rw [if_neg (by simp only [inRange_iff, e0]; omega),
          if_neg (by simp only [Bool.and_eq_true, inRange_iff, e0, e1]; omega),
          if_pos (by simp only [Bool.and_eq_true, Bool.or_eq_true, inRange_iff, e0, e1, e2]; omega), e0, e1, e2]
        have : (0xE0 + n / 4096 - 0xE0) * 4096 + (0x80 + n / 64 % 64 - 0x80) * 64 + (0x80 + n % 64 - 0x80) = n := by omega
        rw [this, hcc]
      next h3 =>
        have e0 : (UInt8.ofNat (0xF0 + n / 262144)).toNat = 0xF0 + n / 262144 := toNat_ofNat8 (by omega)
        have e1 : (UInt8.ofNat (0x80 + n / 4096 % 64)).toNat = 0x80 + n / 4096 % 64 := toNat_ofNat8 (by omega)
        have e2 : (UInt8.ofNat (0x80 + n / 64 % 64)).toNat = 0x80 + n / 64 % 64 := toNat_ofNat8 (by omega)
        have e3 : (UInt8.ofNat (0x80 + n % 64)).toNat = 0x80 + n % 64 := toNat_ofNat8 (by omega)
        rw [List.cons_append, List.cons_append, List.cons_append, List.cons_append, List.nil_append, fromUtf8.eq_def]
        dsimp only
        rw [if_neg (by simp only [inRange_iff, e0]; omega),
          if_neg (by simp only [Bool.and_eq_true, inRange_iff, e0, e1]; omega),
          if_neg (by simp only [Bool.and_eq_true, Bool.or_eq_true, inRange_iff, e0, e1, e2]; omega),
          if_pos (by simp only [Bool.and_eq_true, Bool.or_eq_true, inRange_iff, e0, e1, e2, e3]; omega), e0, e1, e2, e3]
        have : (0xF0 + n / 262144 - 0xF0) * 262144 + (0x80 + n / 4096 % 64 - 0x80) * 4096 +
            (0x80 + n / 64 % 64 - 0x80) * 64 + (0x80 + n % 64 - 0x80) = n := by omega
        rw [this, hcc]

/-- Every text is read back from its UTF-8 form. -/
theorem fromUtf8_utf8 (s : Str) : fromUtf8 (utf8 s) = some s := by
  induction s with
  | nil => simp [utf8, fromUtf8]
  | cons c s ih => rw [utf8, fromUtf8_utf8Char, ih]; rfl

theorem ofNat_toNat8 {b : UInt8} {n : Nat} (h : n = b.toNat) : UInt8.ofNat n = b := by subst h; simp

/-- What is read is the text whose UTF-8 form it is. -/
theorem utf8_of_fromUtf8 {b : List UInt8} {s : Str} (h : fromUtf8 b = some s) : utf8 s = b := by
  generalize hl : b.length = l
  induction l using Nat.strongRecOn generalizing b s with
  | ind l ih =>
    subst hl
    rw [fromUtf8.eq_def] at h
    split at h
    next => simp at h; subst h; rfl
    next b0 r0 =>
      split at h
      next hb =>
        simp only [Option.map_eq_some_iff] at h
        obtain ⟨s', hs, rfl⟩ := h
        have hr := ih _ (by simp) hs rfl
        rw [inRange_iff] at hb
        have e := toNat_ofNat (n := b0.toNat) (by omega)
        simp only [utf8, utf8Char, e, hr]
        rw [if_pos (by omega)]
        simp
      next h1 =>
        rw [inRange_iff] at h1
        split at h
        next => simp at h
        next b1 r1 =>
          have l0 := b0.toNat_lt
          have l1 := b1.toNat_lt
          split at h
          next hb =>
            simp only [Option.map_eq_some_iff] at h
            obtain ⟨s', hs, rfl⟩ := h
            have hr := ih _ (by simp; omega) hs rfl
            simp only [Bool.and_eq_true, inRange_iff] at hb
            have e := toNat_ofNat (n := (b0.toNat - 0xC0) * 64 + (b1.toNat - 0x80)) (by omega)
            simp only [utf8, utf8Char, e, hr]
            rw [if_neg (by omega), if_pos (by omega), ofNat_toNat8 (b := b0) (by omega), ofNat_toNat8 (b := b1) (by omega)]
            simp
          next h2 =>
            split at h
            next => simp at h
            next b2 r2 =>
              have l2 := b2.toNat_lt
              split at h
              next hb =>
                simp only [Option.map_eq_some_iff] at h
                obtain ⟨s', hs, rfl⟩ := h
                have hr := ih _ (by simp; omega) hs rfl
                simp only [Bool.and_eq_true, Bool.or_eq_true, inRange_iff] at hb
                have e := toNat_ofNat
                  (n := (b0.toNat - 0xE0) * 4096 + (b1.toNat - 0x80) * 64 + (b2.toNat - 0x80)) (by omega)
                simp only [utf8, utf8Char, e, hr]
                rw [if_neg (by omega), if_neg (by omega), if_pos (by omega), ofNat_toNat8 (b := b0) (by omega),
                  ofNat_toNat8 (b := b1) (by omega), ofNat_toNat8 (b := b2) (by omega)]
                simp
              next h3 =>
                split at h
                next => simp at h
                next b3 r3 =>
                  have l3 := b3.toNat_lt
                  split at h
                  next hb =>
                    simp only [Option.map_eq_some_iff] at h
                    obtain ⟨s', hs, rfl⟩ := h
                    have hr := ih _ (by simp; omega) hs rfl
                    simp only [Bool.and_eq_true, Bool.or_eq_true, inRange_iff] at hb
                    have e := toNat_ofNat (n := (b0.toNat - 0xF0) * 262144 + (b1.toNat - 0x80) * 4096 +
                      (b2.toNat - 0x80) * 64 + (b3.toNat - 0x80)) (by omega)
                    simp only [utf8, utf8Char, e, hr]
                    rw [if_neg (by omega), if_neg (by omega), if_neg (by omega), ofNat_toNat8 (b := b0) (by omega),
                      ofNat_toNat8 (b := b1) (by omega), ofNat_toNat8 (b := b2) (by omega),
                      ofNat_toNat8 (b := b3) (by omega)]
                    simp
                  next => simp at h

/-- UTF-8 decoding is exactly the inverse of the encoding. -/
theorem fromUtf8_eq_some {b : List UInt8} {s : Str} : fromUtf8 b = some s ↔ b = utf8 s :=
  ⟨fun h => (utf8_of_fromUtf8 h).symm, fun h => h ▸ fromUtf8_utf8 s⟩

end Swrs
