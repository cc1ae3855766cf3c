import Verif.Proofs.EncryptFile
import Verif.Proofs.Utf8
import Verif.Model.Raw
/-!
# C01–C07: encryption
-/
namespace Swrs
open EncryptFile (Pc Reaches)

/-! ## C01 — Encrypt then decrypt is the identity -/

/-- C01. -/
theorem c01_decrypt_encrypt (d : Bytes) : decryptSwEncrypted (encryptSw d) = .ok d := decrypt_encryptSw d

-- the empty text and a text of 17 bytes
example : (encryptSw []).length = 16 ∧ decryptSwEncrypted (encryptSw []) = .ok [] ∧
    (encryptSw (List.replicate 17 7)).length = 32 := by decide +kernel

/-! ## C02 — Ciphertext length -/

/-- C02. -/
theorem c02_length (d : Bytes) :
    (encryptSw d).length = 16 * (d.length / 16 + 1) ∧ 16 ∣ (encryptSw d).length ∧ 0 < (encryptSw d).length ∧
      d.length < (encryptSw d).length := by
  have h := encryptSw_length d
  refine ⟨h, ⟨_, h⟩, ?_, ?_⟩ <;> omega

example : (encryptSw (List.replicate 16 0)).length = 32 := by decide +kernel

/-! ## C03 — Decryption is total -/

/-- C03: decryption returns bytes or a decryption error and never panics. -/
theorem c03_total (c : Bytes) : (∃ d, decryptSwEncrypted c = .ok d) ∨ decryptSwEncrypted c = .err .decryption := by
  cases h : decryptSwEncrypted c with
  | ok d => exact .inl ⟨d, rfl⟩
  | err e =>
    unfold decryptSwEncrypted at h
    split at h
    · simp at h; subst h; exact .inr rfl
    · cases hu : Crypto.unpad (Crypto.ofBlocks (Crypto.cbcDec Crypto.KEY (Crypto.toBlocks c))) with
      | none => rw [hu] at h; simp at h; subst h; exact .inr rfl
      | some d => rw [hu] at h; simp at h
  | panic =>
    unfold decryptSwEncrypted at h
    split at h
    · simp at h
    · exact absurd h (by simp)

/-- C03: an empty input or one whose length is not a multiple of 16 is an error. -/
theorem c03_bad_length (c : Bytes) (h : c = [] ∨ ¬ 16 ∣ c.length) : decryptSwEncrypted c = .err .decryption := by
  rcases h with rfl | h
  · decide +kernel
  · unfold decryptSwEncrypted
    rw [if_pos]
    intro h0
    exact h (Nat.dvd_of_mod_eq_zero h0)

-- three bytes are no cipher text
example : decryptSwEncrypted [1, 2, 3] = .err .decryption := c03_bad_length [1, 2, 3] (.inr (by decide))

/-- C03: a success removes between 1 and 255 bytes. -/
theorem c03_shorter (c d : Bytes) (h : decryptSwEncrypted c = .ok d) :
    d.length < c.length ∧ c.length ≤ d.length + 255 := by
  rw [decryptSwEncrypted_eq_ok] at h
  obtain ⟨n, hn, hm, rfl⟩ := h
  have hpos : 0 < n.toNat := by
    rcases Nat.eq_zero_or_pos n.toNat with h | h
    · exact absurd (UInt8.toNat_inj.mp (by simpa using h)) hn
    · exact h
  have hlt := n.toNat_lt
  obtain ⟨bs, hb⟩ := Crypto.exists_blocks (d := d ++ List.replicate n.toNat n) (by simp; omega)
  have hl := congrArg List.length hb
  rw [Crypto.ofBlocks_length, List.length_append, List.length_replicate] at hl
  rw [hb, Crypto.toBlocks_ofBlocks, Crypto.ofBlocks_length, Crypto.cbcEnc_length]
  omega

-- more than one block of padding is accepted
example : (decryptSwEncrypted (Crypto.ofBlocks (Crypto.cbcEnc Crypto.KEY (Crypto.toBlocks (List.replicate 32 32))))) = .ok [] := by
  decide +kernel
-- a length that is no multiple of 16, and a block with a wrong padding
example : decryptSwEncrypted [1, 2, 3] = .err .decryption ∧ decryptSwEncrypted (List.replicate 16 0) = .err .decryption := by
  decide +kernel

/-! ## C04 — Encryption loses no information -/

/-- C04. -/
theorem c04_injective (d d' : Bytes) (h : encryptSw d = encryptSw d') : d = d' := by
  have h1 := c01_decrypt_encrypt d
  rw [h, c01_decrypt_encrypt] at h1
  simpa using h1.symm

example : encryptSw [1] ≠ encryptSw [1, 1] := by decide +kernel

/-! ## C05 — Encrypting a file -/

variable {P : Type} [DecidableEq P]

/-- C05: after a successful `encrypt_sw_file_to_file(file, out)` the target (`out`, or the file itself) decrypts to the bytes
the file had, and no other file has changed. -/
theorem c05_encrypt_file (file : P) (out : Option P) (fs fs' : Fs P) (h : Reaches file out fs fs' (.done (.ok ()))) :
    ∃ d, fs file = some d ∧ decryptSwFile fs' (fun _ => false) (out.getD file) = .ok d ∧
      ∀ q, q ≠ out.getD file → fs' q = fs q := by
  have := EncryptFile.inv_reaches h
  simp only [EncryptFile.Inv] at this
  rcases this with ⟨_, d, h1, rfl⟩ | ⟨h0, _⟩
  · refine ⟨d, h1, ?_, fun q hq => EncryptFile.set_other _ _ hq⟩
    simp [decryptSwFile, fsRead, EncryptFile.set_same, c01_decrypt_encrypt]
  · simp at h0

-- a file of two bytes is encrypted into another one
example : ∃ fs', Reaches (P := Nat) 0 (some 1) (fun p => if p = 0 then some [1, 2] else none) fs' (.done (.ok ())) ∧
    decryptSwFile fs' (fun _ => false) 1 = .ok [1, 2] := by
  obtain ⟨fs', h⟩ : ∃ fs', Reaches (P := Nat) 0 (some 1) (fun p => if p = 0 then some [1, 2] else none) fs' (.done (.ok ())) :=
    ⟨_, EncryptFile.reaches_done rfl⟩
  obtain ⟨d, h1, h2, _⟩ := c05_encrypt_file 0 (some 1) _ fs' h
  cases h1
  exact ⟨fs', h, h2⟩

/-- C05: a file that does not exist gives an IO error and no file changes. -/
theorem c05_unreadable (file : P) (out : Option P) (fs fs' : Fs P) (pc : Pc) (hf : fs file = none)
    (h : Reaches file out fs fs' pc) : fs' = fs ∧ ∀ r, pc = .done r → r = .err .io := by
  have := EncryptFile.inv_reaches h
  cases pc with
  | start => exact ⟨this, by simp⟩
  | write c => obtain ⟨_, d, h1, _⟩ := this; rw [hf] at h1; simp at h1
  | writing r => obtain ⟨d, _, h1, _⟩ := this; rw [hf] at h1; simp at h1
  | done r =>
    simp only [EncryptFile.Inv, hf] at this
    rcases this with ⟨_, d, h1, _⟩ | ⟨h0, h1 | ⟨d, _, h1, _⟩⟩
    · simp at h1
    · exact ⟨h1, fun r' hr => by simp at hr; subst hr; exact h0⟩
    · simp at h1

/-- C05: it returns `Ok` or an IO error and never panics; on an error nothing outside the target has changed. -/
theorem c05_outcomes (file : P) (out : Option P) (fs fs' : Fs P) (r : Out CryptoError Unit)
    (h : Reaches file out fs fs' (.done r)) :
    (r = .ok () ∨ r = .err .io) ∧ ∀ q, q ≠ out.getD file → fs' q = fs q := by
  have := EncryptFile.inv_reaches h
  simp only [EncryptFile.Inv] at this
  rcases this with ⟨h0, d, h1, rfl⟩ | ⟨h0, rfl | ⟨d, w, h1, h2, rfl⟩⟩
  · exact ⟨.inl h0, fun q hq => EncryptFile.set_other _ _ hq⟩
  · exact ⟨.inr h0, fun _ _ => rfl⟩
  · exact ⟨.inr h0, fun q hq => EncryptFile.set_other _ _ hq⟩

omit [DecidableEq P] in
/-- C05: `encrypt_sw_file` returns the ciphertext of the file, from which the file is recovered. -/
theorem c05_encrypt_sw_file (fs : Fs P) (fails : P → Bool) (file : P) (c : Bytes) :
    encryptSwFile fs fails file = .ok c → ∃ d, fs file = some d ∧ c = encryptSw d ∧ decryptSwEncrypted c = .ok d := by
  intro h
  unfold encryptSwFile fsRead at h
  split at h
  · simp at h
  · cases hf : fs file with
    | none => rw [hf] at h; simp at h
    | some d =>
      rw [hf] at h; simp at h; subst h
      exact ⟨d, rfl, rfl, c01_decrypt_encrypt d⟩

omit [DecidableEq P] in
/-- C05: `decrypt_sw_file` and `encrypt_sw_file` give an IO error exactly if the file does not exist or cannot be read, and otherwise
what the contents of the file decrypt and encrypt to. -/
theorem c05_files (fs : Fs P) (fails : P → Bool) (file : P) :
    ((fails file = true ∨ fs file = none) → decryptSwFile fs fails file = .err .io ∧ encryptSwFile fs fails file = .err .io) ∧
    (∀ d, fails file = false → fs file = some d →
      decryptSwFile fs fails file = decryptSwEncrypted d ∧ encryptSwFile fs fails file = .ok (encryptSw d)) := by
  refine ⟨?_, fun d h1 h2 => by simp [decryptSwFile, encryptSwFile, fsRead, h1, h2]⟩
  rintro (h | h)
  · simp [decryptSwFile, encryptSwFile, fsRead, h]
  · cases hf : fails file <;> simp [decryptSwFile, encryptSwFile, fsRead, h, hf]

-- a run that succeeds exists for every existing file
example : ∃ fs', Reaches (P := Nat) 0 (some 1) (fun p => if p = 0 then some [1, 2] else none) fs' (.done (.ok ())) :=
  ⟨_, EncryptFile.reaches_done rfl⟩
example : (fun _ => none : Fs Nat) 0 = none := rfl

/-! ## C06 — Crashes -/

/-- The bytes `d` of the source can be recovered from the source or the target: as plaintext or as complete ciphertext. -/
def Recoverable (file target : P) (d : Bytes) (fs : Fs P) : Prop :=
  ∃ p, (p = file ∨ p = target) ∧ ∃ b, fs p = some b ∧ (b = d ∨ decryptSwEncrypted b = .ok d)

/-- C06 is false: encrypting in place truncates the file before writing. -/
theorem c06_crash_false : ¬ ∀ (file : Nat) (out : Option Nat) (fs fs' : Fs Nat) (pc : Pc) (d : Bytes), fs file = some d →
    Reaches file out fs fs' pc → Recoverable file (out.getD file) d fs' := by
  intro h
  let fs : Fs Nat := fun _ => some [1, 2, 3]
  have hd : fs 0 = some [1, 2, 3] := rfl
  obtain ⟨p, hp, b, hb, h1⟩ := h 0 none fs (fs.set 0 []) (.writing (encryptSw [1, 2, 3])) _ hd
    (EncryptFile.reaches_prefix (out := none) (d := [1, 2, 3]) hd rfl)
  have hp : p = 0 := by rcases hp with h | h <;> simpa using h
  subst hp
  simp [Fs.set] at hb
  subst hb
  rcases h1 with h1 | h1
  · simp at h1
  · revert h1; decide +kernel

/-- C06, the part that holds: with a target different from the source, the source is untouched at every point. -/
theorem c06_crash_partial (file target : P) (hne : target ≠ file) (fs fs' : Fs P) (pc : Pc)
    (h : Reaches file (some target) fs fs' pc) : fs' file = fs file ∧ ∀ d, fs file = some d → Recoverable file target d fs' := by
  have key : fs' file = fs file := by
    have := EncryptFile.inv_reaches h
    cases pc with
    | start => rw [this]
    | write c => rw [this.1]
    | writing r => obtain ⟨d, w, _, _, rfl⟩ := this; exact EncryptFile.set_other _ _ hne.symm
    | done r =>
      simp only [EncryptFile.Inv] at this
      rcases this with ⟨h0, d, h1, rfl⟩ | ⟨h0, rfl | ⟨d, w, h1, h2, rfl⟩⟩
      · exact EncryptFile.set_other _ _ hne.symm
      · rfl
      · exact EncryptFile.set_other _ _ hne.symm
  exact ⟨key, fun d hd => ⟨file, .inl rfl, d, key ▸ hd, .inl rfl⟩⟩

/-- C06, in place: the states a crash can leave are exactly the original and the prefixes of the ciphertext. -/
theorem c06_in_place_partial (file : P) (fs fs' : Fs P) (d : Bytes) (hd : fs file = some d) :
    (∃ pc, Reaches file none fs fs' pc) ↔ fs' = fs ∨ ∃ w, w <+: encryptSw d ∧ fs' = fs.set file w := by
  constructor
  · rintro ⟨pc, h⟩
    have := EncryptFile.inv_reaches h
    cases pc with
    | start => exact .inl this
    | write c => exact .inl this.1
    | writing r =>
      obtain ⟨d', w, h1, h2, h3⟩ := this
      rw [hd] at h1; simp at h1; subst h1
      exact .inr ⟨w, ⟨r, h2.symm⟩, h3⟩
    | done r =>
      simp only [EncryptFile.Inv] at this
      rcases this with ⟨h0, d', h1, h3⟩ | ⟨h0, h3 | ⟨d', w, h1, h2, h3⟩⟩
      · rw [hd] at h1; simp at h1; subst h1
        exact .inr ⟨_, List.prefix_rfl, h3⟩
      · exact .inl h3
      · rw [hd] at h1; simp at h1; subst h1
        exact .inr ⟨w, h2, h3⟩
  · rintro (rfl | ⟨w, ⟨r, hw⟩, rfl⟩)
    · exact ⟨.start, .refl _⟩
    · exact ⟨.writing r, EncryptFile.reaches_prefix (out := none) hd hw.symm⟩

example : (1 : Nat) ≠ 0 := by decide

/-! ## C07 — Loading an encrypted project -/

/-- The text an encrypted file stands for: its decryption read as UTF-8. -/
def IsTextOf (c : Bytes) (t : Str) : Prop := decryptSwEncrypted c = .ok (utf8 t)

/-- The error of a file that has no text: it does not decrypt, or it is not UTF-8. -/
def ErrorOf (c : Bytes) (e : CryptoError) : Prop :=
  (decryptSwEncrypted c = .err .decryption ∧ e = .decryption) ∨
  (∃ b, decryptSwEncrypted c = .ok b ∧ (∀ t, b ≠ utf8 t) ∧ e = .fromUtf8)

theorem decryptText_ok {c : Bytes} {t : Str} : RawSketchwareProject.decryptText c = .ok t ↔ IsTextOf c t := by
  unfold RawSketchwareProject.decryptText IsTextOf
  rw [Out.bind_eq_ok]
  constructor
  · rintro ⟨b, h1, h2⟩
    rw [Out.ofOption_eq_ok, fromUtf8_eq_some] at h2
    rw [h1, h2]
  · intro h
    exact ⟨_, h, by rw [Out.ofOption_eq_ok, fromUtf8_eq_some]⟩

theorem decryptText_err {c : Bytes} {e : CryptoError} : RawSketchwareProject.decryptText c = .err e ↔ ErrorOf c e := by
  unfold RawSketchwareProject.decryptText ErrorOf
  rcases c03_total c with ⟨b, h⟩ | h
  · rw [h]
    simp only [Out.ok_bind]
    cases hu : fromUtf8 b with
    | some t =>
      rw [fromUtf8_eq_some] at hu
      subst hu
      simp only [Out.ofOption_some, reduceCtorEq, false_iff]
      rintro (⟨h1, _⟩ | ⟨b', h1, h2, _⟩)
      · simp at h1
      · simp at h1; exact h2 t h1.symm
    | none =>
      have : ∀ t, b ≠ utf8 t := fun t ht => by rw [fromUtf8_eq_some.mpr ht] at hu; simp at hu
      simp only [Out.ofOption_none, Out.err.injEq]
      constructor
      · intro h; exact .inr ⟨b, rfl, this, h.symm⟩
      · rintro (⟨h1, _⟩ | ⟨b', h1, _, h2⟩)
        · simp at h1
        · exact h2.symm
  · rw [h]
    simp only [Out.err_bind, Out.err.injEq]
    constructor
    · intro h1; exact .inl ⟨trivial, h1.symm⟩
    · rintro (⟨_, h1⟩ | ⟨b', h1, _⟩)
      · exact h1.symm
      · simp at h1

theorem decryptText_cases (c : Bytes) : (∃ t, RawSketchwareProject.decryptText c = .ok t ∧ IsTextOf c t) ∨
    (∃ e, RawSketchwareProject.decryptText c = .err e ∧ ErrorOf c e) := by
  cases h : RawSketchwareProject.decryptText c with
  | ok t => exact .inl ⟨t, rfl, decryptText_ok.mp h⟩
  | err e => exact .inr ⟨e, rfl, decryptText_err.mp h⟩
  | panic =>
    exfalso
    unfold RawSketchwareProject.decryptText at h
    rcases c03_total c with ⟨b, h1⟩ | h1
    · rw [h1] at h; simp at h
    · rw [h1] at h; simp at h

theorem IsTextOf.not_error {c : Bytes} {t : Str} {e : CryptoError} (h : IsTextOf c t) (h' : ErrorOf c e) : False := by
  have := decryptText_ok.mpr h
  rw [decryptText_err.mpr h'] at this
  simp at this

/-- C07: the project has exactly the six texts and the resource list given. -/
theorem c07_loads (p f l r v g : Bytes) (ws : List ResourceFileWrapper) (raw : RawSketchwareProject) :
    (RawSketchwareProject.fromEncrypted p f l r v g ws = .ok raw ↔ IsTextOf p raw.project ∧ IsTextOf f raw.file ∧
      IsTextOf l raw.library ∧ IsTextOf r raw.resource ∧ IsTextOf v raw.view ∧ IsTextOf g raw.logic ∧
      raw.resourceFiles = some ws) ∧
    (RawSketchwareProject.fromEncryptedWoRes p f l r v g = .ok raw ↔ IsTextOf p raw.project ∧ IsTextOf f raw.file ∧
      IsTextOf l raw.library ∧ IsTextOf r raw.resource ∧ IsTextOf v raw.view ∧ IsTextOf g raw.logic ∧
      raw.resourceFiles = none) := by
  constructor <;>
  · simp only [RawSketchwareProject.fromEncrypted, RawSketchwareProject.fromEncryptedWoRes, Out.bind_eq_ok, decryptText_ok, Out.pure_eq, Out.ok.injEq]
    constructor
    · rintro ⟨_, h1, _, h2, _, h3, _, h4, _, h5, _, h6, rfl⟩
      exact ⟨h1, h2, h3, h4, h5, h6, rfl⟩
    · rintro ⟨h1, h2, h3, h4, h5, h6, h7⟩
      refine ⟨_, h1, _, h2, _, h3, _, h4, _, h5, _, h6, ?_⟩
      rw [← h7]

/-- C07: six encrypted texts are loaded as they are. -/
theorem c07_round_trip (p f l r v g : Str) (ws : List ResourceFileWrapper) :
    RawSketchwareProject.fromEncrypted (encryptSw (utf8 p)) (encryptSw (utf8 f)) (encryptSw (utf8 l)) (encryptSw (utf8 r))
      (encryptSw (utf8 v)) (encryptSw (utf8 g)) ws = .ok ⟨p, f, l, r, v, g, some ws⟩ ∧
    RawSketchwareProject.fromEncryptedWoRes (encryptSw (utf8 p)) (encryptSw (utf8 f)) (encryptSw (utf8 l)) (encryptSw (utf8 r))
      (encryptSw (utf8 v)) (encryptSw (utf8 g)) = .ok ⟨p, f, l, r, v, g, none⟩ := by
  have h : ∀ t, IsTextOf (encryptSw (utf8 t)) t := fun t => c01_decrypt_encrypt _
  exact ⟨(c07_loads _ _ _ _ _ _ ws _).1.mpr ⟨h _, h _, h _, h _, h _, h _, rfl⟩,
    (c07_loads _ _ _ _ _ _ ws _).2.mpr ⟨h _, h _, h _, h _, h _, h _, rfl⟩⟩

/-- The first error in a list of files. -/
def FirstError (cs : List Bytes) (e : CryptoError) : Prop :=
  ∃ pre c post, cs = pre ++ c :: post ∧ (∀ x ∈ pre, ∃ t, IsTextOf x t) ∧ ErrorOf c e

theorem firstError_cons {c : Bytes} {cs : List Bytes} {e : CryptoError} :
    FirstError (c :: cs) e ↔ ErrorOf c e ∨ ((∃ t, IsTextOf c t) ∧ FirstError cs e) := by
  constructor
  · rintro ⟨pre, x, post, h, h1, h2⟩
    cases pre with
    | nil => simp at h; obtain ⟨rfl, rfl⟩ := h; exact .inl h2
    | cons y pre =>
      simp at h; obtain ⟨rfl, rfl⟩ := h
      exact .inr ⟨h1 _ (by simp), pre, x, post, rfl, fun z hz => h1 z (by simp [hz]), h2⟩
  · rintro (h | ⟨h0, pre, x, post, rfl, h1, h2⟩)
    · exact ⟨[], c, cs, rfl, by simp, h⟩
    · refine ⟨c :: pre, x, post, rfl, ?_, h2⟩
      intro z hz
      rcases List.mem_cons.mp hz with rfl | hz
      · exact h0
      · exact h1 z hz

/-- C07: it fails iff some file has no text, with the error of the first such file; it never panics. -/
theorem c07_fails (p f l r v g : Bytes) (ws : List ResourceFileWrapper) (e : CryptoError) :
    (RawSketchwareProject.fromEncrypted p f l r v g ws = .err e ↔ FirstError [p, f, l, r, v, g] e) ∧
    (RawSketchwareProject.fromEncryptedWoRes p f l r v g = .err e ↔ FirstError [p, f, l, r, v, g] e) ∧
    RawSketchwareProject.fromEncrypted p f l r v g ws ≠ .panic ∧
    RawSketchwareProject.fromEncryptedWoRes p f l r v g ≠ .panic := by
  have hnil : ¬ FirstError [] e := by rintro ⟨pre, c, post, h, _⟩; simp at h
  simp only [firstError_cons, hnil, and_false, or_false]
  unfold RawSketchwareProject.fromEncrypted RawSketchwareProject.fromEncryptedWoRes
  have ee : ∀ {c : Bytes} {e' : CryptoError}, RawSketchwareProject.decryptText c = .err e' → (ErrorOf c e ↔ e' = e) := by
    intro c e' h
    rw [← decryptText_err, h]; simp
  have nt : ∀ {c : Bytes} {e' : CryptoError}, ErrorOf c e' → ¬ ∃ t, IsTextOf c t := fun h ⟨t, ht⟩ => ht.not_error h
  have ne : ∀ {c : Bytes} {t : Str}, IsTextOf c t → ¬ ErrorOf c e := fun h h' => h.not_error h'
  rcases decryptText_cases p with ⟨_, hp, tp⟩ | ⟨_, hp, tp⟩
  rcases decryptText_cases f with ⟨_, hf, tf⟩ | ⟨_, hf, tf⟩
  rcases decryptText_cases l with ⟨_, hl, tl⟩ | ⟨_, hl, tl⟩
  rcases decryptText_cases r with ⟨_, hr, tr⟩ | ⟨_, hr, tr⟩
  rcases decryptText_cases v with ⟨_, hv, tv⟩ | ⟨_, hv, tv⟩
  rcases decryptText_cases g with ⟨_, hg, tg⟩ | ⟨_, hg, tg⟩
  · simp [hp, hf, hl, hr, hv, hg, ne tp, ne tf, ne tl, ne tr, ne tv, ne tg]
  · simp [hp, hf, hl, hr, hv, hg, ne tp, ne tf, ne tl, ne tr, ne tv, ee hg, Exists.intro _ tp, Exists.intro _ tf,
      Exists.intro _ tl, Exists.intro _ tr, Exists.intro _ tv]
  · simp [hp, hf, hl, hr, hv, ne tp, ne tf, ne tl, ne tr, ee hv, nt tv, Exists.intro _ tp, Exists.intro _ tf,
      Exists.intro _ tl, Exists.intro _ tr]
  · simp [hp, hf, hl, hr, ne tp, ne tf, ne tl, ee hr, nt tr, Exists.intro _ tp, Exists.intro _ tf, Exists.intro _ tl]
  · simp [hp, hf, hl, ne tp, ne tf, ee hl, nt tl, Exists.intro _ tp, Exists.intro _ tf]
  · simp [hp, hf, ne tp, ee hf, nt tf, Exists.intro _ tp]
  · simp [hp, ee hp, nt tp]

-- both kinds of error occur
example : ErrorOf [] .decryption ∧ ErrorOf (encryptSw [0xC0, 0x80]) .fromUtf8 :=
  ⟨.inl ⟨by decide +kernel, rfl⟩, .inr ⟨_, c01_decrypt_encrypt _, fun t h => by
    have := fromUtf8_eq_some.mpr h
    exact absurd this (by rw [show fromUtf8 [0xC0, 0x80] = none by decide +kernel]; simp), rfl⟩⟩
-- a text with characters of one, two, three and four bytes
example : utf8 [Char.ofNat 0x41, Char.ofNat 0xE9, Char.ofNat 0x20AC, Char.ofNat 0x1F600] =
    [0x41, 0xC3, 0xA9, 0xE2, 0x82, 0xAC, 0xF0, 0x9F, 0x98, 0x80] := by decide +kernel

end Swrs
