import Verif.Model.Examples
import Verif.Props.Crypto
/-!
# The example programs `encrypt` and `decrypt` (C93)
-/
namespace Swrs
open Examples

/-! ## C93 — The programs `encrypt` and `decrypt` -/

/-- C93: `decrypt` with any number of arguments but one shows its usage on standard error, and nothing else, and fails. -/
theorem c93_decrypt_usage (io : Str) (fs : Fs Str) (fails : Str → Bool) (program : Str) (args : List Str) (h : args.length ≠ 1) :
    decrypt io fs fails (program :: args) = ⟨[], s% "Usage: " ++ program ++ s% " (file to decrypt)\n", .failure⟩ := by
  match args, h with
  | [], _ => simp [decrypt, line]
  | [_], h => simp at h
  | _ :: _ :: _, _ => simp [decrypt, line]

/-- C93: `decrypt` succeeds exactly if the file can be read and is an encrypted text; it then prints this text and a line end. -/
theorem c93_decrypt_success (io : Str) (fs : Fs Str) (fails : Str → Bool) (program path : Str) (r : Run) :
    (decrypt io fs fails [program, path] = r ∧ r.exit = .success) ↔
      ∃ data text, fails path = false ∧ fs path = some data ∧ IsTextOf data text ∧ r = ⟨text ++ ['\n'], [], .success⟩ := by
  simp only [decrypt, decryptSwFile, fsRead, IsTextOf]
  constructor
  · rintro ⟨rfl, h⟩
    revert h
    cases hf : fails path with
    | true => simp
    | false =>
      cases hd : fs path with
      | none => simp
      | some d =>
        cases he : decryptSwEncrypted d with
        | err => simp [he]
        | panic => simp [he, panicked]
        | ok b =>
          cases hu : fromUtf8 b with
          | none => simp [he, hu, panicked]
          | some t =>
            intro _
            exact ⟨d, t, rfl, rfl, by rw [he, fromUtf8_eq_some.mp hu], by simp [he, hu, line]⟩
  · rintro ⟨d, t, h1, h2, h3, rfl⟩
    simp [h1, h2, h3, fromUtf8_utf8, line]

/-- C93: a file that cannot be read, and one that cannot be decrypted, make it print the error on standard output and fail. -/
theorem c93_decrypt_failure (io : Str) (fs : Fs Str) (fails : Str → Bool) (program path : Str) (r : Run) :
    (decrypt io fs fails [program, path] = r ∧ r.exit = .failure) ↔
      ((fails path = true ∨ fs path = none) ∧ r = ⟨s% "IOError(" ++ io ++ s% ")\n", [], .failure⟩) ∨
      (∃ data, fails path = false ∧ fs path = some data ∧ (∀ d, decryptSwEncrypted data ≠ .ok d) ∧
        r = ⟨s% "DecryptionError(BlockModeError)\n", [], .failure⟩) := by
  simp only [decrypt, decryptSwFile, fsRead]
  cases hf : fails path with
  | true =>
    constructor
    · rintro ⟨rfl, h⟩; exact .inl ⟨.inl rfl, by simp [line, cryptoDebug]⟩
    · rintro (⟨_, rfl⟩ | ⟨d, h, _⟩)
      · simp [line, cryptoDebug]
      · simp at h
  | false =>
    cases hd : fs path with
    | none =>
      constructor
      · rintro ⟨rfl, h⟩; exact .inl ⟨.inr rfl, by simp [line, cryptoDebug]⟩
      · rintro (⟨_, rfl⟩ | ⟨d, _, h, _⟩)
        · simp [line, cryptoDebug]
        · simp at h
    | some d =>
      rcases c03_total d with ⟨b, hb⟩ | he
      · constructor
        · rintro ⟨rfl, h⟩
          cases hu : fromUtf8 b <;> simp [hb, hu, panicked] at h
        · rintro (⟨h, _⟩ | ⟨d', _, h, h', _⟩)
          · simp at h
          · exact absurd hb (Option.some.inj h ▸ h' b)
      · constructor
        · rintro ⟨rfl, _⟩
          refine .inr ⟨d, rfl, rfl, ?_, by simp [he, line, cryptoDebug]⟩
          intro b hb
          rw [hb] at he; cases he
        · rintro (⟨h, _⟩ | ⟨d', _, h, _, rfl⟩)
          · simp at h
          · simp [he, line, cryptoDebug]

/-- C93: it panics exactly for an encrypted file whose content is no text, and then prints nothing. -/
theorem c93_decrypt_panic (io : Str) (fs : Fs Str) (fails : Str → Bool) (program path : Str) (r : Run) :
    (decrypt io fs fails [program, path] = r ∧ r.exit = .panic) ↔
      (∃ data d, fails path = false ∧ fs path = some data ∧ decryptSwEncrypted data = .ok d ∧ ∀ text, d ≠ utf8 text) ∧
        r = ⟨[], [], .panic⟩ := by
  simp only [decrypt, decryptSwFile, fsRead]
  cases hf : fails path with
  | true => simp; rintro rfl h; simp at h
  | false =>
    cases hd : fs path with
    | none => simp; rintro rfl h; simp at h
    | some d =>
      rcases c03_total d with ⟨b, hb⟩ | he
      · cases hu : fromUtf8 b with
        | none =>
          have : ∀ text, b ≠ utf8 text := fun t h => by
            rw [fromUtf8_eq_some.mpr h] at hu; cases hu
          simp only [Bool.false_eq_true, if_false, Out.ofOption_some, Out.ok_bind, hb, hu, panicked]
          constructor
          · rintro ⟨rfl, _⟩; exact ⟨⟨d, b, trivial, rfl, hb, this⟩, rfl⟩
          · rintro ⟨_, rfl⟩; exact ⟨rfl, rfl⟩
        | some t =>
          simp only [Bool.false_eq_true, if_false, Out.ofOption_some, Out.ok_bind, hb, hu]
          constructor
          · rintro ⟨rfl, h⟩; cases h
          · rintro ⟨⟨d', b', _, h, h', h''⟩, _⟩
            rw [← Option.some.inj h, hb] at h'
            exact absurd ((Out.ok.inj h').symm.trans (fromUtf8_eq_some.mp hu)) (h'' t)
      · simp only [Bool.false_eq_true, if_false, Out.ofOption_some, Out.ok_bind, he]
        constructor
        · rintro ⟨rfl, h⟩; cases h
        · rintro ⟨⟨d', b', _, h, h', _⟩, _⟩
          rw [← Option.some.inj h, he] at h'; cases h'

-- one file of each kind
example : decrypt (s% "e") (fun p => if p = s% "f" then some (encryptSw (utf8 (s% "hi"))) else none) (fun _ => false)
    [s% "decrypt", s% "f"] = ⟨s% "hi\n", [], .success⟩ := by decide +kernel
example : decrypt (s% "e") (fun _ => some (encryptSw [0xFF])) (fun _ => false) [s% "decrypt", s% "f"] = ⟨[], [], .panic⟩ := by
  decide +kernel
example : decrypt (s% "e") (fun _ => some [1]) (fun _ => false) [s% "decrypt", s% "f"] =
    ⟨s% "DecryptionError(BlockModeError)\n", [], .failure⟩ := by decide +kernel

/-- C93: `encrypt` without an argument or with more than two shows its usage on standard error and fails; no file changes. -/
theorem c93_encrypt_usage (io : Str) (fs fs' : Fs Str) (program : Str) (args : List Str) (r : Run) (h : args.length = 0 ∨ 2 < args.length) :
    Encrypt io fs (program :: args) fs' r ↔ fs' = fs ∧ r = ⟨[], s% "Usage: " ++ program ++
      s% " (FILE TO ENCRYPT) [OUTPUT]\n\nOUTPUT will be \"(FILE TO ENCRYPT)_enc\" if not specified\n", .failure⟩ := by
  have hn : encryptFiles (program :: args) = none := by
    match args, h with
    | [], _ => rfl
    | [_], h => simp at h
    | [_, _], h => simp at h
    | _ :: _ :: _ :: _, _ => rfl
  have hu : encryptUsage program = s% "Usage: " ++ program ++
      s% " (FILE TO ENCRYPT) [OUTPUT]\n\nOUTPUT will be \"(FILE TO ENCRYPT)_enc\" if not specified\n" := by
    simp only [encryptUsage, line, List.append_assoc]; rfl
  constructor
  · intro h
    cases h with
    | usage => exact ⟨rfl, by rw [hu]⟩
    | run h => rw [hn] at h; cases h
  · rintro ⟨rfl, rfl⟩
    rw [← hu]; exact .usage hn

/-- The files of a call of `encrypt`: the output is the second argument or, without one, the input with `_enc` after it. -/
inductive c93_Files : List Str → Str → Str → Prop where
  | default (program input : Str) : c93_Files [program, input] input (input ++ s% "_enc")
  | given (program input output : Str) : c93_Files [program, input, output] input output

theorem c93_files_iff {args : List Str} {input output : Str} :
    encryptFiles args = some (input, output) ↔ c93_Files args input output := by
  constructor
  · intro h
    unfold encryptFiles at h
    split at h
    · cases h; exact .default _ _
    · cases h; exact .given _ _ _
    · cases h
  · rintro (_ | _) <;> rfl

/-- C93: `encrypt` never panics. It says where it saves to; it succeeds with the input as the plain text of the output, or it fails and says
so on standard error. No file but the output changes. -/
theorem c93_encrypt (io : Str) (fs fs' : Fs Str) (args : List Str) (input output : Str) (r : Run) (hf : c93_Files args input output)
    (h : Encrypt io fs args fs' r) :
    (∀ q, q ≠ output → fs' q = fs q) ∧
    ((r = ⟨s% "Saving as " ++ output ++ s% "\nSuccessfully encrypted " ++ input ++ s% "\n", [], .success⟩ ∧
        ∃ d, fs input = some d ∧ decryptSwFile fs' (fun _ => false) output = .ok d) ∨
      r = ⟨s% "Saving as " ++ output ++ s% "\n", s% "Failed to encrypt: IOError(" ++ io ++ s% ")\n", .failure⟩) := by
  have hf := c93_files_iff.mpr hf
  cases h with
  | noProgram => cases hf
  | usage h => rw [h] at hf; cases hf
  | run h hr =>
    rw [h] at hf; cases hf
    obtain ⟨h1, h2⟩ := c05_outcomes _ _ _ _ _ hr
    refine ⟨fun q hq => h2 q hq, ?_⟩
    rcases h1 with rfl | rfl
    · obtain ⟨d, h3, h4, _⟩ := c05_encrypt_file _ _ _ _ hr
      exact .inl ⟨by simp only [encryptRun, line, List.append_assoc]; rfl, d, h3, h4⟩
    · exact .inr (by simp only [encryptRun, line, cryptoDebug, List.append_assoc]; rfl)

/-- C93: without an output given the input itself is not touched, however the run ends. -/
theorem c93_encrypt_keeps (io : Str) (fs fs' : Fs Str) (program input : Str) (r : Run)
    (h : Encrypt io fs [program, input] fs' r) : fs' input = fs input := by
  refine (c93_encrypt io fs fs' _ input _ r (.default _ _) h).1 input fun e => ?_
  have := congrArg List.length e
  simp at this

/-- C93: an input that does not exist makes `encrypt` fail, and no file changes or appears. -/
theorem c93_encrypt_missing (io : Str) (fs fs' : Fs Str) (args : List Str) (input output : Str) (r : Run)
    (hf : c93_Files args input output) (h : Encrypt io fs args fs' r) (hi : fs input = none) : fs' = fs ∧ r.exit = .failure := by
  have hf := c93_files_iff.mpr hf
  cases h with
  | noProgram => cases hf
  | usage h => rw [h] at hf; cases hf
  | run h hr =>
    rw [h] at hf; cases hf
    obtain ⟨h1, h2⟩ := c05_unreadable _ _ _ _ _ hi hr
    rw [h2 _ rfl]
    exact ⟨h1, rfl⟩

/-- C93: every input that exists can be encrypted. -/
theorem c93_encrypt_exists (io : Str) (fs : Fs Str) (args : List Str) (input output : Str) (hf : c93_Files args input output)
    (d : Bytes) (hi : fs input = some d) :
    ∃ fs' r, Encrypt io fs args fs' r ∧ r.exit = .success :=
  ⟨_, _, .run (c93_files_iff.mpr hf) (EncryptFile.reaches_done hi), rfl⟩

/-- C93: `decrypt` on the output of a successful `encrypt` prints the text of the input and a line end; if the input is no text, it panics. -/
theorem c93_round_trip (io : Str) (fs fs' : Fs Str) (args : List Str) (input output : Str) (r : Run) (hf : c93_Files args input output)
    (h : Encrypt io fs args fs' r) (hr : r.exit = .success) (program : Str) :
    (∃ text, fs input = some (utf8 text) ∧
      decrypt io fs' (fun _ => false) [program, output] = ⟨text ++ ['\n'], [], .success⟩) ∨
    (∃ d, fs input = some d ∧ (∀ text, d ≠ utf8 text) ∧ decrypt io fs' (fun _ => false) [program, output] = ⟨[], [], .panic⟩) := by
  rcases (c93_encrypt io fs fs' args input output r hf h).2 with ⟨_, d, h1, h2⟩ | rfl
  · cases hu : fromUtf8 d with
    | some t => exact .inl ⟨t, by rw [h1, fromUtf8_eq_some.mp hu], by simp [decrypt, h2, hu, line]⟩
    | none =>
      refine .inr ⟨d, h1, fun t ht => ?_, by simp [decrypt, h2, hu, panicked]⟩
      rw [fromUtf8_eq_some.mpr ht] at hu; cases hu
  · cases hr

-- both ways to name the output
example : c93_Files [s% "encrypt", s% "a"] (s% "a") (s% "a_enc") := .default _ _
example : c93_Files [s% "encrypt", s% "a", s% "b"] (s% "a") (s% "b") := .given _ _ _

end Swrs
