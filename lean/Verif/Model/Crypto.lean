import Verif.Base.Out
import Verif.Model.Aes
/-!
# Model of `/repo/src/lib.rs` (encryption)

`block_modes::Cbc<Aes128, Pkcs7>` with the key and the initialisation vector "sketchwaresecure". The crates `block-modes`
0.8 and `block-padding` 0.2 are not in `/repo`; their documented behaviour is modelled.
-/
namespace Swrs
open Aes (Blk Col Byte)

/-- Byte strings (`Vec<u8>`). lib.rs:23-66. -/
abbrev Bytes := List UInt8

namespace Crypto

/-- `const KEY = "sketchwaresecure"` as bytes — lib.rs:19. -/
def KEY : Blk :=
  ⟨⟨0x73, 0x6b, 0x65, 0x74⟩, ⟨0x63, 0x68, 0x77, 0x61⟩, ⟨0x72, 0x65, 0x73, 0x65⟩, ⟨0x63, 0x75, 0x72, 0x65⟩⟩

/-- The bytes of a block, in order. Used through `Aes128Cbc` — lib.rs:21, 30-38, 61-64. -/
def blkBytes (b : Blk) : Bytes :=
  [b.w.a, b.w.b, b.w.c, b.w.d, b.x.a, b.x.b, b.x.c, b.x.d, b.y.a, b.y.b, b.y.c, b.y.d, b.z.a, b.z.b, b.z.c, b.z.d]

/-- `block_modes::utils::to_blocks`: consecutive groups of 16 bytes. Used on lengths divisible by 16 only (`encrypt_vec`
pads, `decrypt` checks); a shorter rest is dropped here. Used through `Aes128Cbc` — lib.rs:21, 30-38, 61-64. -/
def toBlocks : Bytes → List Blk
  | a :: b :: c :: d :: e :: f :: g :: h :: i :: j :: k :: l :: m :: n :: o :: p :: r =>
    ⟨⟨a, b, c, d⟩, ⟨e, f, g, h⟩, ⟨i, j, k, l⟩, ⟨m, n, o, p⟩⟩ :: toBlocks r
  | _ => []

/-- The bytes of a list of blocks. Used through `Aes128Cbc` — lib.rs:21, 30-38, 61-64. -/
def ofBlocks : List Blk → Bytes
  | [] => []
  | b :: bs => blkBytes b ++ ofBlocks bs

/-- `Cbc::encrypt_blocks` — `block-modes` 0.8. Used through `Aes128Cbc` — lib.rs:21, 30-38, 61-64. -/
def cbcEnc (iv : Blk) : List Blk → List Blk
  | [] => []
  | b :: bs => let c := Aes.encrypt KEY (b.xor iv); c :: cbcEnc c bs

/-- `Cbc::decrypt_blocks` — `block-modes` 0.8. Used through `Aes128Cbc` — lib.rs:21, 30-38, 61-64. -/
def cbcDec (iv : Blk) : List Blk → List Blk
  | [] => []
  | c :: cs => (Aes.decrypt KEY c).xor iv :: cbcDec c cs

/-- `Pkcs7::pad`: fill up to the next multiple of 16 with the number of bytes added — `block-padding` 0.2.
Used through `Aes128Cbc` — lib.rs:21, 30-38, 61-64. -/
def pad (d : Bytes) : Bytes :=
  let n := 16 - d.length % 16
  d ++ List.replicate n (UInt8.ofNat n)

/-- `Pkcs7::unpad`: the last byte is the number of bytes to remove, and all of these are equal to it. The number is
not compared with the block size — `block-padding` 0.2. Used through `Aes128Cbc` — lib.rs:21, 30-38, 61-64. -/
def unpad (d : Bytes) : Option Bytes :=
  match d.getLast? with
  | none => none
  | some n =>
    if n = 0 ∨ d.length < n.toNat then none
    else if (d.drop (d.length - n.toNat)).all (· == n) then some (d.take (d.length - n.toNat)) else none

end Crypto

/-- `enum CryptoError` — lib.rs:67-77. -/
inductive CryptoError where
  | io
  | decryption
  | fromUtf8
deriving DecidableEq, Repr

open Crypto in
/-- `encrypt_sw` — lib.rs:60-65. The key and vector have 16 bytes, so `expect` at line 62 does not fail. -/
def encryptSw (data : Bytes) : Bytes := ofBlocks (cbcEnc KEY (toBlocks (pad data)))

open Crypto in
/-- `decrypt_sw_encrypted` — lib.rs:29-39; `BlockMode::decrypt` rejects lengths that are not multiples of 16. -/
def decryptSwEncrypted (data : Bytes) : Out CryptoError Bytes :=
  if data.length % 16 ≠ 0 then .err .decryption
  else Out.ofOption .decryption (unpad (ofBlocks (cbcDec KEY (toBlocks data))))

/-! ### Files -/

/-- The file system: the contents of every path. Simplification: no directories, links or permissions; a path names one
file. `std::fs` in lib.rs:24, 44, 47, 54. -/
abbrev Fs (P : Type) := P → Option Bytes

/-- Contents of one file replaced. `std::fs::write` of lib.rs:47. -/
def Fs.set {P : Type} [DecidableEq P] (fs : Fs P) (p : P) (d : Bytes) : Fs P := fun q => if q = p then some d else fs q

/-- `std::fs::read(p).map_err(CryptoError::IOError)`; `fails` tells whether the operating system refuses — lib.rs:24, 44, 54. -/
def fsRead {P : Type} (fs : Fs P) (fails : P → Bool) (p : P) : Out CryptoError Bytes :=
  if fails p then .err .io else Out.ofOption .io (fs p)

/-- `decrypt_sw_file` — lib.rs:23-27. -/
def decryptSwFile {P : Type} (fs : Fs P) (fails : P → Bool) (file : P) : Out CryptoError Bytes := do
  let data ← fsRead fs fails file
  decryptSwEncrypted data

/-- `encrypt_sw_file` — lib.rs:53-58. -/
def encryptSwFile {P : Type} (fs : Fs P) (fails : P → Bool) (file : P) : Out CryptoError Bytes := do
  let d ← fsRead fs fails file
  pure (encryptSw d)

namespace EncryptFile

/-- Where `encrypt_sw_file_to_file` is in its execution — lib.rs:41-51. -/
inductive Pc where
  /-- before `fs::read` — line 44 -/
  | start
  /-- before `fs::write` with these bytes — line 47 -/
  | write (data : Bytes)
  /-- inside `fs::write`: the file was created or truncated, these bytes remain -/
  | writing (rest : Bytes)
  /-- returned -/
  | done (r : Out CryptoError Unit)

/-- One step of `encrypt_sw_file_to_file(file, out)` with `target = out.unwrap_or(file)` — lib.rs:41-51. `fs::write` creates or
truncates the file and then appends the bytes in pieces of any size; the operating system may refuse any operation. -/
inductive Step {P : Type} [DecidableEq P] (file target : P) : Fs P × Pc → Fs P × Pc → Prop where
  | read {fs : Fs P} {d : Bytes} : fs file = some d → Step file target (fs, .start) (fs, .write (encryptSw d))
  | readFails {fs : Fs P} : Step file target (fs, .start) (fs, .done (.err .io))
  | create {fs : Fs P} {c : Bytes} : Step file target (fs, .write c) (fs.set target [], .writing c)
  | createFails {fs : Fs P} {c : Bytes} : Step file target (fs, .write c) (fs, .done (.err .io))
  | append {fs : Fs P} {a b old : Bytes} : a ≠ [] → fs target = some old →
      Step file target (fs, .writing (a ++ b)) (fs.set target (old ++ a), .writing b)
  | appendFails {fs : Fs P} {c : Bytes} : Step file target (fs, .writing c) (fs, .done (.err .io))
  | finish {fs : Fs P} : Step file target (fs, .writing []) (fs, .done (.ok ()))

/-- Any number of steps. The states on the way are the ones a crash can leave. lib.rs:41-51. -/
inductive Steps {P : Type} [DecidableEq P] (file target : P) : Fs P × Pc → Fs P × Pc → Prop where
  | refl (s) : Steps file target s s
  | step {s t u} : Steps file target s t → Step file target t u → Steps file target s u

/-- `encrypt_sw_file_to_file(file, out)` started in `fs` can be in state `fs'` at `pc` — lib.rs:41-51. -/
def Reaches {P : Type} [DecidableEq P] (file : P) (out : Option P) (fs fs' : Fs P) (pc : Pc) : Prop :=
  Steps file (out.getD file) (fs, .start) (fs', pc)

end EncryptFile
end Swrs
