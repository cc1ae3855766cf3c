import Verif.Model.Crypto
/-!
# Known answers for the cipher, run on the model
-/
set_option maxRecDepth 100000
namespace Swrs.Conformance.Cipher

/-! FIPS 197, appendix B and appendix C.1. -/
example : Aes.encrypt ⟨⟨0x2b, 0x7e, 0x15, 0x16⟩, ⟨0x28, 0xae, 0xd2, 0xa6⟩, ⟨0xab, 0xf7, 0x15, 0x88⟩, ⟨0x09, 0xcf, 0x4f, 0x3c⟩⟩
    ⟨⟨0x32, 0x43, 0xf6, 0xa8⟩, ⟨0x88, 0x5a, 0x30, 0x8d⟩, ⟨0x31, 0x31, 0x98, 0xa2⟩, ⟨0xe0, 0x37, 0x07, 0x34⟩⟩ =
    ⟨⟨0x39, 0x25, 0x84, 0x1d⟩, ⟨0x02, 0xdc, 0x09, 0xfb⟩, ⟨0xdc, 0x11, 0x85, 0x97⟩, ⟨0x19, 0x6a, 0x0b, 0x32⟩⟩ := by decide +kernel
example : Aes.encrypt ⟨⟨0x00, 0x01, 0x02, 0x03⟩, ⟨0x04, 0x05, 0x06, 0x07⟩, ⟨0x08, 0x09, 0x0a, 0x0b⟩, ⟨0x0c, 0x0d, 0x0e, 0x0f⟩⟩
    ⟨⟨0x00, 0x11, 0x22, 0x33⟩, ⟨0x44, 0x55, 0x66, 0x77⟩, ⟨0x88, 0x99, 0xaa, 0xbb⟩, ⟨0xcc, 0xdd, 0xee, 0xff⟩⟩ =
    ⟨⟨0x69, 0xc4, 0xe0, 0xd8⟩, ⟨0x6a, 0x7b, 0x04, 0x30⟩, ⟨0xd8, 0xcd, 0xb7, 0x80⟩, ⟨0x70, 0xb4, 0xc5, 0x5a⟩⟩ := by decide +kernel

/-! Made with `openssl enc -aes-128-cbc`, key and initialisation vector `736b6574636877617265736563757265` (in hexadecimal). -/
example : encryptSw [] =
    [0x98, 0x62, 0x38, 0x35, 0xdd, 0x35, 0xba, 0x04, 0x63, 0x1b, 0xc9, 0x9a, 0xc5, 0xd6, 0x25, 0xb8] := by decide +kernel
example : decryptSwEncrypted [0x98, 0x62, 0x38, 0x35, 0xdd, 0x35, 0xba, 0x04, 0x63, 0x1b, 0xc9, 0x9a, 0xc5, 0xd6, 0x25, 0xb8] =
    .ok [] := by decide +kernel
example : encryptSw [0x68, 0x65, 0x6c, 0x6c, 0x6f] =
    [0x82, 0x82, 0xde, 0x18, 0xcf, 0x0a, 0x81, 0x8a, 0x82, 0x64, 0x45, 0xd5, 0xc2, 0xce, 0xd7, 0xe7] := by decide +kernel
example : decryptSwEncrypted [0x82, 0x82, 0xde, 0x18, 0xcf, 0x0a, 0x81, 0x8a, 0x82, 0x64, 0x45, 0xd5, 0xc2, 0xce, 0xd7, 0xe7] =
    .ok [0x68, 0x65, 0x6c, 0x6c, 0x6f] := by decide +kernel
example : encryptSw [0x68, 0x65, 0x6c, 0x6c, 0x6f, 0x20, 0x73, 0x6b, 0x65, 0x74, 0x63, 0x68, 0x77, 0x61, 0x72, 0x65] =
    [0xee, 0x32, 0xb7, 0x29, 0x2b, 0xa2, 0xe8, 0xfa, 0x26, 0x8a, 0xa6, 0x20, 0x24, 0x43, 0x3b, 0x20, 0x00, 0xe6, 0xfa, 0xbc, 0x28, 0x3e, 0x00, 0x5f, 0x29, 0x6b, 0xd8, 0xe2, 0xa7, 0x68, 0x97, 0xcb] := by decide +kernel
example : decryptSwEncrypted [0xee, 0x32, 0xb7, 0x29, 0x2b, 0xa2, 0xe8, 0xfa, 0x26, 0x8a, 0xa6, 0x20, 0x24, 0x43, 0x3b, 0x20, 0x00, 0xe6, 0xfa, 0xbc, 0x28, 0x3e, 0x00, 0x5f, 0x29, 0x6b, 0xd8, 0xe2, 0xa7, 0x68, 0x97, 0xcb] =
    .ok [0x68, 0x65, 0x6c, 0x6c, 0x6f, 0x20, 0x73, 0x6b, 0x65, 0x74, 0x63, 0x68, 0x77, 0x61, 0x72, 0x65] := by decide +kernel
example : encryptSw [0x40, 0x61, 0x63, 0x74, 0x69, 0x76, 0x69, 0x74, 0x79, 0x0a, 0x7b, 0x22, 0x66, 0x69, 0x6c, 0x65, 0x4e, 0x61, 0x6d, 0x65, 0x22, 0x3a, 0x22, 0x6d, 0x61, 0x69, 0x6e, 0x22, 0x2c, 0x22, 0x66, 0x69, 0x6c, 0x65, 0x54, 0x79, 0x70, 0x65, 0x22, 0x3a, 0x30, 0x7d] =
    [0xf9, 0x66, 0x09, 0xea, 0xee, 0x48, 0x78, 0xa9, 0x2c, 0x0a, 0x93, 0x25, 0x02, 0xc2, 0xa4, 0x2a, 0x91, 0xfb, 0x59, 0x16, 0xf7, 0x8c, 0xe4, 0x77, 0x42, 0x9a, 0x7d, 0x97, 0x2f, 0x2b, 0xd3, 0x0d, 0x18, 0x14, 0xa8, 0xb2, 0x52, 0xb3, 0x4a, 0x3c, 0x6b, 0x76, 0x3b, 0x08, 0x43, 0xb3, 0x02, 0x1c] := by decide +kernel
example : decryptSwEncrypted [0xf9, 0x66, 0x09, 0xea, 0xee, 0x48, 0x78, 0xa9, 0x2c, 0x0a, 0x93, 0x25, 0x02, 0xc2, 0xa4, 0x2a, 0x91, 0xfb, 0x59, 0x16, 0xf7, 0x8c, 0xe4, 0x77, 0x42, 0x9a, 0x7d, 0x97, 0x2f, 0x2b, 0xd3, 0x0d, 0x18, 0x14, 0xa8, 0xb2, 0x52, 0xb3, 0x4a, 0x3c, 0x6b, 0x76, 0x3b, 0x08, 0x43, 0xb3, 0x02, 0x1c] =
    .ok [0x40, 0x61, 0x63, 0x74, 0x69, 0x76, 0x69, 0x74, 0x79, 0x0a, 0x7b, 0x22, 0x66, 0x69, 0x6c, 0x65, 0x4e, 0x61, 0x6d, 0x65, 0x22, 0x3a, 0x22, 0x6d, 0x61, 0x69, 0x6e, 0x22, 0x2c, 0x22, 0x66, 0x69, 0x6c, 0x65, 0x54, 0x79, 0x70, 0x65, 0x22, 0x3a, 0x30, 0x7d] := by decide +kernel

end Swrs.Conformance.Cipher
