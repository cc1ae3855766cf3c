import Verif.Model.Aes
/-!
# The examples of FIPS 197
-/
namespace Swrs.Aes

/-- The example of FIPS 197, appendix C.1. -/
example : encrypt
    ⟨⟨0x00, 0x01, 0x02, 0x03⟩, ⟨0x04, 0x05, 0x06, 0x07⟩, ⟨0x08, 0x09, 0x0a, 0x0b⟩, ⟨0x0c, 0x0d, 0x0e, 0x0f⟩⟩
    ⟨⟨0x00, 0x11, 0x22, 0x33⟩, ⟨0x44, 0x55, 0x66, 0x77⟩, ⟨0x88, 0x99, 0xaa, 0xbb⟩, ⟨0xcc, 0xdd, 0xee, 0xff⟩⟩ =
    ⟨⟨0x69, 0xc4, 0xe0, 0xd8⟩, ⟨0x6a, 0x7b, 0x04, 0x30⟩, ⟨0xd8, 0xcd, 0xb7, 0x80⟩, ⟨0x70, 0xb4, 0xc5, 0x5a⟩⟩ := by
  decide +kernel

/-- The example of FIPS 197, appendix B. -/
example : encrypt
    ⟨⟨0x2b, 0x7e, 0x15, 0x16⟩, ⟨0x28, 0xae, 0xd2, 0xa6⟩, ⟨0xab, 0xf7, 0x15, 0x88⟩, ⟨0x09, 0xcf, 0x4f, 0x3c⟩⟩
    ⟨⟨0x32, 0x43, 0xf6, 0xa8⟩, ⟨0x88, 0x5a, 0x30, 0x8d⟩, ⟨0x31, 0x31, 0x98, 0xa2⟩, ⟨0xe0, 0x37, 0x07, 0x34⟩⟩ =
    ⟨⟨0x39, 0x25, 0x84, 0x1d⟩, ⟨0x02, 0xdc, 0x09, 0xfb⟩, ⟨0xdc, 0x11, 0x85, 0x97⟩, ⟨0x19, 0x6a, 0x0b, 0x32⟩⟩ := by
  decide +kernel

end Swrs.Aes
