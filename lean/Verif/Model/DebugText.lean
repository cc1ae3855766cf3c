import Verif.Model.Messages
/-!
# Model of `{:?}` of a text, as the standard library writes it

`<str as Debug>::fmt` and `char::escape_debug_ext`, used by the messages and programs that print with `{:?}`.
-/
namespace Swrs

/-- `char::escape_unicode`: the number of the character in lower case hex digits. Part of `{:?}` in api/block.rs:135. -/
def escapeUnicode (c : Char) : Str := s% "\\u{" ++ natStr 16 c.toNat ++ s% "}"

/-- `char::escape_debug_ext` with double quotes escaped and single quotes not. Part of `{:?}` in api/block.rs:135. `plain` tells which other
characters are written as they are: those that can be printed and do not extend the character before (tables of Unicode, not modelled). -/
def escapeDebug (plain : Char → Bool) (c : Char) : Str :=
  if c = Char.ofNat 0 then s% "\\0"
  else if c = '\t' then s% "\\t"
  else if c = '\r' then s% "\\r"
  else if c = '\n' then s% "\\n"
  else if c = '\\' then s% "\\\\"
  else if c = '"' then s% "\\\""
  else if plain c then [c]
  else escapeUnicode c

/-- `{:?}` of a text — api/block.rs:135, api/screen.rs:305 and the derived `Debug` of the structs with texts (parser/library.rs:125, 153,
project.rs:6, file.rs:113, api/screen.rs:125). -/
def debugStr (plain : Char → Bool) (s : Str) : Str := s% "\"" ++ s.flatMap (escapeDebug plain) ++ s% "\""

/-- The texts of the standard library, for any table of plain characters and any way to write a path. api/block.rs:135. -/
@[reducible] def stdText (plain : Char → Bool) (path : PathBuf → Str) : DebugText := ⟨debugStr plain, path⟩
end Swrs
