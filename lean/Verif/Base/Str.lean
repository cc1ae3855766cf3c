import Verif.Base.Out
/-!
# Rust strings

A Rust `str` is modelled as the list of its Unicode scalar values (`List Char`).
Operations that Rust defines on bytes (`len`, `&s[a..b]`) are defined through the UTF-8 size
of the characters; slicing off a character boundary or out of range is a panic, here `none`.
-/

namespace Swrs

/-- A Rust string. Used throughout /repo/src, e.g. parser/file.rs:17. -/
abbrev Str := List Char

open Lean in
/-- `s% "abc"` is the explicit character list `['a', 'b', 'c']`. -/
macro "s%" s:str : term => do
  s.getString.toList.foldrM (init := ← `(([] : List Char))) fun c acc => do
    let lit : TSyntax `term := ⟨Syntax.mkCharLit c⟩
    `(List.cons $lit $acc)

/-- `str::split(c)` for a one-character separator: always at least one piece.
parser/file.rs:17, library.rs:18, view.rs:22, logic.rs:25. -/
def splitOn (c : Char) : Str → List Str
  | [] => [[]]
  | x :: xs =>
    if x = c then [] :: splitOn c xs
    else match splitOn c xs with
      | [] => [[x]]
      | p :: ps => (x :: p) :: ps

/-- The lines a parser iterates over: `s.split("\n")`. parser/file.rs:17, library.rs:18, view.rs:22, logic.rs:25. -/
abbrev lines (s : Str) : List Str := splitOn '\n' s

/-- `str::split_once(c)`: split at the first `c`. parser/logic.rs:428, 585, 855 and view.rs:32. -/
def splitOnce (c : Char) : Str → Option (Str × Str)
  | [] => none
  | x :: xs =>
    if x = c then some ([], xs)
    else (splitOnce c xs).map fun (a, b) => (x :: a, b)

/-- Leftmost occurrence of the pattern `pat`: the text before it and the text after it.
`split(".java_")` of parser/logic.rs:993. -/
def splitAtPat (pat : Str) : Str → Option (Str × Str)
  | [] => if pat = [] then some ([], []) else none
  | x :: xs =>
    if pat <+: (x :: xs) then some ([], (x :: xs).drop pat.length)
    else (splitAtPat pat xs).map fun (a, b) => (x :: a, b)

/-- `str::len`: number of UTF-8 bytes. color.rs:16 and parser/logic.rs:42-116. -/
def byteLen (s : Str) : Nat := (s.map Char.utf8Size).sum

/-- `&s[n..]`: panics (`none`) when `n` is not a character boundary of `s`. api/block.rs:659, parser/logic.rs:995. -/
def sliceFrom : Str → Nat → Option Str
  | s, 0 => some s
  | [], _ + 1 => none
  | c :: s, n + 1 => if c.utf8Size ≤ n + 1 then sliceFrom s (n + 1 - c.utf8Size) else none

/-- `&s[..n]`: panics (`none`) when `n` is not a character boundary of `s`. parser/logic.rs:42-116. -/
def sliceTo : Str → Nat → Option Str
  | _, 0 => some []
  | [], _ + 1 => none
  | c :: s, n + 1 =>
    if c.utf8Size ≤ n + 1 then (sliceTo s (n + 1 - c.utf8Size)).map (c :: ·) else none

/-- `&s[a..b]`: panics (`none`) when `a > b`, `b > len` or a bound is not a boundary.
parser/logic.rs:42-116, serde_util.rs:10-15. -/
def slice (s : Str) (a b : Nat) : Option Str :=
  if a ≤ b then (sliceTo s b).bind fun t => sliceFrom t a else none

/-- `char::is_whitespace`: the Unicode `White_Space` property (25 code points).
Used by `trim` in parser/{file,view,logic}.rs. -/
def isWs (c : Char) : Bool :=
  let n := c.toNat
  (9 ≤ n && n ≤ 13) || n == 0x20 || n == 0x85 || n == 0xA0 || n == 0x1680 ||
  (0x2000 ≤ n && n ≤ 0x200A) || n == 0x2028 || n == 0x2029 || n == 0x202F ||
  n == 0x205F || n == 0x3000

/-- `str::trim_start`. Part of `trim` in parser/{file,view,logic}.rs. -/
def trimStart (s : Str) : Str := s.dropWhile isWs

/-- `str::trim_end`. parser/view.rs:112, logic.rs:677. -/
def trimEnd (s : Str) : Str := (s.reverse.dropWhile isWs).reverse

/-- `str::trim`. parser/file.rs:78, view.rs:243, logic.rs:247-248. -/
def trim (s : Str) : Str := trimEnd (trimStart s)

/-- `str::starts_with`. parser/view.rs:28, logic.rs:34, 989. -/
def startsWith (pat s : Str) : Bool := pat.isPrefixOf s
/-- `str::ends_with` — used in parser/logic.rs:39-114. -/
def endsWith (pat s : Str) : Bool := pat.isSuffixOf s

/-- Lines joined with a separator character between them.
The folds `format!("{}\n{}", ..)` of parser/{file,view,logic}.rs. -/
def joinWith (c : Char) : List Str → Str
  | [] => []
  | [p] => p
  | p :: q :: ps => p ++ c :: joinWith c (q :: ps)

end Swrs
