import Verif.Base.Num
/-!
# JSON texts

Model of the parts of `serde_json` used by swrs: `to_string` (compact form) and the syntax
accepted by `from_str`. Numbers keep their source text; their value is given when a record
is decoded (`Verif.Json.Decode`).

Simplification: an error is only `none` (message and position are not modelled).

`serde_json` checks unpaired surrogates and the nesting depth only in values that it does not ignore (the value of an unknown
key is ignored). So texts with them are read here, too: unpaired surrogates give `bad`, which no record takes for a value,
and the depth is checked where it matters (`Project`; the other records are not nested as deep as that).
-/

namespace Swrs

/-- A JSON value. `num` carries the text of the number. `bad` is a string with an unpaired surrogate, or an object with such
a key, which is accepted only where it is ignored.
Syntax read by `serde_json::from_str` — the `parse` functions of parser/{project,file,library,resource,view,logic}.rs. -/
inductive Json where
  | null
  | bool (b : Bool)
  | num (tok : Str)
  | str (s : Str)
  | arr (vs : List Json)
  | obj (kvs : List (Str × Json))
  | bad

namespace Json

/-! ### Printing -/

/-- Escape of one character inside a string (`serde_json::ser::format_escaped_str`).
Text written by `serde_json::to_string` — the `reconstruct` functions of parser/{project,file,library,resource,view,logic}.rs. -/
def escChar (c : Char) : Str :=
  if c = '"' then s% "\\\""
  else if c = '\\' then s% "\\\\"
  else if c.toNat = 8 then s% "\\b"
  else if c.toNat = 9 then s% "\\t"
  else if c.toNat = 10 then s% "\\n"
  else if c.toNat = 12 then s% "\\f"
  else if c.toNat = 13 then s% "\\r"
  else if c.toNat < 32 then
    s% "\\u00" ++ [digitChar (c.toNat / 16), digitChar (c.toNat % 16)]
  else [c]

/-- Body of a string literal.
Text written by `serde_json::to_string` — the `reconstruct` functions of parser/{project,file,library,resource,view,logic}.rs. -/
def escStr : Str → Str
  | [] => []
  | c :: s => escChar c ++ escStr s

/-- A string literal.
Text written by `serde_json::to_string` — the `reconstruct` functions of parser/{project,file,library,resource,view,logic}.rs. -/
def quote (s : Str) : Str := '"' :: (escStr s ++ ['"'])

mutual
/-- `serde_json::to_string`. (`bad` is never printed.)
Text written by `serde_json::to_string` — the `reconstruct` functions of parser/{project,file,library,resource,view,logic}.rs. -/
def print : Json → Str
  | null => s% "null"
  | bool true => s% "true"
  | bool false => s% "false"
  | num tok => tok
  | str s => quote s
  | arr vs => '[' :: (printArr vs ++ [']'])
  | obj kvs => '{' :: (printObj kvs ++ ['}'])
  | bad => []

/-- Elements separated by commas.
Text written by `serde_json::to_string` — the `reconstruct` functions of parser/{project,file,library,resource,view,logic}.rs. -/
def printArr : List Json → Str
  | [] => []
  | [v] => print v
  | v :: w :: vs => print v ++ ',' :: printArr (w :: vs)

/-- Members separated by commas.
Text written by `serde_json::to_string` — the `reconstruct` functions of parser/{project,file,library,resource,view,logic}.rs. -/
def printObj : List (Str × Json) → Str
  | [] => []
  | [(k, v)] => quote k ++ ':' :: print v
  | (k, v) :: m :: ms => quote k ++ ':' :: (print v ++ ',' :: printObj (m :: ms))
end

mutual
/-- Nesting depth of arrays and objects. Nesting limit of `serde_json::from_str` — parser/project.rs:66. -/
def depth : Json → Nat
  | arr vs => depthArr vs + 1
  | obj kvs => depthObj kvs + 1
  | _ => 0
/-- Largest depth of the elements. Nesting limit of `serde_json::from_str` — parser/project.rs:66. -/
def depthArr : List Json → Nat
  | [] => 0
  | v :: vs => max (depth v) (depthArr vs)
/-- Largest depth of the member values. Nesting limit of `serde_json::from_str` — parser/project.rs:66. -/
def depthObj : List (Str × Json) → Nat
  | [] => 0
  | (_, v) :: ms => max (depth v) (depthObj ms)
end

/-! ### Parsing -/

/-- JSON whitespace.
Syntax read by `serde_json::from_str` — the `parse` functions of parser/{project,file,library,resource,view,logic}.rs. -/
def isSpace (c : Char) : Bool := c = ' ' || c = '\n' || c = '\t' || c = '\r'

/-- Skip whitespace.
Syntax read by `serde_json::from_str` — the `parse` functions of parser/{project,file,library,resource,view,logic}.rs. -/
def skip (s : Str) : Str := s.dropWhile isSpace

/-- One or more digits, and the rest.
Syntax read by `serde_json::from_str` — the `parse` functions of parser/{project,file,library,resource,view,logic}.rs. -/
def lexDigits (s : Str) : Option (Str × Str) :=
  match s.takeWhile isDigit with
  | [] => none
  | d :: ds => some (d :: ds, s.dropWhile isDigit)

/-- Integer part: `0`, or digits not starting with `0`.
Syntax read by `serde_json::from_str` — the `parse` functions of parser/{project,file,library,resource,view,logic}.rs. -/
def lexInt : Str → Option (Str × Str)
  | '0' :: r => some (['0'], r)
  | s => lexDigits s

/-- Optional fraction: a dot must be followed by a digit.
Syntax read by `serde_json::from_str` — the `parse` functions of parser/{project,file,library,resource,view,logic}.rs. -/
def lexFrac : Str → Option (Str × Str)
  | '.' :: r => (lexDigits r).map fun (d, r) => ('.' :: d, r)
  | s => some ([], s)

/-- Optional exponent.
Syntax read by `serde_json::from_str` — the `parse` functions of parser/{project,file,library,resource,view,logic}.rs. -/
def lexExp : Str → Option (Str × Str)
  | [] => some ([], [])
  | c :: r =>
    if c = 'e' ∨ c = 'E' then
      match r with
      | '+' :: r => (lexDigits r).map fun (d, r) => (c :: '+' :: d, r)
      | '-' :: r => (lexDigits r).map fun (d, r) => (c :: '-' :: d, r)
      | r => (lexDigits r).map fun (d, r) => (c :: d, r)
    else some ([], c :: r)

/-- Unsigned number: integer part, fraction, exponent.
Syntax read by `serde_json::from_str` — the `parse` functions of parser/{project,file,library,resource,view,logic}.rs. -/
def lexUNum (s : Str) : Option (Str × Str) :=
  (lexInt s).bind fun (i, r) => (lexFrac r).bind fun (f, r) =>
    (lexExp r).map fun (e, r) => (i ++ (f ++ e), r)

/-- Longest number at the start of a text.
Syntax read by `serde_json::from_str` — the `parse` functions of parser/{project,file,library,resource,view,logic}.rs. -/
def lexNum : Str → Option (Str × Str)
  | '-' :: r => (lexUNum r).map fun (t, r) => ('-' :: t, r)
  | s => lexUNum s

/-- The text is one JSON number.
Syntax read by `serde_json::from_str` — the `parse` functions of parser/{project,file,library,resource,view,logic}.rs. -/
def isNumTok (tok : Str) : Bool := lexNum tok = some (tok, [])

/-- Value of four hex digits.
Syntax read by `serde_json::from_str` — the `parse` functions of parser/{project,file,library,resource,view,logic}.rs. -/
def hex4 (a b c d : Char) : Option Nat :=
  match digitVal 16 a, digitVal 16 b, digitVal 16 c, digitVal 16 d with
  | some a, some b, some c, some d => some (((a * 16 + b) * 16 + c) * 16 + d)
  | _, _, _, _ => none

/-- Character of a one-letter escape.
Syntax read by `serde_json::from_str` — the `parse` functions of parser/{project,file,library,resource,view,logic}.rs. -/
def escVal (c : Char) : Option Char :=
  if c = '"' then some '"'
  else if c = '\\' then some '\\'
  else if c = '/' then some '/'
  else if c = 'b' then some (Char.ofNat 8)
  else if c = 'f' then some (Char.ofNat 12)
  else if c = 'n' then some (Char.ofNat 10)
  else if c = 'r' then some (Char.ofNat 13)
  else if c = 't' then some (Char.ofNat 9)
  else none

/-- The character of a surrogate pair whose first half was read, and the rest: a high surrogate needs the escape of a low one after it.
Syntax read by `serde_json::from_str` — the `parse` functions of parser/{project,file,library,resource,view,logic}.rs. -/
def surrogate (hi : Nat) : Str → Option (Char × Str)
  | '\\' :: 'u' :: a :: b :: c :: d :: r =>
    match hex4 a b c d with
    | none => none
    | some lo =>
      if hi < 0xDC00 ∧ 0xDC00 ≤ lo ∧ lo < 0xE000 then
        some (Char.ofNat ((hi - 0xD800) * 0x400 + (lo - 0xDC00) + 0x10000), r)
      else none
  | _ => none

/-- A character in front of the value of a string literal, if it has one.
Syntax read by `serde_json::from_str` — the `parse` functions of parser/{project,file,library,resource,view,logic}.rs. -/
def consLit (c : Char) : Option Str × Str → Option Str × Str
  | (s, r) => (s.map (c :: ·), r)

/-- Body of a string literal after the opening quote: its value and the text after the closing quote.
Raw control characters and unknown escapes are errors; with an unpaired surrogate there is no value. The fuel argument is the
length of the text.
Syntax read by `serde_json::from_str` — the `parse` functions of parser/{project,file,library,resource,view,logic}.rs. -/
def lexStr : Nat → Str → Option (Option Str × Str)
  | 0, _ => none
  | _ + 1, [] => none
  | n + 1, c :: r =>
    if c = '"' then some (some [], r)
    else if c = '\\' then
      match r with
      | 'u' :: a :: b :: c :: d :: r =>
        match hex4 a b c d with
        | none => none
        | some hi =>
          if 0xD800 ≤ hi ∧ hi < 0xE000 then
            match surrogate hi r with
            | some (c, r) => (lexStr n r).map (consLit c)
            | none => (lexStr n r).map fun (_, r) => (none, r)
          else (lexStr n r).map (consLit (Char.ofNat hi))
      | e :: r =>
        match escVal e with
        | none => none
        | some v => (lexStr n r).map (consLit v)
      | [] => none
    else if c.toNat < 32 then none
    else (lexStr n r).map (consLit c)

/-- String literal body with enough fuel.
Syntax read by `serde_json::from_str` — the `parse` functions of parser/{project,file,library,resource,view,logic}.rs. -/
def lexString (s : Str) : Option (Option Str × Str) := lexStr (s.length + 1) s

/-- The value of a string literal.
Syntax read by `serde_json::from_str` — the `parse` functions of parser/{project,file,library,resource,view,logic}.rs. -/
def strOf : Option Str → Json
  | some s => str s
  | none => bad

/-- The members of an object, if all keys have a value.
Syntax read by `serde_json::from_str` — the `parse` functions of parser/{project,file,library,resource,view,logic}.rs. -/
def keyed : List (Option Str × Json) → Option (List (Str × Json))
  | [] => some []
  | (some k, v) :: ms => (keyed ms).map ((k, v) :: ·)
  | (none, _) :: _ => none

/-- The value of the members of an object.
Syntax read by `serde_json::from_str` — the `parse` functions of parser/{project,file,library,resource,view,logic}.rs. -/
def objOf (ms : List (Option Str × Json)) : Json :=
  match keyed ms with
  | some ms => obj ms
  | none => bad

mutual
/-- Parse a value. `f` is fuel (every call consumes a character, so the length of the text is enough).
Syntax read by `serde_json::from_str` — the `parse` functions of parser/{project,file,library,resource,view,logic}.rs. -/
def parseVal : Nat → Str → Option (Json × Str)
  | 0, _ => none
  | f + 1, s =>
    match skip s with
    | 'n' :: 'u' :: 'l' :: 'l' :: r => some (null, r)
    | 't' :: 'r' :: 'u' :: 'e' :: r => some (bool true, r)
    | 'f' :: 'a' :: 'l' :: 's' :: 'e' :: r => some (bool false, r)
    | '"' :: r => (lexString r).map fun (s, r) => (strOf s, r)
    | '[' :: r =>
      match skip r with
      | ']' :: r => some (arr [], r)
      | r => (parseElems f r).map fun (vs, r) => (arr vs, r)
    | '{' :: r =>
      match skip r with
      | '}' :: r => some (obj [], r)
      | r => (parseMembers f r).map fun (ms, r) => (objOf ms, r)
    | r => (lexNum r).map fun (t, r) => (num t, r)

/-- One or more elements and the closing bracket.
Syntax read by `serde_json::from_str` — the `parse` functions of parser/{project,file,library,resource,view,logic}.rs. -/
def parseElems : Nat → Str → Option (List Json × Str)
  | 0, _ => none
  | f + 1, s =>
    match parseVal f s with
    | none => none
    | some (v, r) =>
      match skip r with
      | ',' :: r => (parseElems f r).map fun (vs, r) => (v :: vs, r)
      | ']' :: r => some ([v], r)
      | _ => none

/-- One or more members and the closing brace.
Syntax read by `serde_json::from_str` — the `parse` functions of parser/{project,file,library,resource,view,logic}.rs. -/
def parseMembers : Nat → Str → Option (List (Option Str × Json) × Str)
  | 0, _ => none
  | f + 1, s =>
    match skip s with
    | '"' :: r =>
      match lexString r with
      | none => none
      | some (k, r) =>
        match skip r with
        | ':' :: r =>
          match parseVal f r with
          | none => none
          | some (v, r) =>
            match skip r with
            | ',' :: r => (parseMembers f r).map fun (ms, r) => ((k, v) :: ms, r)
            | '}' :: r => some ([(k, v)], r)
            | _ => none
        | _ => none
    | _ => none
end

/-- `serde_json::from_str` up to the tree: one value, then only whitespace.
Syntax read by `serde_json::from_str` — the `parse` functions of parser/{project,file,library,resource,view,logic}.rs. -/
def parse (s : Str) : Option Json :=
  match parseVal (2 * s.length + 2) s with
  | some (j, r) => if skip r = [] then some j else none
  | none => none

end Json
end Swrs
