import Verif.Model.View
/-!
# Model of `/repo/src/util.rs`, and of `View::parse` with the counting iterator written out

`View.parse` (`Verif.Model.View`) computes the line numbers from the number of lines left. Here `View::parse` follows the
calls of `next` one by one; both are proved equal (C66).
-/
namespace Swrs

/-- `struct CountingIterator<I>` — util.rs:4-7. The inner iterator is the list of what it will yield (`str::split`); the count
is a `u32` in the code (`CountingIterator32`, C99). -/
structure CountingIterator (α : Type) where
  iter : List α
  count : Nat

namespace CountingIterator
/-- `CountingIterator::new` — util.rs:11-16. -/
def new {α : Type} (l : List α) : CountingIterator α := ⟨l, 0⟩
/-- `CountingIterator::get_count` — util.rs:18. -/
def getCount {α : Type} (it : CountingIterator α) : Nat := it.count
/-- `Iterator::next` — util.rs:26-29: the call is counted also when nothing is left. -/
def next {α : Type} (it : CountingIterator α) : Option α × CountingIterator α := (it.iter.head?, ⟨it.iter.tail, it.count + 1⟩)
end CountingIterator

namespace Layout
variable [Floats]
/-- `Layout::parse_iter` on a counting iterator — view.rs:174-196: `take_while` calls `next` up to and including the first empty
line, or the end. `fuel` is more than the number of lines left. -/
def countLoop : Nat → CountingIterator Str → List AndroidView → Nat → Out LayoutParseError (Layout × CountingIterator Str)
  | 0, it, acc, _ => .ok (⟨acc⟩, it)
  | fuel + 1, it, acc, n =>
    match it.next with
    | (none, it) => .ok (⟨acc⟩, it)
    | (some line, it) =>
      if line = [] then .ok (⟨acc⟩, it)
      else match AndroidView.parse line with
        | some v => countLoop fuel it (acc ++ [v]) (n + 1)
        | none => .err { viewBefore := acc.getLast?, content := line, line := n }

/-- `Layout::parse_iter(&mut lines)` — view.rs:174-196. -/
def parseCounting (it : CountingIterator Str) : Out LayoutParseError (Layout × CountingIterator Str) :=
  countLoop (it.iter.length + 1) it [] 0
end Layout

namespace View
variable [Floats] [MapPol]
/-- The loop of `View::parse` — view.rs:27-65. `fuel` is the number of lines plus one; every round consumes a line. `&line[1..]` does
not panic: the line starts with `@`. -/
def countLoop : Nat → CountingIterator Str → LMap Str Layout → LMap Str AndroidView → Out ViewParseError View
  | 0, _, layouts, fabs => .ok ⟨layouts, fabs⟩
  | fuel + 1, it, layouts, fabs =>
    match it.next with
    | (none, _) => .ok ⟨layouts, fabs⟩
    | (some line, it) =>
      if startsWith ['@'] line then
        match splitOnce '.' (line.drop 1) with
        | none => .err (.invalidHeader it.getCount line)
        | some (screen, container) =>
          if container = s% "xml" then do
            let (l, it) ← (Layout.parseCounting it).mapErr (.layout screen container)
            countLoop fuel it (layouts.insert screen l) fabs
          else if container = s% "xml_fab" then
            match it.next with
            | (none, it) => .err (.eofAfterFabHeader screen it.getCount)
            | (some l, it) =>
              match AndroidView.parse l with
              | some v => countLoop fuel it layouts (fabs.insert screen v)
              | none => .err (.fab screen it.getCount line)
          else countLoop fuel it layouts fabs
      else .ok ⟨layouts, fabs⟩

/-- `View::parse` — view.rs:21-68. -/
def parseCounting (s : Str) : Out ViewParseError View :=
  countLoop ((lines s).length + 1) (.new (lines s)) [] []
end View
end Swrs
