import Verif.Model.Chain
import Verif.Props.Messages
import Verif.Props.LogicRead
import Verif.Props.ExamplesParse
/-!
# C96: what the chain of causes of an error tells
-/
namespace Swrs

/-! ### Opening the texts of a project -/

/-- The chain of causes tells the same about two errors of the list of a pool. -/
def c96_Variable : VariableParseError → VariableParseError → Prop
  | .malformedVariable _, .malformedVariable _ => True
  | .malformedVariableType t, .malformedVariableType t' => t = t'
  | .invalidVariableType v, .invalidVariableType v' => v = v'
  | _, _ => False

/-- What the chain tells of an error of the logic file: all but the text of a bad variable, list variable, component or block, and the number
of the block; and the names of screen and container run together. -/
def c96_Logic : LogicParseError → LogicParseError → Prop
  | .variablePool s line p, .variablePool s' line' p' => s = s' ∧ line = line' ∧ p.count = p'.count ∧ c96_Variable p.source p'.source
  | .listVariablePool s line p, .listVariablePool s' line' p' => s = s' ∧ line = line' ∧ p.count = p'.count ∧ p.source = p'.source
  | .componentPool s line p, .componentPool s' line' p' => s = s' ∧ line = line' ∧ p.count = p'.count
  | .eventPool s line p, .eventPool s' line' p' => s = s' ∧ line = line' ∧ p.count = p'.count ∧ p.content = p'.content
  | .moreBlockPool s line p, .moreBlockPool s' line' p' => s = s' ∧ line = line' ∧ p.count = p'.count ∧ p.source = p'.source
  | .blockContainerHeader line h, .blockContainerHeader line' h' => line = line' ∧ h = h'
  | .blockContainer s c line _, .blockContainer s' c' line' _ =>
    s ++ s% " container " ++ c = s' ++ s% " container " ++ c' ∧ line = line'
  | _, _ => False

/-- What the chain tells of an error of the view file: the line of a bad header, layout and line of a bad view, the screen of a bad floating
button; not the text, and not the line of the button. -/
def c96_View [Floats] : ViewParseError → ViewParseError → Prop
  | .invalidHeader line _, .invalidHeader line' _ => line = line'
  | .layout s c l, .layout s' c' l' => s ++ s% " " ++ c = s' ++ s% " " ++ c' ∧ l.line = l'.line
  | .fab s _ _, .fab s' _ _ => s = s'
  | .eofAfterFabHeader s line, .eofAfterFabHeader s' line' => s = s' ∧ line = line'
  | _, _ => False

/-- What the chain tells of an error of opening a project: the file, and in it the section, the line and the kind of error. -/
def c96_Project [Floats] [DebugText] : SketchwareProjectParseError → SketchwareProjectParseError → Prop
  | .project, .project => True
  | .file e, .file e' => e = e'
  | .library e, .library e' => e = e'
  | .resource e, .resource e' => e = e'
  | .view e, .view e' => c96_View e e'
  | .logic e, .logic e' => c96_Logic e e'
  | .resourceFiles (.fileDoesntExist p), .resourceFiles (.fileDoesntExist p') => DebugText.path p = DebugText.path p'
  | .resourceFiles (.invalidPath p), .resourceFiles (.invalidPath p') => DebugText.path p = DebugText.path p'
  | _, _ => False

theorem chain_variable (e e' : VariableParseError) : e.chain = e'.chain ↔ c96_Variable e e' := by
  have h := c89_variable e e'
  cases e <;> cases e' <;> simp_all [VariableParseError.chain, c96_Variable, c89_type_value]

theorem chain_list_variable (e e' : ListVariableParseError) : e.chain = e'.chain ↔ e = e' := by
  have h := c89_list_variable e e'
  cases e <;> cases e' <;> simp_all [ListVariableParseError.chain, c89_type_value]

theorem chain_file (e e' : FileParseError) : e.chain = e'.chain ↔ e = e' := by
  have h := c89_file e e'
  cases e; cases e'; simp_all [FileParseError.chain]

theorem chain_library (e e' : LibraryParseError) : e.chain = e'.chain ↔ e = e' := by
  have h := c89_library e e'
  cases e <;> cases e' <;> simp_all [LibraryParseError.chain]

theorem chain_resource (e e' : ResourceParseError) : e.chain = e'.chain ↔ e = e' := by
  have h := c89_resource e e'
  cases e; cases e'; simp_all [ResourceParseError.chain]

theorem chain_view [Floats] (e e' : ViewParseError) : e.chain = e'.chain ↔ c96_View e e' := by
  have h := c89_view e e'
  cases e <;> cases e' <;> simp_all [ViewParseError.chain, LayoutParseError.chain, c96_View, c89_layout]

/-- C96: exactly when two errors of the logic file have the same chain. -/
theorem c96_logic (e e' : LogicParseError) : e.chain = e'.chain ↔ c96_Logic e e' := by
  have h := c89_logic e e'
  obtain ⟨h1, h2, h3, h4, h5⟩ := c89_variable_pools
  cases e <;> cases e' <;>
    simp_all [LogicParseError.chain, c96_Logic, chain_variable, chain_list_variable, c89_more_block, c89_header, blockContainerMessage,
      and_assoc]

/-- C96: exactly when two errors of opening a project have the same chain. -/
theorem c96_project [Floats] [DebugText] (e e' : SketchwareProjectParseError) : e.chain = e'.chain ↔ c96_Project e e' := by
  have h := c89_project e e'
  cases e <;> cases e' <;> simp_all [SketchwareProjectParseError.chain, c96_Project, chain_file, chain_library, chain_resource, chain_view,
    c96_logic, c89_resource_files]
  case resourceFiles.resourceFiles e e' =>
    cases e <;> cases e' <;> simp

/-! ### Where a chain ends -/

/-- The error of another library that the error of the logic file comes from: bad JSON, or a type that is no number. -/
def c96_LogicEnd : LogicParseError → Option Foreign
  | .variablePool _ _ ⟨_, _, .malformedVariableType _⟩ => some .int
  | .listVariablePool _ _ ⟨_, _, .variableTypeIsNotInt⟩ => some .int
  | .componentPool _ _ _ => some .json
  | .eventPool _ _ _ => some .json
  | .blockContainer _ _ _ _ => some .json
  | _ => none

/-- The error of another library that an error of opening a project comes from. -/
def c96_ProjectEnd [Floats] : SketchwareProjectParseError → Option Foreign
  | .project => some .json
  | .file _ => some .json
  | .library (.item _ _) => some .json
  | .library _ => none
  | .resource _ => some .json
  | .view (.layout _ _ _) => some .json
  | .view (.fab _ _ _) => some .json
  | .view _ => none
  | .logic e => c96_LogicEnd e
  | .resourceFiles _ => none

/-- The chain ends with the given error of another library, or has none; all before it are messages of this library. -/
def c96_Ends (c : Chain) (end' : Option Foreign) : Prop :=
  ∃ ts : List Str, ts ≠ [] ∧ c = ts.map .text ++ (end'.map .foreign).toList

/-- C96: an error of the logic file keeps the error of the library that it comes from, as the last of its chain. -/
theorem c96_logic_ends (e : LogicParseError) : c96_Ends e.chain (c96_LogicEnd e) := by
  have lift : ∀ {c : Chain} {f : Option Foreign} (t : Str), (∃ ts : List Str, c = ts.map .text ++ (f.map .foreign).toList) →
      c96_Ends (.text t :: c) f := by
    rintro c f t ⟨ts, rfl⟩
    exact ⟨t :: ts, by simp, rfl⟩
  unfold LogicParseError.chain
  apply lift
  cases e with
  | variablePool _ _ p =>
    obtain ⟨n, t, e⟩ := p
    cases e with
    | malformedVariable v => exact ⟨[_, _], rfl⟩
    | malformedVariableType v => exact ⟨[_, _], rfl⟩
    | invalidVariableType v => exact ⟨[_, _, _], rfl⟩
  | listVariablePool _ _ p =>
    obtain ⟨n, t, e⟩ := p
    cases e with
    | missingColon => exact ⟨[_, _], rfl⟩
    | variableTypeIsNotInt => exact ⟨[_, _], rfl⟩
    | invalidVariableType v => exact ⟨[_, _, _], rfl⟩
  | componentPool _ _ p => exact ⟨[_], rfl⟩
  | eventPool _ _ p => exact ⟨[_], rfl⟩
  | moreBlockPool _ _ p => exact ⟨[_, _], rfl⟩
  | blockContainerHeader _ p => exact ⟨[_], rfl⟩
  | blockContainer _ _ _ p => exact ⟨[_], rfl⟩

/-- C96: an error of opening a project keeps the error of the library that it comes from, as the last of its chain. -/
theorem c96_project_ends [Floats] [DebugText] (e : SketchwareProjectParseError) : c96_Ends e.chain (c96_ProjectEnd e) := by
  cases e with
  | project => exact ⟨[_], by simp, rfl⟩
  | file e => exact ⟨[_, _], by simp, rfl⟩
  | library e =>
    cases e with
    | item a b => exact ⟨[_, _], by simp, rfl⟩
    | _ => exact ⟨[_, _], by simp, rfl⟩
  | resource e => exact ⟨[_, _], by simp, rfl⟩
  | view e =>
    cases e with
    | layout a b l => exact ⟨[_, _, _], by simp, rfl⟩
    | fab a b c => exact ⟨[_, _], by simp, rfl⟩
    | _ => exact ⟨[_, _], by simp, rfl⟩
  | logic e =>
    obtain ⟨ts, _, h⟩ := c96_logic_ends e
    refine ⟨(SketchwareProjectParseError.logic e).message :: ts, by simp, ?_⟩
    show _ :: e.chain = _
    rw [h]
    rfl
  | resourceFiles e => exact ⟨[_, _], by simp, rfl⟩

/-- C96: decryption: the cause is the error of the library. -/
theorem c96_crypto_ends (e : CryptoError) : c96_Ends e.chain (some (match e with
    | .io => .io
    | .decryption => .blockMode
    | .fromUtf8 => .utf8)) := by
  cases e <;> exact ⟨[_], by simp, rfl⟩

/-- C96: decryption: the chain tells all that the error has. -/
theorem c96_crypto (e e' : CryptoError) : e.chain = e'.chain ↔ e = e' := by
  cases e <;> cases e' <;> simp [CryptoError.chain, CryptoError.message]

namespace Api
/-! ### The API -/

/-- What the chain tells of an error in the blocks of a container: all but the pointers to the stacks. -/
def c96_Blocks : BlockConversionError → BlockConversionError → Prop
  | .substack1 id _ e, .substack1 id' _ e' => id = id' ∧ c96_Blocks e e'
  | .substack2 id _ e, .substack2 id' _ e' => id = id' ∧ c96_Blocks e e'
  | .malformedBlockId id, .malformedBlockId id' => id = id'
  | .blockNotFound id, .blockNotFound id' => id = id'
  | .invalidType t, .invalidType t' => t = t'
  | .content c, .content c' => c = c'
  | _, _ => False

/-- What the chain tells of an error in a screen. -/
def c96_Screen : ScreenConstructionError → ScreenConstructionError → Prop
  | .moreBlockSpecParseError id e, .moreBlockSpecParseError id' e' => id = id' ∧
    match e, e' with
    | .unknownSpecParam name _, .unknownSpecParam name' _ => name = name'
    | e, e' => e = e'
  | .blocksParseError c e, .blocksParseError c' e' => c = c' ∧ c96_Blocks e e'
  | .unknownEventType e, .unknownEventType e' => e = e'
  | .unknownComponentType e, .unknownComponentType e' => e = e'
  | .layoutParseError e, .layoutParseError e' => e = e'
  | _, _ => False

variable [DebugText] [LawfulDebugText]

theorem str_inj {a b : Str} (h : DebugText.str a = DebugText.str b) : a = b :=
  (LawfulDebugText.code a b [] [] (by rw [h])).1

theorem chain_content (e e' : BlockContentParseError) (h : e.debug = e'.debug) : e = e' := by
  have h := (c89_block_debug e e').mp h
  cases e <;> cases e' <;> simp only at h ⊢
  case blockNotFound.blockNotFound => rw [h]
  case unknownSpecParam.unknownSpecParam =>
    rw [List.append_assoc, List.append_assoc] at h
    obtain ⟨h1, h2⟩ := LawfulDebugText.code _ _ _ _ h
    rw [h1, str_inj (List.append_cancel_left h2)]
  all_goals rw [str_inj h]

/-- C96: exactly when two errors in the blocks of a container have the same chain: it names every block on the way to the one that is wrong. -/
theorem c96_blocks (e e' : BlockConversionError) : e.chain = e'.chain ↔ c96_Blocks e e' := by
  induction e generalizing e' with
  | substack1 id p e ih =>
    cases e' <;> simp only [BlockConversionError.chain, c96_Blocks, List.cons.injEq, Cause.text.injEq, c89_block, ih, false_and]
  | substack2 id p e ih =>
    cases e' <;> simp only [BlockConversionError.chain, c96_Blocks, List.cons.injEq, Cause.text.injEq, c89_block, ih, false_and]
  | invalidType t =>
    cases e' <;> simp only [BlockConversionError.chain, c96_Blocks, List.cons.injEq, Cause.text.injEq, c89_block, false_and]
    case invalidType t' =>
      simp only [c89_block_type, and_true]
      constructor
      · rintro ⟨h1, h2⟩
        rw [h1] at h2
        cases t; cases t'
        simp_all
      · rintro rfl; exact ⟨rfl, rfl⟩
  | content c =>
    cases e' <;> simp only [BlockConversionError.chain, c96_Blocks, List.cons.injEq, Cause.text.injEq, c89_block, false_and]
    case content c' =>
      constructor
      · rintro ⟨h, -⟩; exact chain_content _ _ h
      · rintro rfl; exact ⟨rfl, rfl, trivial⟩
  | malformedBlockId id =>
    cases e' <;> simp only [BlockConversionError.chain, c96_Blocks, List.cons.injEq, Cause.text.injEq, c89_block, false_and, and_true]
  | blockNotFound id =>
    cases e' <;> simp only [BlockConversionError.chain, c96_Blocks, List.cons.injEq, Cause.text.injEq, c89_block, false_and, and_true]

theorem chain_layout (e e' : ParseLayoutError) (h : e.debug = e'.debug) : e = e' := by
  cases e <;> cases e' <;> simp only [ParseLayoutError.debug, List.append_assoc] at h
  case noParentField.noParentField =>
    rw [(LawfulDebugText.code _ _ _ _ (List.append_cancel_left h)).1]
  case nonexistentParent.nonexistentParent =>
    obtain ⟨h1, h2⟩ := LawfulDebugText.code _ _ _ _ (List.append_cancel_left h)
    rw [h1, (LawfulDebugText.code _ _ _ _ (List.append_cancel_left h2)).1]
  all_goals simp at h

/-- C96: exactly when two errors in a screen have the same chain. -/
theorem c96_screen (e e' : ScreenConstructionError) : e.chain = e'.chain ↔ c96_Screen e e' := by
  have h := c89_screen e e'
  cases e <;> cases e' <;> simp only [ScreenConstructionError.chain, c96_Screen, List.cons.injEq, Cause.text.injEq, h, false_and, c96_blocks,
    and_true]
  case moreBlockSpecParseError.moreBlockSpecParseError e _ e' =>
    rw [c89_block_content]
    cases e <;> cases e' <;> simp
  case unknownEventType.unknownEventType =>
    constructor
    · exact fun h => h.1
    · rintro rfl; exact ⟨rfl, rfl⟩
  case unknownComponentType.unknownComponentType =>
    constructor
    · exact fun h => h.1
    · rintro rfl; exact ⟨rfl, rfl⟩
  case layoutParseError.layoutParseError =>
    constructor
    · exact fun h => chain_layout _ _ h.1
    · rintro rfl; exact ⟨rfl, rfl⟩

/-- The error of another library that an error in the blocks of a container comes from: an id that is no number. -/
def c96_BlocksEnd : BlockConversionError → Option Foreign
  | .malformedBlockId _ => some .int
  | .substack1 _ _ e => c96_BlocksEnd e
  | .substack2 _ _ e => c96_BlocksEnd e
  | _ => none

omit [LawfulDebugText] in
/-- C96: an error in the blocks of a container keeps the error of a bad id, as the last of its chain. -/
theorem c96_blocks_ends (e : BlockConversionError) : c96_Ends e.chain (c96_BlocksEnd e) := by
  induction e with
  | substack1 id p e ih => obtain ⟨ts, _, h⟩ := ih; exact ⟨_ :: ts, by simp, by rw [BlockConversionError.chain, h]; rfl⟩
  | substack2 id p e ih => obtain ⟨ts, _, h⟩ := ih; exact ⟨_ :: ts, by simp, by rw [BlockConversionError.chain, h]; rfl⟩
  | malformedBlockId id => exact ⟨[_], by simp, rfl⟩
  | blockNotFound id => exact ⟨[_], by simp, rfl⟩
  | invalidType t => exact ⟨[_, _], by simp, rfl⟩
  | content c => exact ⟨[_, _], by simp, rfl⟩

omit [LawfulDebugText] in
/-- C96: an error of the conversion to the API keeps the error of a bad id, as the last of its chain. -/
theorem c96_conversion_ends (e : ConversionError) : c96_Ends e.chain (match e with
    | .screenConstructionError _ _ (.blocksParseError _ e) => c96_BlocksEnd e
    | _ => none) := by
  cases e with
  | screenConstructionError a b e =>
    cases e with
    | blocksParseError c e =>
      obtain ⟨ts, _, h⟩ := c96_blocks_ends e
      refine ⟨(ConversionError.screenConstructionError a b (.blocksParseError c e)).message ::
        (ScreenConstructionError.blocksParseError c e).message :: ts, by simp, ?_⟩
      show _ :: _ :: e.chain = _
      rw [h]
      rfl
    | _ => exact ⟨[_, _, _], by simp, rfl⟩
  | customViewParseLayoutError _ _ => exact ⟨[_, _], by simp, rfl⟩
  | _ => exact ⟨[_], by simp, rfl⟩

/-- What the chain tells of an error of the conversion to the API: the screen with its error, the custom view, the library and its value, the
name of the resource; not its kind. -/
def c96_Conversion : ConversionError → ConversionError → Prop
  | .screenConstructionError _ l e, .screenConstructionError _ l' e' => l = l' ∧ c96_Screen e e'
  | .missingCustomViewLayout id, .missingCustomViewLayout id' => id = id'
  | .customViewParseLayoutError id e, .customViewParseLayoutError id' e' => id = id' ∧ e.message = e'.message
  | .invalidUseYNValue l v, .invalidUseYNValue l' v' =>
    l ++ s% "` has an invalid value `" ++ v = l' ++ s% "` has an invalid value `" ++ v'
  | .missingResourceFile n _ _, .missingResourceFile n' _ _ => n = n'
  | _, _ => False

/-- C96: exactly when two errors of the conversion to the API have the same chain. -/
theorem c96_conversion (e e' : ConversionError) : e.chain = e'.chain ↔ c96_Conversion e e' := by
  have h := c89_conversion e e'
  cases e <;> cases e' <;> simp only [ConversionError.chain, c96_Conversion, List.cons.injEq, Cause.text.injEq, h, false_and, c96_screen,
    and_true]

/-- The blocks that an error is below of, from the outside to the inside, with the number of the stack. -/
def c96_way : BlockConversionError → List (Nat × UInt32)
  | .substack1 id _ e => (1, id) :: c96_way e
  | .substack2 id _ e => (2, id) :: c96_way e
  | _ => []

/-- C96: the chain tells the way to the block that is wrong. -/
theorem c96_blocks_way (e e' : BlockConversionError) (h : e.chain = e'.chain) : c96_way e = c96_way e' := by
  have h := (c96_blocks e e').mp h
  clear * - h
  induction e generalizing e' with
  | substack1 id p e ih => cases e' <;> simp only [c96_Blocks] at h; simp [c96_way, h.1, ih _ h.2]
  | substack2 id p e ih => cases e' <;> simp only [c96_Blocks] at h; simp [c96_way, h.1, ih _ h.2]
  | _ => (cases e' <;> simp only [c96_Blocks] at h); rfl

end Api

/-- A block that can be read, for `c96_texts_false`. -/
def c96_block : Block := ⟨⟨0⟩, s% "16", -1, s% "getVar", [], s% "out", -1, -1, s% "s", []⟩

theorem chain_bad_block [Floats] [MapPol] {s : Str} {pre : List Str} {bs : List Block}
    (hs : Logic.sections (lines s) = [(s% "@A.java_b") :: (pre ++ [s% "x"])]) (h : PoolReads (lineParser Block.parse) pre bs) :
    Logic.parse s = .err (.blockContainer (s% "A") (s% "b") 0 pre.length) :=
  (Logic.c69_error _ _).mpr ⟨[], _, [], [], hs, .nil, _, _, rfl,
    .blocks (hd := ⟨s% "A", s% "b"⟩) ⟨by decide +kernel, by decide +kernel, by decide +kernel, by decide +kernel, by decide +kernel⟩ (by decide +kernel) ⟨pre, bs, [], rfl, h, by simp, rfl, rfl⟩⟩

/-- C96 as claimed is false: the chain does not tell which block of a container cannot be read (the first or the second one, both with the
text `x`), not in which line a floating button is, and not whether an image or a sound is missing. -/
theorem c96_texts_false [Floats] [MapPol] [DebugText] :
    (∃ a b : LogicParseError, a ≠ b ∧ Logic.parse (s% "@A.java_b\nx") = .err a ∧
      Logic.parse (s% "@A.java_b\n" ++ c96_block.reconstruct ++ s% "\nx") = .err b ∧
      (SketchwareProjectParseError.logic a).chain = (SketchwareProjectParseError.logic b).chain) ∧
    (∃ a b : ViewParseError, a ≠ b ∧ View.parse (s% "@a.xml_fab\nx") = .err a ∧ View.parse (s% "@b.xml\n\n@a.xml_fab\nx") = .err b ∧
      (SketchwareProjectParseError.view a).chain = (SketchwareProjectParseError.view b).chain) ∧
    (Api.ConversionError.missingResourceFile (s% "a") (s% "a.png") .image).chain =
      (Api.ConversionError.missingResourceFile (s% "a") (s% "a.ogg") .sound).chain := by
  refine ⟨⟨.blockContainer (s% "A") (s% "b") 0 0, .blockContainer (s% "A") (s% "b") 0 1, by simp, ?_, ?_, (c96_project _ _).mpr ⟨rfl, rfl⟩⟩,
    ⟨.fab (s% "a") 2 (s% "@a.xml_fab"), .fab (s% "a") 4 (s% "@a.xml_fab"), by simp, ?_, ?_, (c96_project _ _).mpr rfl⟩, rfl⟩
  · exact chain_bad_block (pre := []) (bs := []) (by decide +kernel) .nil
  · exact chain_bad_block (pre := [c96_block.reconstruct]) (bs := [c96_block]) (by decide +kernel)
      (PoolReads.lineParser Block.jline Block.parse_reconstruct [c96_block])
  · rfl
  · rfl

-- A type that is no number.
example : c96_LogicEnd (.variablePool (s% "A") 2 ⟨1, s% "z:x", .malformedVariableType (s% "z")⟩) = some .int := rfl
-- The chain of an error three levels down, and the same error below another stack.
example : letI := quotedText
    (Api.BlockConversionError.substack1 7 8 (.substack2 8 9 (.blockNotFound 9))).chain =
      [.text (s% "error while parsing substack1 of block with id `7`"), .text (s% "error while parsing substack2 of block with id `8`"),
        .text (s% "block with id 9 not found")] ∧
    Api.c96_way (.substack1 7 8 (.substack2 8 9 (.blockNotFound 9))) = [(1, 7), (2, 8)] := by
  refine ⟨by decide +kernel, by decide +kernel⟩
example : (LogicParseError.variablePool (s% "A") 2 ⟨1, s% "9:x", .invalidVariableType 9⟩).chain =
    [.text (s% "error while parsing variable pool of screen A at line 2"), .text (s% "error while parsing a variable at count 1"),
      .text (s% "variable type 9 is not mapped to any value"), .text (s% "the value given (9) is not mapped to any variable type")] := by
  decide +kernel
example : ¬ c96_Logic (.variablePool (s% "A") 2 ⟨1, s% "9:x", .invalidVariableType 9⟩)
    (.variablePool (s% "A") 2 ⟨1, s% "8:x", .invalidVariableType 8⟩) := by simp [c96_Logic, c96_Variable]
example : letI := quotedText; ∀ e e' : Api.BlockConversionError, e.chain = e'.chain ↔ Api.c96_Blocks e e' :=
  letI := quotedText; letI := quoted_lawful; Api.c96_blocks
end Swrs
