import Verif.Props.Messages
import Verif.Proofs.Format
/-!
# C89: what is written in a message
-/
namespace Swrs

/-- A number in decimal. -/
def c89_number (n : Nat) : Str := (toString n).toList

theorem c89_number_eq (n : Nat) : natStr 10 n = c89_number n := by
  rw [Format.natStr_eq, c89_number, show toString n = n.repr from rfl, Nat.toList_repr]

/-- The message contains these texts. -/
def c89_Says (m : Str) (fs : List Str) : Prop := ∀ f ∈ fs, f <:+: m

/-- Finds a text among the parts of a message. -/
syntax "c89_find" : tactic
macro_rules
  | `(tactic| c89_find) => `(tactic| first
    | exact List.infix_refl _
    | (refine List.IsInfix.trans ?_ (List.prefix_append _ _).isInfix; c89_find)
    | (refine List.IsInfix.trans ?_ (List.suffix_append _ _).isInfix; c89_find))

/-- Finds all texts. -/
syntax "c89_says" : tactic
macro_rules
  | `(tactic| c89_says) => `(tactic| (
    simp only [c89_Says, List.mem_cons, List.not_mem_nil, or_false, forall_eq_or_imp, forall_eq, c89_number_eq, false_implies, implies_true]
    repeat' first | exact True.intro | refine And.intro ?_ ?_
    all_goals c89_find))

/-- C89: what the message of a file error contains: the line number and the line. -/
theorem c89_says_file (e : FileParseError) : match e with
    | .item line content => c89_Says e.message [c89_number line, content] := by
  cases e; simp only [FileParseError.message]; c89_says

/-- C89: what the message of a library error contains: the header and the line number. -/
theorem c89_says_library (e : LibraryParseError) : match e with
    | .eofAfterHeader h => c89_Says e.message [h]
    | .item h line => c89_Says e.message [h, c89_number line]
    | .missing h => c89_Says e.message [h] := by
  cases e <;> simp only [LibraryParseError.message] <;> c89_says

/-- C89: what the message of a resource error contains: the line number. -/
theorem c89_says_resource (e : ResourceParseError) : match e with
    | .item _ line => c89_Says e.message [c89_number line] := by
  cases e; simp only [ResourceParseError.message]; c89_says

/-- C89: what the message of a layout error contains: the line number. -/
theorem c89_says_layout [Floats] (e : LayoutParseError) : c89_Says e.message [c89_number e.line] := by
  simp only [LayoutParseError.message]; c89_says

/-- C89: what the message of a view error contains: the names and the line number. -/
theorem c89_says_view [Floats] (e : ViewParseError) : match e with
    | .invalidHeader line _ => c89_Says e.message [c89_number line]
    | .layout screen container _ => c89_Says e.message [screen, container]
    | .fab screen _ _ => c89_Says e.message [screen]
    | .eofAfterFabHeader screen line => c89_Says e.message [screen, c89_number line] := by
  cases e <;> simp only [ViewParseError.message] <;> c89_says

/-- C89: what the message of a logic error contains: the names and the line number. -/
theorem c89_says_logic (e : LogicParseError) : match e with
    | .variablePool screen line _ => c89_Says e.message [screen, c89_number line]
    | .listVariablePool screen line _ => c89_Says e.message [screen, c89_number line]
    | .componentPool screen line _ => c89_Says e.message [screen, c89_number line]
    | .eventPool screen line _ => c89_Says e.message [screen, c89_number line]
    | .moreBlockPool screen line _ => c89_Says e.message [screen, c89_number line]
    | .blockContainerHeader line _ => c89_Says e.message [c89_number line]
    | .blockContainer screen container line _ => c89_Says e.message [screen, container, c89_number line] := by
  cases e <;> simp only [LogicParseError.message] <;> c89_says

/-- C89: what the messages of pool errors contain: the count, and the line of an event. -/
theorem c89_says_pools : (∀ e, c89_Says (variablePoolMessage e) [c89_number e.count]) ∧
    (∀ e, c89_Says (listVariablePoolMessage e) [c89_number e.count]) ∧
    (∀ e, c89_Says (componentPoolMessage e) [c89_number e.count]) ∧
    (∀ e, c89_Says (moreBlockPoolMessage e) [c89_number e.count]) ∧
    ∀ e, c89_Says (eventPoolMessage e) [c89_number e.count, e.content] := by
  refine ⟨?_, ?_, ?_, ?_, ?_⟩ <;> intro e <;>
    simp only [variablePoolMessage, listVariablePoolMessage, componentPoolMessage, moreBlockPoolMessage, eventPoolMessage] <;> c89_says

/-- C89: what the messages of errors of variables contain: the type. -/
theorem c89_says_variable (e : VariableParseError) : match e with
    | .malformedVariable _ => True
    | .malformedVariableType content => c89_Says e.message [content]
    | .invalidVariableType v => c89_Says e.message [c89_number v.toNat] := by
  cases e <;> simp only [VariableParseError.message] <;> c89_says

/-- C89: the same of list variables, of types and of moreblocks. -/
theorem c89_says_lines : (∀ v, c89_Says (ListVariableParseError.invalidVariableType v).message [c89_number v.toNat]) ∧
    (∀ v, c89_Says (invalidVariableTypeMessage v) [c89_number v.toNat]) ∧
    ∀ content, c89_Says (MoreBlockParseError.malformedMoreBlock content).message [content] := by
  refine ⟨?_, ?_, ?_⟩ <;> intro e <;>
    simp only [ListVariableParseError.message, invalidVariableTypeMessage, MoreBlockParseError.message] <;> c89_says

namespace Api

/-- C89: what the messages of errors of blocks contain: ids, names and values. -/
theorem c89_says_block_content (e : BlockContentParseError) : match e with
    | .blockNotFound id => c89_Says e.message [c89_number id.toNat]
    | .invalidBlockId v => c89_Says e.message [v]
    | .unknownSpecParam name _ => c89_Says e.message [name]
    | .ranOutOfArgs => True
    | .invalidNumberArgument v => c89_Says e.message [v]
    | .invalidBooleanArgument v => c89_Says e.message [v] := by
  cases e <;> simp only [BlockContentParseError.message] <;> c89_says

/-- C89: the same of the conversion of blocks; an error of the content of a block is shown. -/
theorem c89_says_block [DebugText] (e : BlockConversionError) : match e with
    | .malformedBlockId id => c89_Says e.message [id]
    | .blockNotFound id => c89_Says e.message [c89_number id.toNat]
    | .substack1 id _ _ => c89_Says e.message [c89_number id.toNat]
    | .substack2 id _ _ => c89_Says e.message [c89_number id.toNat]
    | .invalidType t => c89_Says e.message [t.blockType]
    | .content c => c89_Says e.message [c.debug] := by
  cases e <;> simp only [BlockConversionError.message] <;> c89_says

/-- C89: what the messages of errors of views, layouts, events and components contain. -/
theorem c89_says_screen_parts : (∀ ty id, c89_Says (ViewTypeConversionError.unknownViewType ty id).message [c89_number ty.toNat, id]) ∧
    (∀ id, c89_Says (ViewTypeConversionError.resNameNotPresent id).message [id]) ∧
    (∀ id, c89_Says (ParseLayoutError.noParentField id).message [id]) ∧
    (∀ id parent, c89_Says (ParseLayoutError.nonexistentParent id parent).message [id, parent]) ∧
    (∀ e : UnknownEventType, c89_Says e.message [c89_number e.eventType.toNat, e.eventName]) ∧
    (∀ e : UnknownComponentType, c89_Says e.message [c89_number e.componentType.toNat, e.componentId]) ∧
    (∀ e : InvalidBlockType, c89_Says e.message [e.blockType, e.typeName]) := by
  refine ⟨?_, ?_, ?_, ?_, ?_, ?_, ?_⟩ <;> intros <;>
    simp only [ViewTypeConversionError.message, ParseLayoutError.message, UnknownEventType.message, UnknownComponentType.message,
      InvalidBlockType.message] <;> c89_says

/-- C89: what the message of an error of a screen contains. -/
theorem c89_says_screen [DebugText] (e : ScreenConstructionError) : match e with
    | .moreBlockSpecParseError id _ => c89_Says e.message [id]
    | .blocksParseError container _ => c89_Says e.message [container]
    | .unknownEventType u => e.message = u.message
    | .unknownComponentType u => e.message = u.message
    | .layoutParseError l => c89_Says e.message [l.debug] := by
  cases e <;> simp only [ScreenConstructionError.message] <;> c89_says

/-- C89: what the message of an error of the conversion of a project contains. -/
theorem c89_says_conversion (e : ConversionError) : match e with
    | .screenConstructionError _ layout _ => c89_Says e.message [layout]
    | .missingCustomViewLayout id => c89_Says e.message [id]
    | .customViewParseLayoutError id _ => c89_Says e.message [id]
    | .invalidUseYNValue lib v => c89_Says e.message [lib, v]
    | .missingResourceFile name _ _ => c89_Says e.message [name] := by
  cases e <;> simp only [ConversionError.message] <;> c89_says

/-- C89: the message for a taken resource id has a `0` where the id should be, whatever the id. -/
theorem c89_says_taken [DebugText] (id : Str) : (ResourceAdditionError.idTaken id).message = (s% "resource id `0` is already taken") := rfl

end Api

-- a number in decimal
example : c89_number 120 = s% "120" := by decide +kernel
-- the message about the tenth variable
example : variablePoolMessage ⟨10, [], .malformedVariable []⟩ = s% "error while parsing a variable at count 10" := by decide +kernel

end Swrs
