import Verif.Model.ApiBlock
/-!
# Model of `/repo/src/api/component.rs` and of the events and moreblocks of `/repo/src/api/screen.rs`
-/
namespace Swrs.Api

/-- `enum ComponentKind` — component.rs:6-36. -/
inductive ComponentKind where
  | intent
  | sharedPreferences (path : Str)
  | calendar
  | vibrator
  | timer
  | firebaseDatabase (path : Str)
  | dialog
  | mediaPlayer
  | soundPool
  | objectAnimator
  | gyroscope
  | firebaseAuth
  | interstitialAd
  | firebaseStorage (path : Str)
  | camera
  | filePicker (mimeType : Str)
  | requestNetwork
  | textToSpeech
  | speechToText
  | bluetoothConnect
  | locationManager
deriving DecidableEq, Repr

/-- `struct UnknownComponentType` — component.rs:98-103. -/
structure UnknownComponentType where
  componentType : UInt8
  componentId : Str
deriving DecidableEq, Repr

namespace ComponentKind
/-- `ComponentKind::from_parser_component` — component.rs:40-68. -/
def fromParser (c : Component) : Out UnknownComponentType ComponentKind :=
  match c.type.toNat with
  | 1 => .ok .intent
  | 2 => .ok (.sharedPreferences c.param1)
  | 3 => .ok .calendar
  | 4 => .ok .vibrator
  | 5 => .ok .timer
  | 6 => .ok (.firebaseDatabase c.param1)
  | 7 => .ok .dialog
  | 8 => .ok .mediaPlayer
  | 9 => .ok .soundPool
  | 10 => .ok .objectAnimator
  | 11 => .ok .gyroscope
  | 12 => .ok .firebaseAuth
  | 13 => .ok .interstitialAd
  | 14 => .ok (.firebaseStorage c.param1)
  | 15 => .ok .camera
  | 16 => .ok (.filePicker c.param1)
  | 17 => .ok .requestNetwork
  | 18 => .ok .textToSpeech
  | 19 => .ok .speechToText
  | 20 => .ok .bluetoothConnect
  | 21 => .ok .locationManager
  | _ => .err ⟨c.type, c.id⟩

/-- `ComponentKind::into_parser_component` — component.rs:71-95. -/
def intoParser (k : ComponentKind) (id : Str) : Component :=
  match k with
  | intent => .newEmpty id 1
  | sharedPreferences path => .new1Param id path 2
  | calendar => .newEmpty id 3
  | vibrator => .newEmpty id 4
  | timer => .newEmpty id 5
  | firebaseDatabase path => .new1Param id path 6
  | dialog => .newEmpty id 7
  | mediaPlayer => .newEmpty id 8
  | soundPool => .newEmpty id 9
  | objectAnimator => .newEmpty id 10
  | gyroscope => .newEmpty id 11
  | firebaseAuth => .newEmpty id 12
  | interstitialAd => .newEmpty id 13
  | firebaseStorage path => .new1Param id path 14
  | camera => .newEmpty id 15
  | filePicker mimeType => .new1Param id mimeType 16
  | requestNetwork => .newEmpty id 17
  | textToSpeech => .newEmpty id 18
  | speechToText => .newEmpty id 19
  | bluetoothConnect => .newEmpty id 20
  | locationManager => .newEmpty id 21
end ComponentKind

/-- `enum EventType` — screen.rs:126-135. -/
inductive EventType where
  | viewEvent (id : Str)
  | componentEvent (id : Str) (componentType : UInt8)
  | activityEvent
deriving DecidableEq, Repr

/-- `struct UnknownEventType` — screen.rs:174-179. -/
structure UnknownEventType where
  eventName : Str
  eventType : UInt8
deriving DecidableEq, Repr

namespace EventType
/-- `EventType::from_parser_event` — screen.rs:138-154. -/
def fromParser (e : Swrs.Event) : Out UnknownEventType EventType :=
  match e.eventType.toNat with
  | 1 => .ok (.viewEvent e.targetId)
  | 2 => .ok (.componentEvent e.targetId e.targetType)
  | 3 => .ok .activityEvent
  | _ => .err ⟨e.eventName, e.eventType⟩

/-- `EventType::apply_to_parser_event` — screen.rs:156-171. -/
def applyToParser (t : EventType) (e : Swrs.Event) : Swrs.Event :=
  match t with
  | viewEvent id => { e with eventType := 1, targetId := id }
  | componentEvent id ty => { e with eventType := 2, targetId := id, targetType := ty }
  | activityEvent => { e with eventType := 3 }
end EventType

/-- `struct Event` — screen.rs:75-79. -/
structure Event [Floats] where
  name : Str
  eventType : EventType
  code : List Block

namespace Event
variable [Floats]
/-- `Event::get_block_container_id` — screen.rs:83-92. -/
def containerId (e : Event) : Str :=
  match e.eventType with
  | .viewEvent id => id ++ '_' :: e.name
  | .componentEvent id _ => id ++ '_' :: e.name
  | .activityEvent =>
    if e.name = s% "onCreate" then e.name ++ s% "_initializeLogic" else e.name ++ '_' :: e.name

/-- `Event::into_parser_event` — screen.rs:96-107. -/
def intoParser (e : Event) : Swrs.Event × List Block :=
  (e.eventType.applyToParser ⟨e.name, 0, [], 0⟩, e.code)

/-- `TryFrom<ParserEvent> for Event` — screen.rs:112-123. -/
def tryFrom (e : Swrs.Event) : Out UnknownEventType Event := do
  let t ← EventType.fromParser e
  pure { name := e.eventName, eventType := t, code := [] }
end Event

/-- `struct MoreBlock` — screen.rs:57-61. -/
structure MoreBlock [Floats] where
  name : Str
  spec : BlockContent Block
  code : List Block

/-- `MoreBlock::into_parser_more_block` — screen.rs:68-70. -/
def MoreBlock.intoParser [Floats] (m : MoreBlock) : Swrs.MoreBlock × List Block :=
  (⟨m.name, BlockContent.text m.spec⟩, m.code)

end Swrs.Api
