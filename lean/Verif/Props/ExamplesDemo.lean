import Verif.Props.ExamplesParse
import Verif.Props.Crypto
import Verif.Base.All2
/-!
# The example program `api_demo1` (C95)
-/
namespace Swrs
open Examples

/-! ## C95 — The program that lists the blocks of a project -/
section
variable [MapPol] [Floats]

/-- The file can be read, and it is the encrypted text. -/
def c95_Reads (fs : Fs Str) (fails : Str → Bool) (path text : Str) : Prop :=
  ∃ data, fails path = false ∧ fs path = some data ∧ IsTextOf data text

/-- The first six arguments name the encrypted files of a project without resource files, which can be opened as `p`. -/
def c95_Opens (rnd : ResourceType → Nat → UInt32) (ex : PathBuf → Bool) (fs : Fs Str) (fails : Str → Bool) (args : List Str)
    (p : Api.SketchwareProject) : Prop :=
  ∃ name project file library resource view logic rest tp tf tl tr tv tg q,
    args = name :: project :: file :: library :: resource :: view :: logic :: rest ∧
    c95_Reads fs fails project tp ∧ c95_Reads fs fails file tf ∧ c95_Reads fs fails library tl ∧
    c95_Reads fs fails resource tr ∧ c95_Reads fs fails view tv ∧ c95_Reads fs fails logic tg ∧
    SketchwareProject.parseFrom ex ⟨tp, tf, tl, tr, tv, tg, some []⟩ = .ok q ∧ Api.SketchwareProject.tryFrom rnd q = .ok p

/-- A line of the listing of blocks. -/
inductive c95_Item where
  | block (indentation : Nat) (b : Api.Block)
  | stack (indentation number : Nat)
  | end

omit [MapPol] in
/-- The text of a line. -/
def c95_Item.text : c95_Item → Str
  | .block n b => List.replicate n ' ' ++ s% "Block #" ++ b.opCode ++ s% " opcode " ++ Api.BlockContent.text b.content
  | .stack n k => List.replicate n ' ' ++ s% "substack" ++ natStr 10 k ++ s% ": "
  | .end => []

omit [MapPol] in
mutual
/-- The lines for a list of blocks. -/
def c95_items (n : Nat) : List Api.Block → List c95_Item
  | [] => [.end]
  | b :: bs => c95_item n b ++ c95_items n bs
/-- The lines for a block: its own, and those of its sub stacks. -/
def c95_item (n : Nat) : Api.Block → List c95_Item
  | ⟨s1, s2, c, o, t, k⟩ => .block n ⟨s1, s2, c, o, t, k⟩ :: (c95_stack n 1 s1 ++ c95_stack n 2 s2)
/-- The lines for a sub stack: a headline, and the blocks two spaces further in. -/
def c95_stack (n k : Nat) : Option (List Api.Block) → List c95_Item
  | none => []
  | some bs => .stack n k :: c95_items (n + 2) bs
end

/-- The lines of the whole listing. -/
def c95_lines [DebugText] (p : Api.SketchwareProject) : List Str :=
  s% "Screens:" :: p.screens.flatMap fun s =>
    [s% "  Screen " ++ s.layoutName ++ s% " or " ++ s.javaName ++ s% ":", s% "    Events:"] ++ s.events.flatMap fun e =>
      (s% "      - Event " ++ e.name ++ s% ", type: " ++ eventTypeDebug e.eventType ++ s% ", blocks:") ::
        (c95_items 8 e.code).map c95_Item.text

omit [MapPol] in
mutual
theorem printBlocks_eq (n : Nat) : ∀ bs : List Api.Block, printBlocks n bs = c94_text ((c95_items n bs).map c95_Item.text)
  | [] => by simp [printBlocks, c95_items, c94_text, c95_Item.text, line]
  | b :: bs => by
    rw [printBlocks, c95_items, List.map_append, c94_text_append, printBlock_eq n b, printBlocks_eq n bs]
theorem printBlock_eq (n : Nat) : ∀ b : Api.Block, printBlock n b = c94_text ((c95_item n b).map c95_Item.text)
  | ⟨s1, s2, c, o, t, k⟩ => by
    rw [printBlock, c95_item, List.map_cons, List.map_append, c94_text_cons, c94_text_append, printStack_eq n 1 (s% "substack1: ") (by decide +kernel) s1,
      printStack_eq n 2 (s% "substack2: ") (by decide +kernel) s2]
    simp [line, c95_Item.text, spaces, Api.Block.opCode, Api.Block.content]
theorem printStack_eq (n k : Nat) (header : Str) (h : header = s% "substack" ++ natStr 10 k ++ s% ": ") :
    ∀ s : Option (List Api.Block), printStack n header s = c94_text ((c95_stack n k s).map c95_Item.text)
  | none => by simp [printStack, c95_stack, c94_text]
  | some bs => by
    rw [printStack, c95_stack, List.map_cons, c94_text_cons, printBlocks_eq (n + 2) bs, h]
    simp [line, c95_Item.text, spaces]
end

omit [MapPol] in
theorem demoListing_eq [DebugText] (p : Api.SketchwareProject) : demoListing p = c94_text (c95_lines p) := by
  simp only [demoListing, c95_lines, c94_text_cons]
  have h1 : ∀ e : Api.Event, eventListing e = c94_text ((s% "      - Event " ++ e.name ++ s% ", type: " ++ eventTypeDebug e.eventType ++
      s% ", blocks:") :: (c95_items 8 e.code).map c95_Item.text) := by
    intro e; rw [c94_text_cons, eventListing, printBlocks_eq]; simp [line]
  have h2 : ∀ {α : Type} (f : α → List Str) (as : List α), c94_text (as.flatMap f) = as.flatMap fun a => c94_text (f a) := by
    intro α f as; simp [c94_text, List.flatMap_assoc]
  have h3 : ∀ s : Api.Screen, screenListing s = c94_text ([s% "  Screen " ++ s.layoutName ++ s% " or " ++ s.javaName ++ s% ":",
      s% "    Events:"] ++ s.events.flatMap fun e => (s% "      - Event " ++ e.name ++ s% ", type: " ++ eventTypeDebug e.eventType ++
      s% ", blocks:") :: (c95_items 8 e.code).map c95_Item.text) := by
    intro s
    have : eventListing = fun e => c94_text ((s% "      - Event " ++ e.name ++ s% ", type: " ++ eventTypeDebug e.eventType ++
      s% ", blocks:") :: (c95_items 8 e.code).map c95_Item.text) := funext h1
    rw [c94_text_append, h2, screenListing, this]
    simp [line, c94_text]
  have : screenListing = _ := funext h3
  rw [h2, this]
  simp [line]

/-- The text of a file. -/
def textOf (b : Bytes) : Option Str := match decryptSwEncrypted b with
  | .ok d => fromUtf8 d
  | _ => none

omit [MapPol] [Floats] in
theorem textOf_iff {b : Bytes} {t : Str} : textOf b = some t ↔ IsTextOf b t := by
  unfold textOf IsTextOf
  cases decryptSwEncrypted b with
  | ok d => rw [fromUtf8_eq_some]; simp
  | err => simp
  | panic => simp

omit [MapPol] [Floats] in
theorem texts_iff (fs : Fs Str) (fails : Str → Bool) (n : Nat) (args ts : List Str) :
    ((readFiles fs fails n args).bind fun files => (decryptAll files).bind textAll) = some ts ↔
      ∃ paths rest, args = paths ++ rest ∧ paths.length = n ∧ All₂ (c95_Reads fs fails) paths ts := by
  induction n generalizing args ts with
  | zero =>
    constructor
    · intro h
      simp only [readFiles, Option.bind_some, decryptAll, textAll] at h
      cases h
      exact ⟨[], args, rfl, rfl, .nil⟩
    · rintro ⟨paths, rest, rfl, h, ha⟩
      rw [List.length_eq_zero_iff] at h
      subst h; cases ha; rfl
  | succ n ih =>
    cases args with
    | nil =>
      constructor
      · intro h; simp [readFiles] at h
      · rintro ⟨paths, rest, h, hl, _⟩
        have := congrArg List.length h
        simp at this; omega
    | cons p ps =>
      have step : ((readFiles fs fails (n + 1) (p :: ps)).bind fun files => (decryptAll files).bind textAll) = some ts ↔
          ∃ t us, ts = t :: us ∧ c95_Reads fs fails p t ∧
            ((readFiles fs fails n ps).bind fun files => (decryptAll files).bind textAll) = some us := by
        rw [readFiles]
        unfold c95_Reads
        cases hf : fails p with
        | true => simp
        | false =>
          cases hd : fs p with
          | none => simp
          | some d =>
            simp only [← textOf_iff]
            cases hr : readFiles fs fails n ps with
            | none => simp
            | some bs =>
              unfold textOf
              cases he : decryptSwEncrypted d with
              | err => simp [decryptAll, he]
              | panic => simp [decryptAll, he]
              | ok b =>
                cases hds : decryptAll bs with
                | none => simp [decryptAll, he, hds]
                | some ds =>
                  cases hu : fromUtf8 b with
                  | none => simp [decryptAll, he, hds, textAll, hu]
                  | some u =>
                    cases hus : textAll ds with
                    | none => simp [decryptAll, he, hds, textAll, hu, hus]
                    | some us => simp [decryptAll, he, hds, textAll, hu, hus, eq_comm]
      rw [step]
      constructor
      · rintro ⟨t, us, rfl, h1, h2⟩
        obtain ⟨paths, rest, rfl, hl, ha⟩ := (ih ps us).mp h2
        exact ⟨p :: paths, rest, rfl, by simp [hl], .cons h1 ha⟩
      · rintro ⟨paths, rest, h, hl, ha⟩
        cases ha with
        | nil => simp at hl
        | cons h1 ha =>
          simp only [List.cons_append, List.cons.injEq] at h
          obtain ⟨rfl, rfl⟩ := h
          exact ⟨_, _, rfl, h1, (ih _ _).mpr ⟨_, rest, rfl, by simpa using hl, ha⟩⟩

omit [MapPol] [Floats] in
/-- C95: how the type of an event is printed. -/
theorem c95_event_type [DebugText] (id : Str) (t : UInt8) :
    eventTypeDebug (.viewEvent id) = s% "ViewEvent { id: " ++ DebugText.str id ++ s% " }" ∧
    eventTypeDebug (.componentEvent id t) =
      s% "ComponentEvent { id: " ++ DebugText.str id ++ s% ", component_type: " ++ natStr 10 t.toNat ++ s% " }" ∧
    eventTypeDebug .activityEvent = s% "ActivityEvent" := by
  refine ⟨?_, ?_, rfl⟩
  · simp [eventTypeDebug, debugStruct, debugFields]
  · simp [eventTypeDebug, debugStruct, debugFields]

/-- C95: the program succeeds exactly if its arguments name the files of a project that can be opened; it then prints the listing. In all
other cases it panics before it prints anything. -/
theorem c95_run [DebugText] (rnd : ResourceType → Nat → UInt32) (ex : PathBuf → Bool) (fs : Fs Str) (fails : Str → Bool) (args : List Str) :
    (∃ p, c95_Opens rnd ex fs fails args p ∧ apiDemo1 rnd ex fs fails args = ⟨c94_text (c95_lines p), [], .success⟩) ∨
    ((∀ p, ¬ c95_Opens rnd ex fs fails args p) ∧ apiDemo1 rnd ex fs fails args = ⟨[], [], .panic⟩) := by
  cases args with
  | nil =>
    refine .inr ⟨?_, rfl⟩
    rintro p ⟨_, _, _, _, _, _, _, _, _, _, _, _, _, _, _, h, _⟩; cases h
  | cons name args =>
    rw [apiDemo1]
    have key : ∀ p, c95_Opens rnd ex fs fails (name :: args) p ↔ ∃ tp tf tl tr tv tg q,
        ((readFiles fs fails 6 args).bind fun files => (decryptAll files).bind textAll) = some [tp, tf, tl, tr, tv, tg] ∧
        SketchwareProject.parseFrom ex ⟨tp, tf, tl, tr, tv, tg, some []⟩ = .ok q ∧ Api.SketchwareProject.tryFrom rnd q = .ok p := by
      intro p
      constructor
      · rintro ⟨name, project, file, library, resource, view, logic, rest, tp, tf, tl, tr, tv, tg, q, h, h1, h2, h3, h4, h5, h6, hq⟩
        cases h
        exact ⟨tp, tf, tl, tr, tv, tg, q, (texts_iff ..).mpr ⟨[project, file, library, resource, view, logic], rest, rfl, rfl,
          .cons h1 (.cons h2 (.cons h3 (.cons h4 (.cons h5 (.cons h6 .nil)))))⟩, hq⟩
      · rintro ⟨tp, tf, tl, tr, tv, tg, q, h, hq⟩
        obtain ⟨paths, rest, rfl, hl, ha⟩ := (texts_iff ..).mp h
        rcases ha with _ | ⟨h1, _ | ⟨h2, _ | ⟨h3, _ | ⟨h4, _ | ⟨h5, _ | ⟨h6, _ | _⟩⟩⟩⟩⟩⟩
        exact ⟨name, _, _, _, _, _, _, rest, tp, tf, tl, tr, tv, tg, q, rfl, h1, h2, h3, h4, h5, h6, hq⟩
    cases hts : (readFiles fs fails 6 args).bind fun files => (decryptAll files).bind textAll with
    | none =>
      refine .inr ⟨fun p hp => ?_, rfl⟩
      obtain ⟨_, _, _, _, _, _, _, h, _⟩ := (key p).mp hp
      rw [hts] at h; cases h
    | some ts =>
      obtain ⟨paths, rest, _, hl, ha⟩ := (texts_iff ..).mp hts
      have hl : ts.length = 6 := by rw [← ha.length_eq]; exact hl
      obtain ⟨tp, tf, tl, tr, tv, tg, rfl⟩ : ∃ a b c d e f, ts = [a, b, c, d, e, f] := by
        match ts, hl with
        | [a, b, c, d, e, f], _ => exact ⟨a, b, c, d, e, f, rfl⟩
      have key : ∀ p, c95_Opens rnd ex fs fails (name :: args) p ↔ ∃ q,
          SketchwareProject.parseFrom ex ⟨tp, tf, tl, tr, tv, tg, some []⟩ = .ok q ∧ Api.SketchwareProject.tryFrom rnd q = .ok p := by
        intro p
        rw [key]
        constructor
        · rintro ⟨_, _, _, _, _, _, q, h, hq⟩
          rw [hts] at h; cases h; exact ⟨q, hq⟩
        · rintro ⟨q, hq⟩; exact ⟨_, _, _, _, _, _, q, hts, hq⟩
      simp only [RawSketchwareProject.new]
      cases hq : SketchwareProject.parseFrom ex ⟨tp, tf, tl, tr, tv, tg, some []⟩ with
      | err e =>
        refine .inr ⟨fun p hp => ?_, rfl⟩
        obtain ⟨q, h, _⟩ := (key p).mp hp
        rw [hq] at h; cases h
      | panic =>
        refine .inr ⟨fun p hp => ?_, rfl⟩
        obtain ⟨q, h, _⟩ := (key p).mp hp
        rw [hq] at h; cases h
      | ok q =>
        cases hp : Api.SketchwareProject.tryFrom rnd q with
        | ok p => exact .inl ⟨p, (key p).mpr ⟨q, hq, hp⟩, by simp [hp, demoListing_eq]⟩
        | err e =>
          refine .inr ⟨fun p h => ?_, by simp [hp, panicked]⟩
          obtain ⟨q', h, h'⟩ := (key p).mp h
          rw [hq] at h; cases h; rw [hp] at h'; cases h'
        | panic =>
          refine .inr ⟨fun p h => ?_, by simp [hp, panicked]⟩
          obtain ⟨q', h, h'⟩ := (key p).mp h
          rw [hq] at h; cases h; rw [hp] at h'; cases h'

/-- C95: a project whose resource file has any image, sound or font makes the program panic: it opens the project with an empty list of
resource files. -/
theorem c95_no_resources [DebugText] (rnd : ResourceType → Nat → UInt32) (ex : PathBuf → Bool) (fs : Fs Str) (fails : Str → Bool)
    (name project file library resource : Str) (rest : List Str) (text : Str) (r : Resource) (h : c95_Reads fs fails resource text)
    (hr : Resource.parse text = .ok r) (i : ResourceItem) (hi : i ∈ r.images ∨ i ∈ r.sounds ∨ i ∈ r.fonts) :
    apiDemo1 rnd ex fs fails (name :: project :: file :: library :: resource :: rest) = ⟨[], [], .panic⟩ := by
  rcases c95_run rnd ex fs fails (name :: project :: file :: library :: resource :: rest) with ⟨p, hp, _⟩ | ⟨_, h⟩
  · exfalso
    obtain ⟨_, _, _, _, _, _, _, _, tp, tf, tl, tr, tv, tg, q, he, _, _, _, h4, _, _, hq, hp⟩ := hp
    cases he
    obtain ⟨d, h1, h2, h3⟩ := h
    obtain ⟨d', _, h2', h3'⟩ := h4
    rw [h2] at h2'; cases h2'
    have ht : tr = text := by
      have := h3'.symm.trans h3
      have := congrArg fromUtf8 (Out.ok.inj this)
      rw [fromUtf8_utf8, fromUtf8_utf8] at this
      exact Option.some.inj this
    subst ht
    obtain ⟨hres, hfiles⟩ : q.resource = r ∧ q.resourceFiles = some ⟨none, [], [], []⟩ := by
      simp only [SketchwareProject.parseFrom, Out.bind_eq_ok] at hq
      obtain ⟨_, _, _, _, _, _, r', hr', _, _, _, _, fs', hfs', hq⟩ := hq
      rw [hr] at hr'
      cases hr'
      have := Out.ok.inj hq
      subst this
      refine ⟨rfl, ?_⟩
      revert hfs'
      cases fs' with
      | none => intro hfs'; cases hfs'
      | some f => intro hfs'; cases hfs'; rfl
    simp only [Api.SketchwareProject.tryFrom, Out.bind_eq_ok, hres, hfiles] at hp
    obtain ⟨_, _, _, _, _, _, im, him, so, hso, fo, hfo, _⟩ := hp
    have none_ok : ∀ (t : ResourceType) (g : Nat → UInt32) (is : List ResourceItem) x,
        Api.resourcesConv g t is (some []) = .ok x → is = [] := by
      intro t g is x h
      cases is with
      | nil => rfl
      | cons i is => cases h
    rcases hi with hi | hi | hi
    · rw [none_ok _ _ _ _ him] at hi; cases hi
    · rw [none_ok _ _ _ _ hso] at hi; cases hi
    · rw [none_ok _ _ _ _ hfo] at hi; cases hi
  · exact h

/-! ### The listing of blocks -/

omit [MapPol] in
mutual
/-- The blocks in the order of a walk through the program, each with its depth. -/
def c95_walk (depth : Nat) : List Api.Block → List (Nat × Api.Block)
  | [] => []
  | ⟨s1, s2, c, o, t, k⟩ :: bs =>
    (depth, ⟨s1, s2, c, o, t, k⟩) :: (c95_walkStack depth s1 ++ c95_walkStack depth s2 ++ c95_walk depth bs)
/-- The blocks of a sub stack. -/
def c95_walkStack (depth : Nat) : Option (List Api.Block) → List (Nat × Api.Block)
  | none => []
  | some bs => c95_walk (depth + 1) bs
end

omit [MapPol] in
/-- The block of a line. -/
def c95_Item.block? : c95_Item → Option (Nat × Api.Block)
  | .block n b => some (n, b)
  | _ => none

omit [MapPol] in
mutual
theorem items_walk (base depth : Nat) : ∀ bs : List Api.Block,
    (c95_items (base + 2 * depth) bs).filterMap c95_Item.block? = (c95_walk depth bs).map fun e => (base + 2 * e.1, e.2)
  | [] => by rw [c95_items, c95_walk]; rfl
  | ⟨s1, s2, c, o, t, k⟩ :: bs => by
    have e : ∀ (b : Api.Block) is, List.filterMap c95_Item.block? (.block (base + 2 * depth) b :: is) =
      (base + 2 * depth, b) :: List.filterMap c95_Item.block? is := fun _ _ => rfl
    rw [c95_items, c95_item, c95_walk, List.cons_append, e, List.filterMap_append,
      List.filterMap_append, stack_walk base depth 1 s1, stack_walk base depth 2 s2, items_walk base depth bs]
    simp
theorem stack_walk (base depth k : Nat) : ∀ s : Option (List Api.Block),
    (c95_stack (base + 2 * depth) k s).filterMap c95_Item.block? = (c95_walkStack depth s).map fun e => (base + 2 * e.1, e.2)
  | none => by rw [c95_stack, c95_walkStack]; rfl
  | some bs => by
    rw [c95_stack, c95_walkStack, List.filterMap_cons_none rfl, ← items_walk base (depth + 1) bs]
    rfl
end

omit [MapPol] in
/-- C95: every block of an event has exactly one line, in the order of the walk, indented by 8 spaces and 2 more for each level. -/
theorem c95_each_block (bs : List Api.Block) :
    (c95_items 8 bs).filterMap c95_Item.block? = (c95_walk 0 bs).map fun e => (8 + 2 * e.1, e.2) := items_walk 8 0 bs

/-- What the listing shows of a block. -/
inductive c95_Shape where
  | mk (opCode content : Str) (subStack1 subStack2 : Option (List c95_Shape))

omit [MapPol] in
mutual
/-- What the listing shows of blocks. -/
def c95_shapes : List Api.Block → List c95_Shape
  | [] => []
  | ⟨s1, s2, _, o, t, _⟩ :: bs => ⟨o, Api.BlockContent.text t, c95_shapeStack s1, c95_shapeStack s2⟩ :: c95_shapes bs
/-- What the listing shows of a sub stack. -/
def c95_shapeStack : Option (List Api.Block) → Option (List c95_Shape)
  | none => none
  | some bs => some (c95_shapes bs)
end

omit [MapPol] in
mutual
/-- No op code has a space, and no content a line break. -/
def c95_Plain : List Api.Block → Prop
  | [] => True
  | ⟨s1, s2, _, o, t, _⟩ :: bs =>
    ' ' ∉ o ∧ '\n' ∉ Api.BlockContent.text t ∧ c95_PlainStack s1 ∧ c95_PlainStack s2 ∧ c95_Plain bs
/-- The same for a sub stack. -/
def c95_PlainStack : Option (List Api.Block) → Prop
  | none => True
  | some bs => c95_Plain bs
end

omit [MapPol] in
/-- What comes after a line of `print_blocks`. -/
theorem printBlocks_head (n : Nat) (bs : List Api.Block) (x : Str) :
    (∃ r, printBlocks n bs ++ x = spaces n ++ 'B' :: r) ∨ (bs = [] ∧ printBlocks n bs ++ x = '\n' :: x) := by
  cases bs with
  | nil => exact .inr ⟨rfl, rfl⟩
  | cons b bs =>
    obtain ⟨s1, s2, c, o, t, k⟩ := b
    refine .inl ?_
    rw [printBlocks, printBlock]
    simp only [line, List.append_assoc, List.cons_append]
    exact ⟨_, rfl⟩

omit [MapPol] [Floats] in
theorem spaces_ne {n : Nat} {c : Char} (hc : c ≠ '\n') {r x : Str} : spaces n ++ c :: r ≠ '\n' :: x := by
  cases n with
  | zero => intro h; simp [spaces] at h; exact hc h.1
  | succ n => intro h; simp [spaces, List.replicate_succ] at h

omit [MapPol] [Floats] in
theorem spaces_char {n : Nat} {c d : Char} (hc : c ≠ d) {r x : Str} : spaces n ++ c :: r ≠ spaces n ++ d :: x := by
  intro h
  have := List.append_cancel_left h
  simp at this
  exact hc this.1

omit [MapPol] in
theorem stack_next (n : Nat) {header : Str} (hh : ∃ r, header = 's' :: r) (bs : List Api.Block) (x : Str) :
    ¬ ∃ r, printBlocks n bs ++ x = spaces n ++ (header ++ r) := by
  obtain ⟨h', rfl⟩ := hh
  rintro ⟨r, h⟩
  rcases printBlocks_head n bs x with ⟨r', h'⟩ | ⟨_, h'⟩
  · rw [h'] at h; exact spaces_char (by decide) h
  · rw [h'] at h; exact spaces_ne (by decide) h.symm

omit [MapPol] in
theorem stack_next2 (n : Nat) (s : Option (List Api.Block)) (bs : List Api.Block) (x : Str) :
    ¬ ∃ r, printStack n (s% "substack2: ") s ++ (printBlocks n bs ++ x) = spaces n ++ (s% "substack1: " ++ r) := by
  cases s with
  | none => rw [printStack]; exact stack_next n ⟨_, rfl⟩ bs x
  | some cs =>
    rintro ⟨r, h⟩
    rw [printStack] at h
    simp only [line, List.append_assoc] at h
    have := List.append_cancel_left h
    simp at this

omit [MapPol] in
mutual
theorem blocks_tell (n : Nat) : ∀ (as bs : List Api.Block) (x y : Str), c95_Plain as → c95_Plain bs →
    printBlocks n as ++ x = printBlocks n bs ++ y → c95_shapes as = c95_shapes bs ∧ x = y
  | [], bs, x, y, _, _, h => by
    rcases printBlocks_head n bs y with ⟨r', h'⟩ | ⟨rfl, h'⟩
    · rw [h', printBlocks] at h
      exact absurd h.symm (spaces_ne (by decide))
    · rw [h', printBlocks] at h
      exact ⟨rfl, by simpa [line] using h⟩
  | ⟨s1, s2, c, o, t, k⟩ :: as, [], x, y, _, _, h => by
    rcases printBlocks_head n (⟨s1, s2, c, o, t, k⟩ :: as) x with ⟨r', h'⟩ | ⟨h', _⟩
    · rw [h', printBlocks] at h
      exact absurd h (spaces_ne (by decide))
    · cases h'
  | ⟨s1, s2, c, o, t, k⟩ :: as, ⟨s1', s2', c', o', t', k'⟩ :: bs, x, y, ha, hb, h => by
    rw [c95_Plain] at ha hb
    obtain ⟨a1, a2, a3, a4, a5⟩ := ha
    obtain ⟨b1, b2, b3, b4, b5⟩ := hb
    rw [printBlocks, printBlocks, printBlock, printBlock] at h
    simp only [line, List.append_assoc] at h
    have h := List.append_cancel_left (List.append_cancel_left h)
    obtain ⟨h1, h⟩ := first_sep a1 b1 h
    have h := List.append_cancel_left (as := s% "opcode ") h
    obtain ⟨h2, h⟩ := first_sep a2 b2 h
    obtain ⟨h3, h⟩ := stack_tell n (s% "substack1: ") s1 s1' _ _ a3 b3 (stack_next2 n s2 as x) (stack_next2 n s2' bs y) h
    obtain ⟨h4, h⟩ := stack_tell n (s% "substack2: ") s2 s2' _ _ a4 b4 (stack_next _ ⟨_, rfl⟩ _ _) (stack_next _ ⟨_, rfl⟩ _ _) h
    obtain ⟨h5, h6⟩ := blocks_tell n as bs x y a5 b5 h
    rw [c95_shapes, c95_shapes, h1, h2, h3, h4, h5]
    exact ⟨rfl, h6⟩
theorem stack_tell (n : Nat) (header : Str) : ∀ (s s' : Option (List Api.Block)) (x y : Str), c95_PlainStack s → c95_PlainStack s' →
    (¬ ∃ r, x = spaces n ++ (header ++ r)) → (¬ ∃ r, y = spaces n ++ (header ++ r)) →
    printStack n header s ++ x = printStack n header s' ++ y → c95_shapeStack s = c95_shapeStack s' ∧ x = y
  | none, none, x, y, _, _, _, _, h => ⟨rfl, by simpa [printStack] using h⟩
  | none, some bs, x, y, _, _, hx, _, h => by
    rw [printStack, printStack] at h
    simp only [line, List.append_assoc, List.nil_append] at h
    exact absurd ⟨_, h⟩ hx
  | some as, none, x, y, _, _, _, hy, h => by
    rw [printStack, printStack] at h
    simp only [line, List.append_assoc, List.nil_append] at h
    exact absurd ⟨_, h.symm⟩ hy
  | some as, some bs, x, y, ha, hb, _, _, h => by
    rw [c95_PlainStack] at ha hb
    rw [printStack, printStack] at h
    simp only [List.append_assoc] at h
    obtain ⟨h1, h2⟩ := blocks_tell (n + 2) as bs x y ha hb (List.append_cancel_left h)
    rw [c95_shapeStack, c95_shapeStack, h1]
    exact ⟨rfl, h2⟩
end

omit [MapPol] in
/-- C95: the listing tells the tree of the blocks with their op codes and contents, provided that no op code has a space and no content a
line break; the end of a list can be seen. -/
theorem c95_tells (as bs : List Api.Block) (x y : Str) (ha : c95_Plain as) (hb : c95_Plain bs)
    (h : c94_text ((c95_items 8 as).map c95_Item.text) ++ x = c94_text ((c95_items 8 bs).map c95_Item.text) ++ y) :
    c95_shapes as = c95_shapes bs ∧ x = y :=
  blocks_tell 8 as bs x y ha hb (by rw [printBlocks_eq, printBlocks_eq]; exact h)

-- a block with two sub stacks, one with a block in it
example (b c : Api.Block) (hb : b = ⟨none, none, ⟨0⟩, s% "b", [], .regular⟩) (hc : c = ⟨some [b], some [], ⟨0⟩, s% "c", [], .regular⟩) :
    c95_Plain [c, b] ∧ c95_walk 0 [c, b] = [(0, c), (1, b), (0, b)] ∧ (c95_items 8 [c, b]).map c95_Item.text =
      [s% "        Block #c opcode ", s% "        substack1: ", s% "          Block #b opcode ", [], s% "        substack2: ", [],
        s% "        Block #b opcode ", []] := by
  subst hc; subst hb
  refine ⟨?_, ?_, ?_⟩
  · simp [c95_Plain, c95_PlainStack, Api.BlockContent.text]
  · simp [c95_walk, c95_walkStack]
  · have h1 : natStr 10 1 = ['1'] := by decide +kernel
    have h2 : natStr 10 2 = ['2'] := by decide +kernel
    simp [c95_items, c95_item, c95_stack, c95_Item.text, Api.Block.opCode, Api.Block.content, Api.BlockContent.text, h1, h2,
      List.replicate]

end
end Swrs
