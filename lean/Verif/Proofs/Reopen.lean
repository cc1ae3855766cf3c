import Verif.Proofs.ResettleSteps
/-!
Which sections of a saved logic file are read again.
-/
set_option linter.unusedSectionVars false
namespace Swrs

/-- The line of a block begins with the name of its first field. -/
theorem Block.line_head (b : Block) : ∃ r, b.reconstruct = s% "{\"color\"" ++ ':' :: r := by
  refine ⟨b.reconstruct.drop 9, ?_⟩
  exact rfl

theorem Block.not_variable (b : Block) (v : Variable) : Variable.parse b.reconstruct ≠ .ok v := by
  intro h
  obtain ⟨t, ht, hc, hp⟩ := Variable.parse_eq_ok.mp h
  obtain ⟨r, hr⟩ := b.line_head
  rw [hr] at ht
  have e1 := splitOnce_append (c := ':') (a := s% "{\"color\"") (b := r) (by decide)
  have e2 := splitOnce_append (b := v.name) hc
  rw [ht, e2] at e1
  simp only [Option.some.injEq, Prod.mk.injEq] at e1
  rw [e1.1] at hp
  exact absurd hp (by rw [show parseU8 (s% "{\"color\"") = none by decide +kernel]; simp)

theorem Block.not_listVariable (b : Block) (v : ListVariable) : ListVariable.parse b.reconstruct ≠ .ok v := by
  intro h
  obtain ⟨t, ht, hc, hp⟩ := ListVariable.parse_eq_ok.mp h
  obtain ⟨r, hr⟩ := b.line_head
  rw [hr] at ht
  have e1 := splitOnce_append (c := ':') (a := s% "{\"color\"") (b := r) (by decide)
  have e2 := splitOnce_append (b := v.name) hc
  rw [ht, e2] at e1
  simp only [Option.some.injEq, Prod.mk.injEq] at e1
  rw [e1.1] at hp
  exact absurd hp (by rw [show parseU8 (s% "{\"color\"") = none by decide +kernel]; simp)

theorem Block.not_component (b : Block) : Component.parse b.reconstruct = none := by
  have : Component.dec b.enc = none := rfl
  simp [Component.parse, Block.reconstruct, Json.fromStr, Json.parse_print b.enc b.valid_enc, this]

theorem Block.not_event (b : Block) : Event.parse b.reconstruct = none := by
  have : Event.dec b.enc = none := rfl
  simp [Event.parse, Block.reconstruct, Json.fromStr, Json.parse_print b.enc b.valid_enc, this]

theorem Block.is_moreBlock (b : Block) : ∃ m, MoreBlock.parse b.reconstruct = .ok m := by
  obtain ⟨r, hr⟩ := b.line_head
  exact ⟨⟨s% "{\"color\"", r⟩, MoreBlock.parse_eq_ok.mpr ⟨hr, by simp⟩⟩

theorem Block.moreBlocks (bs : List Block) : ∃ ms, PoolReads MoreBlock.parse (bs.map Block.reconstruct) ms := by
  induction bs with
  | nil => exact ⟨[], .nil⟩
  | cons b bs ih =>
    obtain ⟨ms, hms⟩ := ih
    obtain ⟨m, hm⟩ := b.is_moreBlock
    exact ⟨m :: ms, .cons b.jline.ne_nil (by rw [hm]; rfl) hms⟩

section
variable [Floats] [MapPol] {ε α : Type}

theorem reads_no_blocks {p : Str → Out ε α} (hp : ∀ (b : Block) (a : α), p b.reconstruct ≠ .ok a) {bs : List Block} {as : List α}
    (h : PoolReads p (bs.map Block.reconstruct) as) : bs = [] := by
  cases bs with
  | nil => rfl
  | cons b bs =>
    cases h with
    | cons _ h _ => exact absurd (toOption_eq_some.mp h) (hp b _)

theorem SuffixNamed.reads {p : Str → Out ε α} {f key : α → Str} (S : SuffixNamed p f key) (as : List α) :
    ∃ vs, PoolReads p (foldBody (as.map f)) vs := by
  rcases List.eq_nil_or_concat as with rfl | ⟨ini, a, rfl⟩
  · exact ⟨[], .nil⟩
  · rw [List.concat_eq_append]
    have hs : adjS ((ini ++ [a]).map f) = (ini ++ [a]).map f := by
      cases ini with
      | nil => simp [adjS, S.trimStart_eq]
      | cons b ini => simp [adjS, S.trimStart_eq]
    rw [foldBody, hs, List.map_append, List.map_singleton, adjE_concat, S.trimEnd_line]
    refine ⟨ini ++ [S.setName a (trimEnd (key a))], ?_⟩
    apply ReadsAll.append
    · apply ReadsAll.map
      intro b _
      exact ⟨by rw [S.f_eq]; simp, by rw [S.f_eq, S.parse_pre, S.set_key]; rfl⟩
    · exact .cons (by simp) (by rw [S.parse_pre]; rfl) .nil

theorem foldBody_jl {ls : List Str} (h : ∀ l ∈ ls, JLine l) : foldBody ls = ls := by
  have h1 : adjS ls = ls := by
    cases ls with
    | nil => rfl
    | cons l ls => rw [adjS, trimStart_eq_self.mpr (h l (by simp)).head_not_ws]
  rw [foldBody, h1]
  rcases List.eq_nil_or_concat ls with rfl | ⟨ini, l, rfl⟩
  · rfl
  · rw [List.concat_eq_append, adjE_concat, trimEnd_eq_self.mpr (h l (by simp)).last_not_ws]

theorem MoreBlock.reads (as : List MoreBlock) (hc : ∀ a ∈ as, ':' ∉ a.id) :
    ∃ vs, PoolReads MoreBlock.parse (foldBody (as.map MoreBlock.reconstruct)) vs := by
  rw [foldBody, MoreBlock.adjS_map, MoreBlock.adjE_map]
  refine ⟨adjLast (adjFirst as), ?_⟩
  apply ReadsAll.map
  intro m hm
  refine ⟨by simp [reconstruct], ?_⟩
  rw [parse_reconstruct]; rfl
  have : m.id ∈ (adjFirst as).map (·.id) := by
    rw [← adjLast_ids]; exact List.mem_map_of_mem hm
  cases as with
  | nil => simp [adjFirst] at this
  | cons x ms =>
    simp only [adjFirst, List.map_cons, List.mem_cons, List.mem_map] at this
    rcases this with h1 | ⟨y, hy, h1⟩
    · rw [h1]; intro hh
      exact hc x (by simp) ((trimStart_suffix _).subset hh)
    · rw [← h1]; exact hc y (by simp [hy])
end

section
variable [Floats] [MapPol]

/-- The section is read. -/
def TSec.Opens (t : TSec) : Prop := ∃ name eff, Sec t.hd t.body name eff

namespace Logic

theorem word_opens {w : Str} (hw : w ∈ c28_poolWords) {bs : List Block} (hb : bs = [] ∨ w = s% "func") (name : Str) {x : Char}
    (hx : x.utf8Size = 1) : ∃ n eff, Sec ('@' :: (name ++ x :: (s% "java_" ++ w))) (bs.map Block.reconstruct) n eff := by
  have hd : ∀ {w : Str}, bs = [] ∨ w = s% "func" → w ≠ s% "func" → bs = [] := fun h h' => h.resolve_right h'
  simp only [c28_poolWords, List.mem_cons, List.not_mem_nil, or_false] at hw
  rcases hw with rfl | rfl | rfl | rfl | rfl
  · rw [hd hb (by decide)]; exact ⟨_, _, Sec.var hx .nil⟩
  · rw [hd hb (by decide)]; exact ⟨_, _, Sec.list hx .nil⟩
  · rw [hd hb (by decide)]; exact ⟨_, _, Sec.components hx .nil⟩
  · rw [hd hb (by decide)]; exact ⟨_, _, Sec.events hx .nil⟩
  · obtain ⟨ms, hms⟩ := Block.moreBlocks bs
    exact ⟨_, _, Sec.func hx hms⟩

/-- Two headers of pools with different words are different. -/
theorem word_unique {w w' : Str} (hw : w ∈ c28_poolWords) (hw' : w' ∈ c28_poolWords) {a b : Str}
    (h : a ++ (s% "java_" ++ w) = b ++ (s% "java_" ++ w')) : w = w' ∧ a = b := by
  have key : ∀ w ∈ c28_poolWords, ∀ w' ∈ c28_poolWords, (s% "java_" ++ w) <:+ (s% "java_" ++ w') → w = w' := by decide
  have hs : w = w' := by
    have h1 : (s% "java_" ++ w) <:+ a ++ (s% "java_" ++ w) := List.suffix_append _ _
    have h2 : (s% "java_" ++ w') <:+ a ++ (s% "java_" ++ w) := by rw [h]; exact List.suffix_append _ _
    rcases List.suffix_or_suffix_of_suffix h1 h2 with h3 | h3
    · exact key w hw w' hw' h3
    · exact (key w' hw' w hw h3).symm
  subst hs
  exact ⟨rfl, List.append_cancel_right h⟩

theorem block_opens {n id : Str} (h1 : ¬ javaSep <:+: n) (h2 : ¬ javaSep <:+: id) (bs : List Block) :
    (∃ name eff, Sec ('@' :: (n ++ (s% ".java_" ++ id))) (bs.map Block.reconstruct) name eff) ↔
      ∀ w ∈ c28_poolWords, (id = w ∨ (s% "java_" ++ w) <:+ id) → (bs = [] ∨ w = s% "func") ∧
        ∀ a c, id = a ++ c :: (s% "java_" ++ w) → c.utf8Size = 1 := by
  constructor
  · rintro ⟨name, eff, h⟩ w hw hid
    obtain ⟨k, hk⟩ : ∃ k, '@' :: (n ++ (s% ".java_" ++ id)) = k ++ (s% "java_" ++ w) := by
      rcases hid with rfl | ⟨r, rfl⟩
      · exact ⟨'@' :: (n ++ ['.']), by simp⟩
      · exact ⟨'@' :: (n ++ (s% ".java_" ++ r)), by simp⟩
    have last : ∀ {w' : Str} {name : Str} {x : Char}, w' ∈ c28_poolWords →
        '@' :: (n ++ (s% ".java_" ++ id)) = '@' :: (name ++ x :: (s% "java_" ++ w')) → x.utf8Size = 1 →
        w = w' ∧ ∀ a c, id = a ++ c :: (s% "java_" ++ w) → c.utf8Size = 1 := by
      intro w' name x hw' he hx
      have e1 : k ++ (s% "java_" ++ w) = ('@' :: (name ++ [x])) ++ (s% "java_" ++ w') := by
        rw [← hk, he]; simp
      obtain ⟨hww, hkk⟩ := word_unique hw hw' e1
      refine ⟨hww, ?_⟩
      rintro a c rfl
      have e2 : ('@' :: (n ++ (s% ".java_" ++ (a ++ [c])))) ++ (s% "java_" ++ w) = ('@' :: (name ++ [x])) ++ (s% "java_" ++ w') := by
        rw [← e1, ← hk]; simp
      obtain ⟨_, e3⟩ := word_unique hw hw' e2
      have := congrArg List.getLast? e3
      rw [show ('@' :: (n ++ (s% ".java_" ++ (a ++ [c])))) = ('@' :: (n ++ (s% ".java_" ++ a))) ++ [c] by simp,
        show '@' :: (name ++ [x]) = ('@' :: name) ++ [x] by simp, List.getLast?_concat, List.getLast?_concat] at this
      rw [Option.some.inj this]; exact hx
    generalize hh : '@' :: (n ++ (s% ".java_" ++ id)) = hd at h last
    generalize hbo : bs.map Block.reconstruct = body at h
    cases h with
    | @var name x _ vs hx h =>
      obtain ⟨_, hc⟩ := last (w' := s% "var") (by simp [c28_poolWords]) rfl hx
      exact ⟨.inl (reads_no_blocks Block.not_variable (hbo ▸ h)), hc⟩
    | @list name x _ vs hx h =>
      obtain ⟨_, hc⟩ := last (w' := s% "list") (by simp [c28_poolWords]) rfl hx
      exact ⟨.inl (reads_no_blocks Block.not_listVariable (hbo ▸ h)), hc⟩
    | @components name x _ vs hx h =>
      obtain ⟨_, hc⟩ := last (w' := s% "components") (by simp [c28_poolWords]) rfl hx
      refine ⟨.inl (reads_no_blocks (p := lineParser Component.parse) (fun b a => ?_) (hbo ▸ h)), hc⟩
      simp [lineParser, Block.not_component, Out.ofOption]
    | @events name x _ vs hx h =>
      obtain ⟨_, hc⟩ := last (w' := s% "events") (by simp [c28_poolWords]) rfl hx
      refine ⟨.inl (reads_no_blocks (p := lineParser Event.parse) (fun b a => ?_) (hbo ▸ h)), hc⟩
      simp [lineParser, Block.not_event, Out.ofOption]
    | @func name x _ vs hx h =>
      obtain ⟨hww, hc⟩ := last (w' := s% "func") (by simp [c28_poolWords]) rfl hx
      exact ⟨.inr hww, hc⟩
    | @blocks _ bh _ bs' hn hl hr =>
      subst hh
      have := (notPool_words n id).mp hn w hw
      rcases hid with hid | hid
      · exact absurd hid this.1
      · exact absurd hid this.2
  · intro h
    by_cases hp : NotPool ('@' :: (n ++ (s% ".java_" ++ id)))
    · exact ⟨_, _, Sec.blocks hp (header_self h1 h2) (PoolReads.lineParser Block.jline Block.parse_reconstruct bs)⟩
    · have hp' : ¬ NotPool (BlockContainerHeader.reconstruct ⟨n, id⟩) := hp
      rw [notPool_words] at hp'
      simp only [Classical.not_forall] at hp'
      obtain ⟨w, hw, hnw⟩ := hp'
      have hid : id = w ∨ (s% "java_" ++ w) <:+ id := by
        by_cases e : id = w
        · exact .inl e
        · exact .inr (Classical.byContradiction fun e' => hnw ⟨e, e'⟩)
      obtain ⟨hb, hc⟩ := h w hw hid
      rcases hid with rfl | ⟨r, rfl⟩
      · have := word_opens hw hb n (x := '.') (by decide)
        simpa using this
      · rcases List.eq_nil_or_concat r with rfl | ⟨r, c, rfl⟩
        · have := word_opens hw hb (n ++ s% ".java") (x := '_') (by decide)
          simpa using this
        · have := word_opens hw hb (n ++ (s% ".java_" ++ r)) (hc r c (by simp))
          simpa using this

end Logic

namespace ScreenLogic
variable {s : ScreenLogic}

theorem Clean.pools_open (hc : s.Clean) : (∀ t, s.varR = some t → t.Opens) ∧ (∀ t, s.listR = some t → t.Opens) ∧
    (∀ t, s.compR = some t → t.Opens) ∧ (∀ t, s.eventR = some t → t.Opens) ∧ (∀ t, s.funcR = some t → t.Opens) := by
  refine ⟨?_, ?_, ?_, ?_, ?_⟩
  · intro t ht
    simp only [varR, Option.map_eq_some_iff] at ht
    obtain ⟨p, _, rfl⟩ := ht
    obtain ⟨vs, hv⟩ := Variable.suffixNamed.reads (p.map.map (·.2))
    rw [List.map_map] at hv
    exact ⟨_, _, Sec.var (name := s.name) (x := '.') (by decide) hv⟩
  · intro t ht
    simp only [listR, Option.map_eq_some_iff] at ht
    obtain ⟨p, _, rfl⟩ := ht
    obtain ⟨vs, hv⟩ := ListVariable.suffixNamed.reads (p.map.map (·.2))
    rw [List.map_map] at hv
    exact ⟨_, _, Sec.list (name := s.name) (x := '.') (by decide) hv⟩
  · intro t ht
    simp only [compR, Option.map_eq_some_iff] at ht
    obtain ⟨p, _, rfl⟩ := ht
    refine ⟨_, _, Sec.components (name := s.name) (x := '.') (vs := p.items) (by decide) ?_⟩
    rw [poolSec, foldBody_jl fun l hl => ?_]
    · exact PoolReads.lineParser Component.jline Component.parse_reconstruct _
    · simp only [List.mem_map] at hl; obtain ⟨c, _, rfl⟩ := hl; exact c.jline
  · intro t ht
    simp only [eventR, Option.map_eq_some_iff] at ht
    obtain ⟨p, _, rfl⟩ := ht
    refine ⟨_, _, Sec.events (name := s.name) (x := '.') (vs := p.items) (by decide) ?_⟩
    rw [poolSec, foldBody_jl fun l hl => ?_]
    · exact PoolReads.lineParser Event.jline Event.parse_reconstruct _
    · simp only [List.mem_map] at hl; obtain ⟨c, _, rfl⟩ := hl; exact c.jline
  · intro t ht
    simp only [funcR, Option.map_eq_some_iff] at ht
    obtain ⟨p, hp, rfl⟩ := ht
    obtain ⟨vs, hv⟩ := MoreBlock.reads (p.map.map (·.2)) (by
      intro a ha
      simp only [List.mem_map] at ha
      obtain ⟨e, he, rfl⟩ := ha
      exact (hc.func p hp e he).2.2.2)
    rw [List.map_map] at hv
    exact ⟨_, _, Sec.func (name := s.name) (x := '.') (by decide) hv⟩

/-- The containers of a screen are read again when their names are no names of pools as written. -/
theorem Clean.blocks_open (hc : s.Clean) (hnd : s.blockContainers.keys.Nodup) : (∀ t ∈ s.blocksR, t.Opens) ↔
    ∀ e ∈ s.blockContainers, ∀ w ∈ c28_poolWords,
      ((if s.blockContainers.getLast? = some e ∧ e.2.blocks = [] then trimEnd e.1 else e.1) = w ∨
        (s% "java_" ++ w) <:+ (if s.blockContainers.getLast? = some e ∧ e.2.blocks = [] then trimEnd e.1 else e.1)) →
      (e.2.blocks = [] ∨ w = s% "func") ∧
        ∀ a c, (if s.blockContainers.getLast? = some e ∧ e.2.blocks = [] then trimEnd e.1 else e.1) = a ++ c :: (s% "java_" ++ w) →
          c.utf8Size = 1 := by
  unfold blocksR
  rcases List.eq_nil_or_concat s.blockContainers with h0 | ⟨ini, e, h0⟩
  · rw [h0]; simp [closeLast]
  rw [List.concat_eq_append] at h0
  have hlast : s.blockContainers.getLast? = some e := by rw [h0]; simp
  have hnot : ∀ x ∈ ini, ¬ (s.blockContainers.getLast? = some x ∧ x.2.blocks = []) := by
    rintro x hx ⟨hl, _⟩
    rw [hlast] at hl
    have := Option.some.inj hl
    subst this
    rw [h0, LMap.keys, List.map_append, List.nodup_append] at hnd
    exact hnd.2.2 _ (List.mem_map_of_mem hx) _ (by simp) rfl
  have hr : ∀ P : TSec → Prop, (∀ t ∈ closeLast (s.blockContainers.map s.blockSec), P t) ↔
      (∀ x ∈ ini, P (s.blockSec x)) ∧ P (s.blockSec e).close := by
    intro P
    rw [h0, List.map_append, List.map_singleton, closeLast_concat]
    simp only [List.mem_append, List.mem_map, List.mem_singleton, or_imp, forall_and, forall_eq]
    exact and_congr_left fun _ => ⟨fun h x hx => h _ ⟨x, hx, rfl⟩, fun h t ⟨x, hx, he⟩ => he ▸ h x hx⟩
  have hq : ∀ Q : Str × BlockContainer → Prop, (∀ x ∈ s.blockContainers, Q x) ↔ (∀ x ∈ ini, Q x) ∧ Q e := by
    intro Q
    rw [h0]
    simp only [List.mem_append, List.mem_singleton, or_imp, forall_and, forall_eq]
  rw [hr, hq]
  refine and_congr (forall_congr' fun x => forall_congr' fun hx => ?_) ?_
  · have hb := hc.blocks x (by rw [h0]; simp [hx])
    rw [if_neg (hnot x hx)]
    exact Logic.block_opens hb.2.1 hb.2.2 x.2.blocks
  · have hb := hc.blocks e (by rw [h0]; simp)
    by_cases hbl : e.2.blocks = []
    · rw [if_pos ⟨hlast, hbl⟩, ← Logic.block_opens hb.2.1 (infix_trimEnd hb.2.2) e.2.blocks, ← trimEnd_header]
      unfold TSec.close
      rw [if_pos (by simp [blockSec, hbl])]
      exact Iff.rfl
    · rw [if_neg (fun h => hbl h.2), ← Logic.block_opens hb.2.1 hb.2.2 e.2.blocks]
      unfold TSec.close
      rw [if_neg (by simpa [blockSec] using hbl)]
      exact Iff.rfl

end ScreenLogic

namespace Logic
open ScreenLogic

/-- The screen has code. -/
def coded (s : ScreenLogic) : Bool := s.blockContainers ≠ []

/-- What is read again of a file that was read: the pools, and the code of the screens before the first one without code. -/
theorem leading_itemsR {ss : List ScreenLogic} (hne : ∀ s ∈ ss, ¬ s.Empty) : leading (itemsR ss) =
    ss.filterMap varR ++ ss.filterMap listR ++ ss.filterMap compR ++ ss.filterMap eventR ++ ss.filterMap funcR ++
      (ss.takeWhile coded).flatMap blocksR := by
  have hs : ∀ ts : List TSec, (ts.map some).filterMap id = ts := by
    intro ts; rw [List.filterMap_map]; simp
  have hb : ∀ {s : ScreenLogic}, s.blockContainers ≠ [] → s.blocksR ≠ [] := by
    intro s h h'
    unfold blocksR at h'
    rcases List.eq_nil_or_concat s.blockContainers with h0 | ⟨ini, e, h0⟩
    · exact h h0
    · rw [h0, List.concat_eq_append, List.map_append, List.map_singleton, closeLast_concat] at h'
      simp at h'
  have hcode : ((ss.flatMap blockItemsR).takeWhile Option.isSome).filterMap id = (ss.takeWhile coded).flatMap blocksR := by
    clear hne
    induction ss with
    | nil => rfl
    | cons s ss ih =>
      rw [List.flatMap_cons, List.takeWhile_cons]
      by_cases hc : s.blockContainers = []
      · rw [blockItemsR, if_pos hc]; simp [coded, hc]
      · rw [blockItemsR, if_neg hc, List.takeWhile_append_of_pos (by simp), List.filterMap_append, hs, ih]
        simp [coded, hc]
  unfold leading itemsR
  generalize hp : ss.filterMap varR ++ ss.filterMap listR ++ ss.filterMap compR ++ ss.filterMap eventR ++ ss.filterMap funcR = pools
  have hdrop : (pools.map some ++ ss.flatMap blockItemsR).dropWhile Option.isNone = pools.map some ++ ss.flatMap blockItemsR := by
    cases pools with
    | cons t pools => simp
    | nil =>
      cases ss with
      | nil => rfl
      | cons s ss =>
        have hc : s.blockContainers ≠ [] := by
          intro hc
          simp only [List.append_eq_nil_iff, List.filterMap_eq_nil_iff] at hp
          obtain ⟨⟨⟨⟨h1, h2⟩, h3⟩, h4⟩, h5⟩ := hp
          refine hne s (by simp) ⟨?_, ?_, ?_, ?_, ?_, hc⟩
          · simpa [varR] using h1 s (by simp)
          · simpa [listR] using h2 s (by simp)
          · simpa [compR] using h3 s (by simp)
          · simpa [eventR] using h4 s (by simp)
          · simpa [funcR] using h5 s (by simp)
        rw [List.flatMap_cons, blockItemsR, if_neg hc]
        have := hb hc
        cases hbl : s.blocksR with
        | nil => exact absurd hbl this
        | cons t ts => simp
  rw [hdrop, List.takeWhile_append_of_pos (by simp), List.filterMap_append, hs, hcode]

theorem all_reads {ts : List TSec} : (∃ es, All₂ SectionReads (ts.map TSec.ls) es) ↔ ∀ t ∈ ts, t.Opens := by
  induction ts with
  | nil => exact ⟨fun _ => by simp, fun _ => ⟨[], .nil⟩⟩
  | cons t ts ih =>
    simp only [List.map_cons, List.forall_mem_cons, ← ih]
    constructor
    · rintro ⟨es, h⟩
      cases h with
      | cons h1 h2 =>
        obtain ⟨hd, body, he, hs⟩ := h1
        simp only [TSec.ls, List.cons.injEq] at he
        obtain ⟨rfl, rfl⟩ := he
        exact ⟨⟨_, _, hs⟩, _, h2⟩
    · rintro ⟨⟨n, eff, hs⟩, es, h2⟩
      exact ⟨(n, eff) :: es, .cons ⟨_, _, rfl, hs⟩ h2⟩

/-- A saved logic file is read when the containers before the first screen without code are. -/
theorem reopens {l : Logic} (h : ∀ s ∈ l.screens.map (·.2), s.blockContainers.keys.Nodup) (hcl : ∀ s ∈ l.screens.map (·.2), s.Clean) 
    (hne : ∀ s ∈ l.screens.map (·.2), ¬ s.Empty) :
    (∃ l', parse l.reconstruct = .ok l') ↔ ∀ s ∈ (l.screens.map (·.2)).takeWhile coded, ∀ t ∈ s.blocksR, t.Opens := by
  have hgood := itemsR_good hcl h
  have hs := sections_leading (fun t ht => by obtain ⟨_, _, hx⟩ := hgood t ht; exact ⟨hx.raw, hx.full⟩) (itemsR_closed hcl h)
  have ht : l.reconstruct = trim (itemsText (itemsR (l.screens.map (·.2)))) :=
    reconstruct_itemsR l hcl h
  have e : (∃ l', parse l.reconstruct = .ok l') ↔ ∃ es, All₂ SectionReads ((leading (itemsR (l.screens.map (·.2)))).map TSec.ls) es := by
    constructor
    · rintro ⟨l', hl⟩
      rw [c69_ok, ht, hs] at hl
      obtain ⟨es, h1, _⟩ := hl
      exact ⟨es, h1⟩
    · rintro ⟨es, h1⟩
      exact ⟨_, (c69_ok _ _).mpr ⟨es, by rw [ht, hs]; exact h1, rfl⟩⟩
  rw [e, all_reads, leading_itemsR hne]
  simp only [List.mem_append, List.mem_filterMap, List.mem_flatMap]
  constructor
  · exact fun h s hs t ht => h t (.inr ⟨s, hs, ht⟩)
  · rintro h t (((((⟨s, hs, ht⟩ | ⟨s, hs, ht⟩) | ⟨s, hs, ht⟩) | ⟨s, hs, ht⟩) | ⟨s, hs, ht⟩) | ⟨s, hs, ht⟩)
    · exact (hcl s hs).pools_open.1 t ht
    · exact (hcl s hs).pools_open.2.1 t ht
    · exact (hcl s hs).pools_open.2.2.1 t ht
    · exact (hcl s hs).pools_open.2.2.2.1 t ht
    · exact (hcl s hs).pools_open.2.2.2.2 t ht
    · exact h s hs t ht

end Logic
end

/-- A view file without views is read again, without its floating buttons. -/
theorem View.parse_all_empty [FloatLaws] [MapPol] (v : View) (hn : v.NamesOk) (hk : v.KeysNodup) (hall : ∀ e ∈ v.layouts, e.2.views = []) :
    View.parse v.reconstruct = .ok ⟨v.layouts, []⟩ := by
  by_cases hf : v.fabs = []
  · have := View.parse_readable v hn hk ⟨fun e he => hall e ((List.dropLast_sublist _).subset he), fun h => absurd hf h,
      fun e he w hw => by rw [hall e he] at hw; simp at hw, by rw [hf]; simp⟩
    rw [this, View.map_normL_empty hall, hf]
    rfl
  · have := View.parse_of_lines (s := v.reconstruct) (ss := v.layouts.map View.secL)
      (e := .stop ([] :: v.fabs.flatMap View.fabLines))
      (by
        intro x hx; simp only [List.mem_map] at hx
        obtain ⟨y, hy, rfl⟩ := hx
        exact View.wf_secL (hn.1 y hy).1 (by rw [hall y hy]; simp))
      (by intro l hl; simp at hl; subst hl; decide)
      (by rw [View.lines_reconstruct_fabs v hn hf, View.toLines_secL_empty hall]; rfl)
    rw [this, View.foldl_secL _ ⟨[], []⟩ (by simpa using hk.1)]
    simp only [View.Ending.result, List.nil_append, Out.ok.injEq]
    rw [View.map_normL_empty hall]

end Swrs
