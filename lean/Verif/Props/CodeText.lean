import Verif.Props.RowCode
import Verif.Props.CodeEdit
import Verif.Props.OneMore
/-!
# C137: code is edited in the text of the logic file
-/
set_option linter.unusedSectionVars false
namespace Swrs.Logic
variable [Floats] [MapPol]

/-! ### The section of a container -/

theorem c137_par {pre : List Str} {hd : Str} {b : List Str} (h : c122_LastPar pre hd b) : ∃ P, pre.splitOn ([] : Str) = P ++ [hd :: b] := by
  obtain ⟨hb, rfl | ⟨x, rfl⟩⟩ := h
  · exact ⟨[], by rw [List.splitOn_eq_singleton hb]; rfl⟩
  · exact ⟨x.splitOn [], by rw [List.splitOn_append_cons_self, List.splitOn_eq_singleton hb]⟩

theorem c137_post (m post : List Str) (hm : [] ∉ m) {q : List Str} {Q : List (List Str)} (h : post.splitOn ([] : Str) = q :: Q) :
    (m ++ post).splitOn ([] : Str) = (m ++ q) :: Q := by
  rcases splitOn_blank post with ⟨body, rest, rfl, hbb⟩ | hn
  · rw [List.splitOn_append_cons_self, List.splitOn_eq_singleton hbb] at h
    obtain ⟨rfl, rfl⟩ := List.cons.inj h
    rw [← List.append_assoc, List.splitOn_append_cons_self, List.splitOn_eq_singleton (by simp [hbb, hm])]
    rfl
  · rw [List.splitOn_eq_singleton hn] at h
    obtain ⟨rfl, rfl⟩ := List.cons.inj h
    rw [List.splitOn_eq_singleton (by simp [hn, hm])]

theorem c137_blank (post : List Str) : ([] :: post).splitOn ([] : Str) = [] :: post.splitOn [] := by
  have h : (([] : List Str) ++ [] :: post).splitOn ([] : Str) = _ := List.splitOn_append_cons_self ..
  simpa using h

/-- The sections of a logic file in which lines are put into a paragraph. -/
theorem c137_sections {pre : List Str} {hd : Str} {b : List Str} (hp : c122_LastPar pre hd b) (post : List Str) :
    (∃ A q B, (post = [] ∨ post.head? = some [] → q = []) ∧ ∀ m, [] ∉ m → sections (pre ++ (m ++ post)) = A ++ (hd :: (b ++ (m ++ q))) :: B) ∨
    ∀ m, [] ∉ m → sections (pre ++ (m ++ post)) = sections (pre ++ post) := by
  obtain ⟨P, hP⟩ := c137_par hp
  obtain ⟨q, Q, hq⟩ : ∃ q Q, post.splitOn ([] : Str) = q :: Q := by
    obtain ⟨_, _, q, Q, -, h, -⟩ := c116_paragraphs pre post
    exact ⟨q, Q, h⟩
  have hq0 : post = [] ∨ post.head? = some [] → q = [] := by
    rintro (rfl | h)
    · exact ((List.cons.inj hq).1).symm
    · cases post with
      | nil => cases h
      | cons x post =>
        cases h
        have := c137_blank post
        rw [hq] at this
        exact (List.cons.inj this).1
  have all : ∀ m, [] ∉ m → (pre ++ (m ++ post)).splitOn ([] : Str) = P ++ (hd :: (b ++ (m ++ q))) :: Q := by
    intro m hm
    obtain ⟨P', p', q', Q', k1, k2, k3⟩ := c116_paragraphs pre (m ++ post)
    obtain ⟨rfl, e⟩ := List.append_inj' (hP.symm.trans k1) rfl
    obtain ⟨rfl, -⟩ := List.cons.inj e
    rw [c137_post m post hm hq] at k2
    obtain ⟨rfl, rfl⟩ := List.cons.inj k2
    exact k3
  have hsec : ∀ m, isSection (hd :: (b ++ m)) = isSection (hd :: b) := fun m => rfl
  by_cases hw : ∀ x ∈ P, isSection x = true
  · by_cases hh : isSection (hd :: b) = true
    · refine .inl ⟨P, q, Q.takeWhile isSection, hq0, fun m hm => ?_⟩
      unfold sections
      rw [all m hm, List.takeWhile_append_of_pos hw, List.takeWhile_cons, hsec, if_pos hh]
    · refine .inr fun m hm => ?_
      have h0 := all [] (by simp)
      rw [List.nil_append] at h0
      unfold sections
      rw [all m hm, h0, List.takeWhile_append_of_pos hw, List.takeWhile_append_of_pos hw, List.takeWhile_cons, List.takeWhile_cons, hsec, hsec, if_neg hh, if_neg hh]
  · refine .inr fun m hm => ?_
    have key : ∀ m, (P ++ m).takeWhile isSection = P.takeWhile isSection := by
      intro m
      rw [List.takeWhile_append, if_neg]
      intro e
      exact hw (c121_takeWhile.mp ((List.takeWhile_prefix _).eq_of_length e))
    have h0 := all [] (by simp)
    rw [List.nil_append] at h0
    unfold sections
    rw [all m hm, h0, key, key]

/-- Specification: these lines say these blocks. -/
def c137_Lines (ms : List Str) (xs : List Block) : Prop := All₂ (fun l x => l ≠ [] ∧ Block.parse l = some x) ms xs

theorem c137_lines_iff (ms : List Str) (xs : List Block) : c137_Lines ms xs ↔ PoolReads (lineParser Block.parse) ms xs := by
  have one : ∀ (l : Str) (x : Block), (lineParser Block.parse l).toOption = some x ↔ Block.parse l = some x := by
    intro l x
    unfold lineParser
    cases Block.parse l <;> simp [Out.ofOption, Out.toOption]
  constructor
  · intro h
    unfold c137_Lines at h
    induction h with
    | nil => exact .nil
    | cons h _ ih => exact .cons h.1 ((one _ _).mpr h.2) ih
  · intro h
    induction h with
    | nil => exact .nil
    | cons h1 h2 _ ih => exact .cons ⟨h1, (one _ _).mp h2⟩ ih

theorem c137_lines_blank {ms : List Str} {xs : List Block} (h : c137_Lines ms xs) : [] ∉ ms := by
  intro hm
  exact ((c137_lines_iff ms xs).mp h).ne_nil _ hm rfl

theorem c137_notPool {hd : Str} {body : List Str} {n n' k : Str} {eff : ScreenLogic → ScreenLogic} (hsc : Sec hd body n' eff) (hk : c115_Header hd n (.code k)) : NotPool hd := by
  cases hsc with
  | blocks hn _ _ => exact hn
  | var hx _ => exact absurd (c115_header_unique hk ⟨by decide, _, hx, rfl⟩ (k' := .pool (s% "java_var"))).2 nofun
  | list hx _ => exact absurd (c115_header_unique hk ⟨by decide, _, hx, rfl⟩ (k' := .pool (s% "java_list"))).2 nofun
  | components hx _ => exact absurd (c115_header_unique hk ⟨by decide, _, hx, rfl⟩ (k' := .pool (s% "java_components"))).2 nofun
  | events hx _ => exact absurd (c115_header_unique hk ⟨by decide, _, hx, rfl⟩ (k' := .pool (s% "java_events"))).2 nofun
  | func hx _ => exact absurd (c115_header_unique hk ⟨by decide, _, hx, rfl⟩ (k' := .pool (s% "java_func"))).2 nofun

theorem c137_some {α β : Type} {f : α → β} (hf : ∀ a b, f a = f b → a = b) {x y : Option α} (h : x.map f = y.map f) : x = y := by
  cases x <;> cases y <;> simp_all
  exact hf _ _ h

/-- A logic file of which lines in the section of a container are replaced. -/
theorem c137_logic {s s' : Str} {pre ms ms' post : List Str} {hd : Str} {b : List Str} {n k : Str} (hpar : c122_LastPar pre hd b) (hk : c115_Header hd n (.code k))
    (hs : lines s = pre ++ (ms ++ post)) (hs' : lines s' = pre ++ (ms' ++ post)) {xs xs' : List Block} (hm : c137_Lines ms xs) (hm' : c137_Lines ms' xs') {r : Logic}
    (h : parse s = .ok r) : ∃ r', parse s' = .ok r' ∧ ∀ m, match r.screens.get m, r'.screens.get m with
      | none, none => True
      | some a, some a' => a' = { a with blockContainers := a'.blockContainers } ∧ ∀ id, a'.blockContainers.get id = a.blockContainers.get id ∨
          (m = n ∧ id = k ∧ ∃ u w, u.length = b.length ∧ (post = [] ∨ post.head? = some [] → w = []) ∧ a.blockContainers.get id = some ⟨u ++ (xs ++ w)⟩ ∧
            a'.blockContainers.get id = some ⟨u ++ (xs' ++ w)⟩)
      | _, _ => False := by
  obtain ⟨es, he, hr⟩ := (c69_ok s r).mp h
  rcases c137_sections hpar post with ⟨A, q, B, hq, hsec⟩ | hsec
  · have h1 := hsec ms (c137_lines_blank hm)
    have h2 := hsec ms' (c137_lines_blank hm')
    have he1 := he
    rw [hs, h1] at he1
    obtain ⟨e₁, e, e₂, rfl, m1, ⟨hd', body, eb, hsc⟩, m3⟩ := c122_all_mid he1
    obtain ⟨rfl, rfl⟩ := List.cons.inj eb
    obtain ⟨k', v, hk', hv, -⟩ := c115_sec hsc
    obtain ⟨hn, rfl⟩ := c115_header_unique hk hk'
    obtain ⟨bs, hbs, rfl⟩ := hv
    obtain ⟨u, w0, rfl, hu, hw0, hul⟩ := c122_split hbs
    obtain ⟨x0, w, rfl, hx0, hw, -⟩ := c122_split hw0
    obtain rfl := c119_reads_unique hx0 ((c137_lines_iff _ _).mp hm)
    have hnew : PoolReads (lineParser Block.parse) (b ++ (ms' ++ q)) (u ++ (xs' ++ w)) := hu.append (((c137_lines_iff _ _).mp hm').append hw)
    have hw' : post = [] ∨ post.head? = some [] → w = [] := by
      intro hh
      obtain rfl := hq hh
      cases hw
      rfl
    have hnp : NotPool hd := c137_notPool hsc hk
    have hsc' := Sec.blocks hnp hk.2 hnew
    have hp' : ∃ r', parse s' = .ok r' := by
      refine ⟨_, (c69_ok s' _).mpr ⟨e₁ ++ (n, fun s => { s with blockContainers := s.blockContainers.insert k ⟨u ++ (xs' ++ w)⟩ }) :: e₂, ?_, rfl⟩⟩
      rw [hs', h2]
      exact c121_all_append m1 (.cons ⟨hd, _, rfl, hsc'⟩ m3)
    obtain ⟨r', hr'⟩ := hp'
    refine ⟨r', hr', fun m => ?_⟩
    have key := c122_replaced h hr' (by rw [hs, h1]) (by rw [hs', h2]) hk m
    split
    · trivial
    · rename_i a a' ha ha'
      rw [ha, ha'] at key
      obtain ⟨k1, k2⟩ := key
      have pool : ∀ suf, c115_at a (.pool suf) = c115_at a' (.pool suf) := fun suf => (k2 (.pool suf)).elim id fun ⟨_, e, _⟩ => nomatch e
      refine ⟨?_, fun id => ?_⟩
      · obtain ⟨x1, x2, x3, x4, x5, x6, x7⟩ := a
        obtain ⟨y1, y2, y3, y4, y5, y6, y7⟩ := a'
        have p1 : x3 = y3 := c137_some (f := c115_Slot.vars) (fun _ _ h => by cases h; rfl) (pool (s% "java_var"))
        have p2 : x4 = y4 := c137_some (f := c115_Slot.lists) (fun _ _ h => by cases h; rfl) (pool (s% "java_list"))
        have p3 : x5 = y5 := c137_some (f := c115_Slot.comps) (fun _ _ h => by cases h; rfl) (pool (s% "java_components"))
        have p4 : x6 = y6 := c137_some (f := c115_Slot.events) (fun _ _ h => by cases h; rfl) (pool (s% "java_events"))
        have p5 : x7 = y7 := c137_some (f := c115_Slot.mbs) (fun _ _ h => by cases h; rfl) (pool (s% "java_func"))
        simp only at k1
        rw [k1, p1, p2, p3, p4, p5]
      · rcases k2 (.code id) with e | ⟨rfl, e, v, w', q1, q2, ⟨vs, q3, rfl⟩, ws, q4, rfl⟩
        · exact .inl (c137_some (f := c115_Slot.code) (fun _ _ h => by cases h; rfl) e).symm
        · cases e
          have r1 : a.blockContainers.get k = some ⟨vs⟩ := c137_some (f := c115_Slot.code) (y := some _) (fun _ _ h => by cases h; rfl) q1
          have r2 : a'.blockContainers.get k = some ⟨ws⟩ := c137_some (f := c115_Slot.code) (y := some _) (fun _ _ h => by cases h; rfl) q2
          rw [c119_reads_unique q3 hbs] at r1
          rw [c119_reads_unique q4 hnew] at r2
          exact .inr ⟨rfl, rfl, u, w, hul, hw', r1, r2⟩
    · rename_i hx hy
      split at key
      · rename_i hu hv; exact hx hu hv
      · rename_i a c hu hv; exact hy a c hu hv
      · exact key
  · refine ⟨r, (c69_ok s' r).mpr ⟨es, ?_, hr⟩, fun m => ?_⟩
    · rw [hs', hsec ms' (c137_lines_blank hm'), ← hsec ms (c137_lines_blank hm), ← hs]
      exact he
    · cases r.screens.get m with
      | none => trivial
      | some a => exact ⟨rfl, fun _ => .inl rfl⟩

end Swrs.Logic

namespace Swrs.Api
variable [MapPol] [Floats]
open Swrs.Logic

/-- Blocks with other numbers that are put into a container do not change the code. -/
theorem c137_more {bs ds : List ParserBlock} (hd : c129_Distinct (bs ++ ds)) (hne : bs ≠ []) {code : List Block} (h : tryFrom ⟨bs⟩ = .ok code) : tryFrom ⟨bs ++ ds⟩ = .ok code := by
  cases bs with
  | nil => exact absurd rfl hne
  | cons f rest =>
    cases hi : parseU32 f.id with
    | none => exact absurd hi (hd.1 f (by simp))
    | some i =>
      obtain ⟨u, ht, hu⟩ := (c129_accepts (c129_distinct_left hd) hi code).mp h
      exact (c129_accepts hd hi code).mpr ⟨u, c132_tab_all (c129_distinct_left hd) hd (fun x hx => List.mem_append_left _ hx) ht, hu⟩

/-- A weaker relation between the code of two screens. -/
theorem c137_mono {R S : Str → List Block → List Block → Prop} (h : ∀ id z z', R id z z' → S id z z') {s s' : Screen} (hs : c135_Screen R s s') : c135_Screen S s s' :=
  ⟨hs.1, hs.2.1.imp fun _ _ e => ⟨e.1, e.2.1, h _ _ _ e.2.2⟩, hs.2.2.imp fun _ _ e => ⟨e.1, h _ _ _ e.2⟩⟩

/-- C137: in the section of one container in the text of the logic file, lines that say blocks are replaced by other lines that say blocks. If code is read from the container
with the new blocks, the project is opened as before, and only the code of that container, in the screen of that name, is changed from the one to the other. -/
theorem c137_text (ex : PathBuf → Bool) (rnd : ResourceType → Nat → UInt32) {raw : RawSketchwareProject} {logic : Str} {p : Swrs.SketchwareProject} {P : SketchwareProject}
    (hp : Swrs.SketchwareProject.parseFrom ex raw = .ok p) (hP : SketchwareProject.tryFrom rnd p = .ok P) {pre ms ms' post : List Str} {hd : Str} {b : List Str} {n k : Str}
    (hpar : c122_LastPar pre hd b) (hk : c115_Header hd n (.code k)) (hs : lines raw.logic = pre ++ (ms ++ post)) (hs' : lines logic = pre ++ (ms' ++ post))
    {xs xs' : List ParserBlock} (hm : c137_Lines ms xs) (hm' : c137_Lines ms' xs') (R : List Block → List Block → Prop)
    (hR : ∀ a u w code, p.logic.screens.get n = some a → a.blockContainers.get k = some ⟨u ++ (xs ++ w)⟩ → u.length = b.length →
      (post = [] ∨ post.head? = some [] → w = []) → tryFrom ⟨u ++ (xs ++ w)⟩ = .ok code → ∃ code', tryFrom ⟨u ++ (xs' ++ w)⟩ = .ok code' ∧ R code code') :
    ∃ q Q, Swrs.SketchwareProject.parseFrom ex { raw with logic } = .ok q ∧ SketchwareProject.tryFrom rnd q = .ok Q ∧ Q = { P with screens := Q.screens } ∧
      All₂ (fun s s' => c135_Screen (fun id x x' => x' = x ∨ (viewNameToLogic s.layoutName = n ∧ id = k ∧ R x x')) s s') P.screens Q.screens := by
  obtain ⟨a1, a2, a3, a4, a5, a6, a7⟩ := (c58_parts ex raw p).mp hp
  obtain ⟨r', hr', hrel⟩ := c137_logic hpar hk hs hs' hm hm' a6
  obtain ⟨Q, h1, h2, h3⟩ := c135_project (R := fun m id x x' => x' = x ∨ (m = n ∧ id = k ∧ R x x')) (fun _ _ => .inl rfl) rnd hP (logic := r') fun m => by
    have := hrel m
    split
    · trivial
    · rename_i a a' ha ha'
      rw [ha, ha'] at this
      obtain ⟨t1, t2⟩ := this
      refine ⟨t1, ?_, fun id code hc => ?_⟩
      · have key : ∀ {m : Containers}, onCreateId ∈ m.keys ↔ m.get onCreateId ≠ none := fun {m} => by
          rw [ne_eq, LMap.get_eq_none]; exact Decidable.not_not.symm
        rw [key, key]
        rcases t2 onCreateId with e | ⟨-, -, u, w, -, -, e1, e2⟩
        · rw [e]
        · rw [e1, e2]; simp
      · rcases t2 id with e | ⟨rfl, rfl, u, w, hu, hw, e1, e2⟩
        · exact ⟨code, by rw [e]; exact hc, .inl rfl⟩
        · rw [e1] at hc
          obtain ⟨code', hc', hr⟩ := hR a u w code ha e1 hu hw hc
          exact ⟨code', by rw [e2]; exact hc', .inr ⟨rfl, rfl, hr⟩⟩
    · rename_i hx hy
      split at this
      · rename_i hu hv; exact hx hu hv
      · rename_i a c hu hv; exact hy a c hu hv
      · exact this
  exact ⟨{ p with logic := r' }, Q, (c58_parts ex _ _).mpr ⟨a1, a2, a3, a4, a5, hr', a7⟩, h1, h2, h3⟩

/-- C137: the line of one block in the text of the logic file is changed, so that the block has another colour and operation. The project is opened as before, except that
this block, whatever its depth in the code of its event or more block is, has the new colour and operation. -/
theorem c137_label (ex : PathBuf → Bool) (rnd : ResourceType → Nat → UInt32) {raw : RawSketchwareProject} {logic : Str} {p : Swrs.SketchwareProject} {P : SketchwareProject}
    (hp : Swrs.SketchwareProject.parseFrom ex raw = .ok p) (hP : SketchwareProject.tryFrom rnd p = .ok P) {pre post : List Str} {l l' hd : Str} {b : List Str} {n k : Str}
    (hpar : c122_LastPar pre hd b) (hk : c115_Header hd n (.code k)) (hs : lines raw.logic = pre ++ l :: post) (hs' : lines logic = pre ++ l' :: post)
    (hl : l ≠ []) (hl' : l' ≠ []) {x : ParserBlock} {c : Color} {o : Str} (hx : Swrs.Block.parse l = some x) (hx' : Swrs.Block.parse l' = some { x with color := c, opCode := o })
    (hdis : ∀ a bs, p.logic.screens.get n = some a → a.blockContainers.get k = some ⟨bs⟩ → c129_Distinct bs) :
    ∃ q Q, Swrs.SketchwareProject.parseFrom ex { raw with logic } = .ok q ∧ SketchwareProject.tryFrom rnd q = .ok Q ∧ Q = { P with screens := Q.screens } ∧
      All₂ (fun s s' => c135_Screen (fun id z z' => z' = z ∨ (viewNameToLogic s.layoutName = n ∧ id = k ∧
        ∃ C y, c134_Place C ∧ z = C y ∧ z' = C (c134_label c o y))) s s') P.screens Q.screens := by
  obtain ⟨q, Q, h1, h2, h3, h4⟩ := c137_text ex rnd hp hP (ms := [l]) (ms' := [l']) hpar hk hs hs' (.cons ⟨hl, hx⟩ .nil) (.cons ⟨hl', hx'⟩ .nil)
    (fun z z' => z' = z ∨ ∃ C y, c134_Place C ∧ z = C y ∧ z' = C (c134_label c o y)) (by
      intro a u w code ha hbc _ _ hcode
      have hput : c132_Put x { x with color := c, opCode := o } (u ++ ([x] ++ w)) (u ++ ([{ x with color := c, opCode := o }] ++ w)) := ⟨rfl, u, w, rfl, rfl⟩
      rcases c134_edit (hdis a _ ha hbc) (b := x) (by simp) hcode with ⟨-, -, e⟩ | ⟨C, y, e1, e2, -, e4, -⟩
      · exact ⟨code, e _ _ hput, .inl rfl⟩
      · exact ⟨_, e4 c o _ hput, .inr ⟨C, y, e1, e2, rfl⟩⟩)
  refine ⟨q, Q, h1, h2, h3, h4.imp fun s s' h => c137_mono (fun id z z' h => ?_) h⟩
  rcases h with h | ⟨e1, e2, h | h⟩
  · exact .inl h
  · exact .inl h
  · exact .inr ⟨e1, e2, h⟩

/-- C137: code is put behind a block in the text of the logic file: the line of the block points to the first block of the code, the lines of the code come at the end of the
section, and the last block of the code points where the block did. The project is opened as before, except that the code follows this block in its row, whatever the depth of
the row is, if the block is in a row. -/
theorem c137_paste (ex : PathBuf → Bool) (rnd : ResourceType → Nat → UInt32) {raw : RawSketchwareProject} {logic : Str} {p : Swrs.SketchwareProject} {P : SketchwareProject}
    (hp : Swrs.SketchwareProject.parseFrom ex raw = .ok p) (hP : SketchwareProject.tryFrom rnd p = .ok P) {pre mid new post : List Str} {l l' hd : Str} {b : List Str} {n k : Str}
    (hpar : c122_LastPar pre hd b) (hk : c115_Header hd n (.code k)) (hs : lines raw.logic = pre ++ (l :: mid ++ post)) (hs' : lines logic = pre ++ (l' :: (mid ++ new) ++ post))
    (hend : post = [] ∨ post.head? = some []) {x d e : ParserBlock} {q : Int32} {ys ds m ds' : List ParserBlock} {code : List Block} (hm : c137_Lines (l :: mid) (x :: ys))
    (hl' : c137_Lines [l'] [{ x with nextBlock := q }]) (hnew : c137_Lines new ds') (hq : c129_To q d) (hcode : tryFrom ⟨d :: ds⟩ = .ok code) (hrow : c129_Row (d :: ds) (m ++ [e]))
    (he : c129_Edit e x.nextBlock (d :: ds) ds')
    (hdis : ∀ a bs, p.logic.screens.get n = some a → a.blockContainers.get k = some ⟨bs⟩ → c129_Distinct (bs ++ d :: ds)) :
    ∃ r Q, Swrs.SketchwareProject.parseFrom ex { raw with logic } = .ok r ∧ SketchwareProject.tryFrom rnd r = .ok Q ∧ Q = { P with screens := Q.screens } ∧
      All₂ (fun s s' => c135_Screen (fun id z z' => z' = z ∨ (viewNameToLogic s.layoutName = n ∧ id = k ∧
        ∃ C y r, c136_Row C ∧ z = C (y :: r) ∧ z' = C (y :: (code ++ r)))) s s') P.screens Q.screens := by
  have hm' : c137_Lines (l' :: (mid ++ new)) ({ x with nextBlock := q } :: (ys ++ ds')) := by
    cases hm with
    | cons h1 h2 =>
      cases hl' with
      | cons h3 _ => exact .cons h3 (c121_all_append h2 hnew)
  obtain ⟨r, Q, h1, h2, h3, h4⟩ := c137_text ex rnd hp hP hpar hk hs hs' hm hm'
    (fun z z' => z' = z ∨ ∃ C y r, c136_Row C ∧ z = C (y :: r) ∧ z' = C (y :: (code ++ r))) (by
      intro a u w c ha hbc _ hw hc
      obtain rfl := hw hend
      have hd2 := hdis a _ ha hbc
      rw [List.append_nil] at hc hd2
      have hed : c129_Edit x q (u ++ x :: ys) (u ++ { x with nextBlock := q } :: ys) := ⟨u, ys, rfl, rfl⟩
      have hco : u ++ ({ x with nextBlock := q } :: (ys ++ ds') ++ []) = (u ++ { x with nextBlock := q } :: ys) ++ ds' := by simp
      rw [hco]
      rcases c136_row (c129_distinct_left hd2) (b := x) (by simp) hc with e1 | ⟨C, y, r, e1, e2, -, -, -, e3, -⟩
      · refine ⟨c, c137_more ?_ (by simp) (e1 _ _ hed), .inl rfl⟩
        have g1 := c129_edit_numbers hed
        have g2 := c129_edit_numbers he
        refine c129_distinct_of hd2 (.of_eq ?_)
        rw [List.map_append (l₁ := u ++ { x with nextBlock := q } :: ys), g1, g2, ← List.map_append]
      · exact ⟨_, e3 q d ds code m e ds' _ hd2 hq hcode hrow hed he, .inr ⟨C, y, r, e1, e2, rfl⟩⟩)
  refine ⟨r, Q, h1, h2, h3, h4.imp fun s s' h => c137_mono (fun id z z' h => ?_) h⟩
  rcases h with h | ⟨e1, e2, h | h⟩
  · exact .inl h
  · exact .inl h
  · exact .inr ⟨e1, e2, h⟩

/-- C137: the line of a block in the text of the logic file is changed, so that it points to the block after the next one. The project is opened as before, except that the next
block is left out of the row. -/
theorem c137_skip (ex : PathBuf → Bool) (rnd : ResourceType → Nat → UInt32) {raw : RawSketchwareProject} {logic : Str} {p : Swrs.SketchwareProject} {P : SketchwareProject}
    (hp : Swrs.SketchwareProject.parseFrom ex raw = .ok p) (hP : SketchwareProject.tryFrom rnd p = .ok P) {pre post : List Str} {l l' hd : Str} {b : List Str} {n k : Str}
    (hpar : c122_LastPar pre hd b) (hk : c115_Header hd n (.code k)) (hs : lines raw.logic = pre ++ l :: post) (hs' : lines logic = pre ++ l' :: post)
    (hl : l ≠ []) (hl' : l' ≠ []) {x d : ParserBlock} (hx : Swrs.Block.parse l = some x) (hx' : Swrs.Block.parse l' = some { x with nextBlock := d.nextBlock })
    (hq : c129_To x.nextBlock d)
    (hdis : ∀ a bs, p.logic.screens.get n = some a → a.blockContainers.get k = some ⟨bs⟩ → c129_Distinct bs ∧ d ∈ bs) :
    ∃ q Q, Swrs.SketchwareProject.parseFrom ex { raw with logic } = .ok q ∧ SketchwareProject.tryFrom rnd q = .ok Q ∧ Q = { P with screens := Q.screens } ∧
      All₂ (fun s s' => c135_Screen (fun id z z' => z' = z ∨ (viewNameToLogic s.layoutName = n ∧ id = k ∧
        ∃ C y y' r, c136_Row C ∧ z = C (y :: y' :: r) ∧ z' = C (y :: r))) s s') P.screens Q.screens := by
  obtain ⟨q, Q, h1, h2, h3, h4⟩ := c137_text ex rnd hp hP (ms := [l]) (ms' := [l']) hpar hk hs hs' (.cons ⟨hl, hx⟩ .nil) (.cons ⟨hl', hx'⟩ .nil)
    (fun z z' => z' = z ∨ ∃ C y y' r, c136_Row C ∧ z = C (y :: y' :: r) ∧ z' = C (y :: r)) (by
      intro a u w code ha hbc _ _ hcode
      obtain ⟨hd1, hd2⟩ := hdis a _ ha hbc
      have hed : c129_Edit x d.nextBlock (u ++ ([x] ++ w)) (u ++ ([{ x with nextBlock := d.nextBlock }] ++ w)) := ⟨u, w, rfl, rfl⟩
      rcases c136_row hd1 (b := x) (by simp) hcode with e | ⟨C, y, r, e1, e2, e3, -, -, -, e4⟩
      · exact ⟨code, e _ _ hed, .inl rfl⟩
      · cases r with
        | nil => exact absurd (e3.mp rfl) hq.1
        | cons y' r => exact ⟨_, e4 d _ hd2 hq hed, .inr ⟨C, y, y', r, e1, e2, rfl⟩⟩)
  refine ⟨q, Q, h1, h2, h3, h4.imp fun s s' h => c137_mono (fun id z z' h => ?_) h⟩
  rcases h with h | ⟨e1, e2, h | h⟩
  · exact .inl h
  · exact .inl h
  · exact .inr ⟨e1, e2, h⟩

theorem c137_all_eq {α : Type} {as bs : List α} (h : All₂ (fun a b => a = b) as bs) : as = bs := by
  rw [(All₂.map_iff (fun a : α => a)).mp h, List.map_id']

/-- The same code is the same screen. -/
theorem c137_screen_eq {s s' : Screen} (h : c135_Screen (fun _ x x' => x' = x) s s') : s' = s := by
  obtain ⟨h1, h2, h3⟩ := h
  have e1 : s'.moreBlocks = s.moreBlocks := by
    refine (c137_all_eq (h2.imp fun m m' e => ?_)).symm
    obtain ⟨k, m⟩ := m
    obtain ⟨k', m'⟩ := m'
    obtain ⟨e1, e2, e3⟩ := e
    simp only at e1 e2 e3
    rw [e1, e2, e3]
  have e2 : s'.events = s.events := by
    refine (c137_all_eq (h3.imp fun e e' q => ?_)).symm
    rw [q.1, q.2]
  rw [h1, e1, e2]

/-- C137: if the container with the new blocks only has other numbers, another order of the blocks after the first one or blocks with new numbers more, the same project is
opened. -/
theorem c137_same (ex : PathBuf → Bool) (rnd : ResourceType → Nat → UInt32) {raw : RawSketchwareProject} {logic : Str} {p : Swrs.SketchwareProject} {P : SketchwareProject}
    (hp : Swrs.SketchwareProject.parseFrom ex raw = .ok p) (hP : SketchwareProject.tryFrom rnd p = .ok P) {pre ms ms' post : List Str} {hd : Str} {b : List Str} {n k : Str}
    (hpar : c122_LastPar pre hd b) (hk : c115_Header hd n (.code k)) (hs : lines raw.logic = pre ++ (ms ++ post)) (hs' : lines logic = pre ++ (ms' ++ post))
    {xs xs' : List ParserBlock} (hm : c137_Lines ms xs) (hm' : c137_Lines ms' xs')
    (hR : ∀ a u w, p.logic.screens.get n = some a → a.blockContainers.get k = some ⟨u ++ (xs ++ w)⟩ → u.length = b.length →
      (post = [] ∨ post.head? = some [] → w = []) → c126_Same ⟨u ++ (xs ++ w)⟩ ⟨u ++ (xs' ++ w)⟩) :
    ∃ q, Swrs.SketchwareProject.parseFrom ex { raw with logic } = .ok q ∧ SketchwareProject.tryFrom rnd q = .ok P := by
  obtain ⟨q, Q, h1, h2, h3, h4⟩ := c137_text ex rnd hp hP hpar hk hs hs' hm hm' (fun x x' => x' = x) (by
    intro a u w code ha hbc hu hw hc
    exact ⟨code, c126_same_code (hR a u w ha hbc hu hw) hc, rfl⟩)
  have : Q.screens = P.screens := (c137_all_eq (h4.imp fun s s' h => (c137_screen_eq (c137_mono (fun _ x x' h => h.elim id (·.2.2)) h)).symm)).symm
  rw [this] at h3
  rw [h3] at h2
  exact ⟨q, h1, h2⟩

/-- C137: the lines of blocks that come after the first one in their container, with different numbers, may be put in another order: the same project is opened. -/
theorem c137_order (ex : PathBuf → Bool) (rnd : ResourceType → Nat → UInt32) {raw : RawSketchwareProject} {logic : Str} {p : Swrs.SketchwareProject} {P : SketchwareProject}
    (hp : Swrs.SketchwareProject.parseFrom ex raw = .ok p) (hP : SketchwareProject.tryFrom rnd p = .ok P) {pre ms ms' post : List Str} {hd : Str} {b : List Str} {n k : Str}
    (hpar : c122_LastPar pre hd b) (hk : c115_Header hd n (.code k)) (hs : lines raw.logic = pre ++ (ms ++ post)) (hs' : lines logic = pre ++ (ms' ++ post))
    {xs : List ParserBlock} (hm : c137_Lines ms xs) (hperm : ms.Perm ms') (hb : b ≠ [])
    (hdis : ∀ a bs, p.logic.screens.get n = some a → a.blockContainers.get k = some ⟨bs⟩ → c129_Distinct bs) :
    ∃ q, Swrs.SketchwareProject.parseFrom ex { raw with logic } = .ok q ∧ SketchwareProject.tryFrom rnd q = .ok P := by
  obtain ⟨xs', hm', hx⟩ := c124_all_perm hperm hm
  refine c137_same ex rnd hp hP hpar hk hs hs' hm hm' ?_
  intro a u w ha hbc hu _
  have hd2 := hdis a _ ha hbc
  cases u with
  | nil => exact absurd (List.length_eq_zero_iff.mp hu.symm) hb
  | cons y u =>
    have hx2 : xs.Perm xs' := by
      have := hx.map Prod.snd
      rwa [List.map_snd_zip (by rw [hm.length_eq]), List.map_snd_zip (by rw [hm'.length_eq])] at this
    exact .order ((hx2.append_right w).append_left u) (fun b' hb' => Option.ne_none_iff_exists'.mp (hd2.1 b' hb')) hd2.2

end Swrs.Api

/-! ### The hypotheses can be met -/

namespace Swrs.Api

/-- A block in front of another one, with two blocks in a substack. -/
def c137_old : List ParserBlock := [exBlock (s% "0") (-1) 1 (s% "a") [], exBlock (s% "1") 2 (-1) (s% "b") [], exBlock (s% "2") (-1) (-1) (s% "c") []]

/-- The text of a logic file with one container. -/
def c137_file (bs : List ParserBlock) : Str := joinWith '\n' ((s% "@MainActivity.java_onCreate_initializeLogic") :: bs.map Block.reconstruct)

theorem c137_file_lines (bs : List ParserBlock) : lines (c137_file bs) = (s% "@MainActivity.java_onCreate_initializeLogic") :: bs.map Block.reconstruct := by
  refine splitOn_joinWith (by simp) ?_
  intro p hp
  rcases List.mem_cons.mp hp with rfl | hp
  · decide
  · obtain ⟨b, -, rfl⟩ := List.mem_map.mp hp
    exact (Block.jline b).noNl

theorem c137_file_read [Floats] [pol : MapPol] (bs : List ParserBlock) : Logic.parse (c137_file bs) =
    .ok ⟨[(s% "MainActivity", { ScreenLogic.newEmpty (s% "MainActivity") with blockContainers := [(onCreateId, ⟨bs⟩)] })]⟩ := by
  rw [Logic.c69_ok]
  have hb : [] ∉ (s% "@MainActivity.java_onCreate_initializeLogic") :: bs.map Block.reconstruct := by
    intro h
    rcases List.mem_cons.mp h with h | h
    · cases h
    · obtain ⟨b, -, e⟩ := List.mem_map.mp h
      exact (Block.jline b).ne_nil e
  have : Logic.sections (lines (c137_file bs)) = [(s% "@MainActivity.java_onCreate_initializeLogic") :: bs.map Block.reconstruct] := by
    rw [c137_file_lines]
    unfold Logic.sections
    rw [List.splitOn_eq_singleton hb]
    rfl
  rw [this]
  refine ⟨[(s% "MainActivity", _)], .cons ⟨_, _, rfl, Sec.blocks (hd := ⟨s% "MainActivity", onCreateId⟩) (by unfold NotPool; decide) (by decide)
    (PoolReads.lineParser Block.jline Block.parse_reconstruct bs)⟩ .nil, ?_⟩
  obtain ⟨a, b⟩ := pol
  cases a <;> cases b <;> rfl

theorem c137_file_lines_of [Floats] (bs : List ParserBlock) : Logic.c137_Lines (bs.map Block.reconstruct) bs := by
  induction bs with
  | nil => exact .nil
  | cons b bs ih => exact .cons ⟨(Block.jline b).ne_nil, Block.parse_reconstruct b⟩ ih

/-- `c137_text`, `c137_label`, `c137_paste`, `c137_skip`, `c137_same` and `c137_order`: the text of a project with two blocks in a substack. The first one of them gets another colour
and operation, or two blocks behind it, or loses the other one; or their lines change places. -/
example [pol : MapPol] (ex : PathBuf → Bool) (rnd : ResourceType → Nat → UInt32) : let _ : Floats := toyFloats.toFloats
    let raw := c120_raw [] (c137_file c137_old)
    let n := s% "MainActivity"
    let hd := s% "@MainActivity.java_onCreate_initializeLogic"
    let a := exBlock (s% "0") (-1) 1 (s% "a") []
    let b := exBlock (s% "1") 2 (-1) (s% "b") []
    let c := exBlock (s% "2") (-1) (-1) (s% "c") []
    let d := exBlock (s% "7") 8 (-1) (s% "d") []
    let e := exBlock (s% "8") (-1) (-1) (s% "e") []
    ∃ (p : Swrs.SketchwareProject) (P : SketchwareProject), Swrs.SketchwareProject.parseFrom ex raw = .ok p ∧ SketchwareProject.tryFrom rnd p = .ok P ∧ P.screens.length = 1 ∧
      Logic.c122_LastPar [hd, a.reconstruct] hd [a.reconstruct] ∧ Logic.c115_Header hd n (.code onCreateId) ∧
      lines raw.logic = [hd, a.reconstruct] ++ b.reconstruct :: [c.reconstruct] ∧ Logic.c137_Lines [b.reconstruct, c.reconstruct] [b, c] ∧
      (∃ logic, lines logic = [hd, a.reconstruct] ++ ([c.reconstruct, b.reconstruct] ++ []) ∧ [b.reconstruct, c.reconstruct].Perm [c.reconstruct, b.reconstruct]) ∧
      (∀ b', ∃ logic, lines logic = [hd, a.reconstruct] ++ Block.reconstruct b' :: [c.reconstruct] ∧ Logic.c137_Lines [Block.reconstruct b'] [b']) ∧
      (∀ b' e', ∃ logic, lines logic = [hd, a.reconstruct] ++ (Block.reconstruct b' :: ([c.reconstruct] ++ [d.reconstruct, Block.reconstruct e']) ++ []) ∧
        Logic.c137_Lines [d.reconstruct, Block.reconstruct e'] [d, e']) ∧
      c129_To 7 d ∧ c129_To b.nextBlock c ∧ c129_Row [d, e] ([d] ++ [e]) ∧ (∃ code, tryFrom ⟨[d, e]⟩ = .ok code) ∧ c129_Edit e 2 [d, e] [d, { e with nextBlock := 2 }] ∧
      ∀ a bs, p.logic.screens.get n = some a → a.blockContainers.get onCreateId = some ⟨bs⟩ → c129_Distinct (bs ++ [d, e]) ∧ c ∈ bs := by
  let _ : Floats := toyFloats.toFloats
  have hcode : ∃ code, tryFrom ⟨[exBlock (s% "7") 8 (-1) (s% "d") [], exBlock (s% "8") (-1) (-1) (s% "e") []]⟩ = .ok code := by
    obtain ⟨a, b⟩ := pol
    cases a <;> cases b <;> exact ⟨_, rfl⟩
  have hP : ∃ P, SketchwareProject.tryFrom rnd (c120_read ⟨[], []⟩
      ⟨[(s% "MainActivity", { ScreenLogic.newEmpty (s% "MainActivity") with blockContainers := [(onCreateId, ⟨c137_old⟩)] })]⟩) = .ok P ∧ P.screens.length = 1 := by
    obtain ⟨a, b⟩ := pol
    cases a <;> cases b <;> exact ⟨_, rfl, rfl⟩
  obtain ⟨P, hP, hl⟩ := hP
  refine ⟨_, P, c120_parsed ex rfl (c137_file_read c137_old), hP, hl, ⟨?_, .inl rfl⟩, ⟨by decide, by decide⟩, c137_file_lines c137_old, c137_file_lines_of [_, _], ⟨_, c137_file_lines [_, _, _], .swap ..⟩,
    fun b' => ⟨_, c137_file_lines [_, b', _], c137_file_lines_of [b']⟩, fun b' e' => ⟨_, c137_file_lines [_, b', _, _, e'], c137_file_lines_of [_, e']⟩,
    ⟨by decide, by decide⟩, ⟨by decide, by decide⟩, ⟨_, _, 7, rfl, by decide, .step (.head _) (by decide) (by decide) (.stop (.tail _ (.head _)) (by decide) (by decide))⟩,
    hcode, ⟨[_], [], rfl, rfl⟩, ?_⟩
  · intro h
    rcases List.mem_cons.mp h with h | h
    · cases h
    · exact (Block.jline _).ne_nil (List.mem_singleton.mp h).symm
  · intro a bs ha hbs
    obtain rfl : _ = a := Option.some.inj ha
    obtain rfl : c137_old = bs := by have := Option.some.inj hbs; cases this; rfl
    exact ⟨⟨by decide, by decide⟩, .tail _ (.tail _ (.head _))⟩

end Swrs.Api
