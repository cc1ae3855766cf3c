import Verif.Props.ArgCode
import Verif.Props.CodeText
/-!
# C142: an argument of a block is edited in the text of the logic file
-/
set_option linter.unusedSectionVars false
namespace Swrs.Api
section
variable [MapPol] [Floats]
open Swrs.Logic

/-! ### Specification -/

/-- Specification: the words of a spec that stand for arguments. -/
def c142_words (spec : Str) : List Str := (splitOn ' ' spec).filter fun w => w.head? = some '%'

/-- Specification: a text is a value for an argument. Every text is one for a menu; for the others there is no `@` in front, and numbers and booleans have to be such. -/
def c142_Value : Str → Str → Prop
  | '%' :: 's' :: _, t => t.head? ≠ some '@'
  | '%' :: 'd' :: _, t => t.head? ≠ some '@' ∧ Floats.read64 t ≠ none
  | '%' :: 'b' :: _, t => t.head? ≠ some '@' ∧ (t = s% "true" ∨ t = s% "false")
  | '%' :: 'm' :: _, _ => True
  | _, _ => False

/-- Specification: the code has another value in one place, at some depth: argument `j` of a block is the value that the text stands for. -/
def c142_Set (j : Nat) (t : Str) (z z' : List Block) : Prop := ∃ C y cl i i' cr, c134_Place C ∧ z = C y ∧ y.content = cl ++ i :: cr ∧ c140_count cl = j ∧
  c140_literal i t = some i' ∧ z' = C (c140_with (cl ++ i' :: cr) y)

/-- Specification: the code has a block in one place, at some depth: argument `j` of a block is this block. -/
def c142_Fill (j : Nat) (v : Block) (z z' : List Block) : Prop := ∃ C y cl i i' cr, c134_Place C ∧ z = C y ∧ y.content = cl ++ i :: cr ∧ c140_count cl = j ∧
  c140_block i v = some i' ∧ z' = C (c140_with (cl ++ i' :: cr) y)

/-! ### The word of an argument -/

/-- The word is that of the argument. -/
def c142_Of : Str → SpecItem Block → Prop
  | '%' :: 's' :: _, .param (.string ..) => True
  | '%' :: 'd' :: _, .param (.number ..) => True
  | '%' :: 'b' :: _, .param (.boolean ..) => True
  | '%' :: 'm' :: _, .param (.menu ..) => True
  | _, _ => False

theorem c142_word {g : UInt32 → Option ParserBlock} {ws as : List Str} {c0 : List (SpecItem Block)} (hr : Reads ws as c0) :
    ∀ {c cl cr : List (SpecItem Block)} {i : SpecItem Block} {u : List UInt32}, Tree g (.items c0 c) u → c = cl ++ i :: cr → c140_count [i] = 1 →
      ∃ w, (ws.filter fun w => w.head? = some '%')[c140_count cl]? = some w ∧ c142_Of w i := by
  have step : ∀ {ws : List Str} {w0 : Str} {j' : SpecItem Block} {is c cl cr : List (SpecItem Block)} {i : SpecItem Block}
      (_ : ∀ {c cl cr : List (SpecItem Block)} {i : SpecItem Block} {u : List UInt32}, Tree g (.items is c) u → c = cl ++ i :: cr → c140_count [i] = 1 →
        ∃ w, (ws.filter fun w => w.head? = some '%')[c140_count cl]? = some w ∧ c142_Of w i) {u : List UInt32} (_ : Tree g (.items is c) u)
      (_ : j' :: c = cl ++ i :: cr) (_ : c140_count [i] = 1) (_ : w0.head? = some '%') (_ : c142_Of w0 j') (_ : ∀ is, c140_count (j' :: is) = c140_count is + 1),
      ∃ w, ((w0 :: ws).filter fun w => w.head? = some '%')[c140_count cl]? = some w ∧ c142_Of w i := by
    intro ws w0 j' is c cl cr i ih u ht e hi hw0 hof hcount
    rw [List.filter_cons_of_pos (by simpa using hw0)]
    cases cl with
    | nil =>
      cases e
      exact ⟨w0, rfl, hof⟩
    | cons j'' cl =>
      obtain ⟨rfl, e'⟩ := List.cons.inj e
      obtain ⟨w, h1, h2⟩ := ih ht e' hi
      exact ⟨w, by rw [hcount, List.getElem?_cons_succ]; exact h1, h2⟩
  induction hr with
  | nil as => intro c cl cr i u ht e hi; cases ht; cases cl <;> cases e
  | text w h t ih =>
    intro c cl cr i u ht e hi
    rw [List.filter_cons_of_neg (by simpa using h)]
    cases ht with
    | keep _ ht =>
      cases cl with
      | nil => cases e; cases hi
      | cons j cl =>
        obtain ⟨rfl, e'⟩ := List.cons.inj e
        exact ih (cl := cl) ht e' hi
  | string t a h rr ih =>
    intro c cl cr i u ht e hi
    cases ht with
    | keep _ ht => exact step ih ht e hi rfl trivial fun _ => rfl
    | string _ ht => exact step ih ht e hi rfl trivial fun _ => rfl
  | number t a h rr ih =>
    intro c cl cr i u ht e hi
    cases ht with
    | keep _ ht => exact step ih ht e hi rfl trivial fun _ => rfl
    | number _ ht => exact step ih ht e hi rfl trivial fun _ => rfl
  | boolean t a h rr ih =>
    intro c cl cr i u ht e hi
    cases ht with
    | keep _ ht => exact step ih ht e hi rfl trivial fun _ => rfl
    | boolean _ ht => exact step ih ht e hi rfl trivial fun _ => rfl
  | menu t n a h rr ih =>
    intro c cl cr i u ht e hi
    cases ht with
    | keep _ ht => exact step ih ht e hi rfl trivial fun _ => rfl

/-- A value for the word is one for the argument. -/
theorem c142_literal {w t : Str} {i : SpecItem Block} (h : c142_Of w i) (hv : c142_Value w t) : ∃ i', c140_literal i t = some i' := by
  unfold c142_Of at h
  split at h
  · exact ⟨_, by simp only [c140_literal]; rw [if_neg hv]⟩
  · obtain ⟨h1, h2⟩ := hv
    cases hx : Floats.read64 t with
    | none => exact absurd hx h2
    | some x => exact ⟨_, by simp only [c140_literal]; rw [if_neg h1, hx]; rfl⟩
  · obtain ⟨h1, rfl | rfl⟩ := hv
    · exact ⟨_, rfl⟩
    · exact ⟨_, rfl⟩
  · exact ⟨_, rfl⟩
  · exact h.elim

/-- Blocks are for all words but those of menus. -/
theorem c142_block {w : Str} {i : SpecItem Block} (h : c142_Of w i) (hm : ¬ ∃ r, w = '%' :: 'm' :: r) (v : Block) : ∃ i', c140_block i v = some i' := by
  unfold c142_Of at h
  split at h
  · exact ⟨_, rfl⟩
  · exact ⟨_, rfl⟩
  · exact ⟨_, rfl⟩
  · exact absurd ⟨_, rfl⟩ hm
  · exact h.elim

/-- The word of an argument of a block that is read alone. -/
theorem c142_alone {b : ParserBlock} {bs : List ParserBlock} (hd : c129_Distinct bs) (hb : b ∈ bs) {x : Block}
    (h : ∀ q : Int32, q < 0 → tryFrom ⟨{ b with nextBlock := q } :: c134_others b bs⟩ = .ok [x]) {cl cr : List (SpecItem Block)} {i : SpecItem Block} (e : x.content = cl ++ i :: cr)
    (hi : c140_count [i] = 1) : ∃ w, (c142_words b.spec)[c140_count cl]? = some w ∧ c142_Of w i := by
  cases hn : parseU32 b.id with
  | none => exact absurd hn (hd.1 b hb)
  | some n =>
  have hd' : c129_Distinct ({ b with nextBlock := -1 } :: c134_others b bs) := by
    have ho := c134_others_distinct (b := b) hd
    refine ⟨fun a ha => ?_, ?_⟩
    · rcases List.mem_cons.mp ha with rfl | ha
      · exact hd.1 b hb
      · exact ho.1 a ha
    · rw [List.map_cons, List.nodup_cons]
      refine ⟨fun hm => ?_, ho.2⟩
      obtain ⟨a, ha, hab⟩ := List.mem_map.mp hm
      have := (List.mem_filter.mp ha).2
      simp only [ne_eq, decide_eq_true_eq] at this
      exact this hab
  obtain ⟨u, ht, -⟩ := (c129_accepts hd' (i := n) hn _).mp (h (-1) (by decide))
  have hself : c129_tab ({ b with nextBlock := -1 } :: c134_others b bs) n = some { b with nextBlock := -1 } := (c129_tab_iff hd' n _).mpr ⟨by simp, hn⟩
  have key : ∀ {u}, Tree (c129_tab ({ b with nextBlock := -1 } :: c134_others b bs)) (.block n x) u → ∃ w, (c142_words b.spec)[c140_count cl]? = some w ∧ c142_Of w i := by
    intro u hx
    cases hx with
    | block h0 h1 h2 hr hit hty =>
      rw [hself] at h0
      cases h0
      exact c142_word hr hit e hi
  cases ht with
  | last _ _ hx => exact key hx
  | next _ _ hx hbs => cases hbs

/-! ### In the project -/

/-- C142: the line of one block in the text of the logic file is changed, so that one of its argument texts is another one, that is a value for the argument of this number of the
spec, if there is such an argument. The project is opened and converted as before, except that this argument of this block, at any depth of the code of its event or more block,
has this value. -/
theorem c142_value (ex : PathBuf → Bool) (rnd : ResourceType → Nat → UInt32) {raw : RawSketchwareProject} {logic : Str} {p : Swrs.SketchwareProject} {P : SketchwareProject}
    (hp : Swrs.SketchwareProject.parseFrom ex raw = .ok p) (hP : SketchwareProject.tryFrom rnd p = .ok P) {pre post : List Str} {l l' hd : Str} {b : List Str} {n k : Str}
    (hpar : c122_LastPar pre hd b) (hk : c115_Header hd n (.code k)) (hs : lines raw.logic = pre ++ l :: post) (hs' : lines logic = pre ++ l' :: post)
    (hl : l ≠ []) (hl' : l' ≠ []) {x : ParserBlock} {ts us : List Str} {t t' : Str} (hx : Swrs.Block.parse l = some x) (hts : x.parameters = ts ++ t :: us)
    (hx' : Swrs.Block.parse l' = some { x with parameters := ts ++ t' :: us }) (hv : ∀ w, (c142_words x.spec)[ts.length]? = some w → c142_Value w t')
    (hdis : ∀ a bs, p.logic.screens.get n = some a → a.blockContainers.get k = some ⟨bs⟩ → c129_Distinct bs) :
    ∃ q Q, Swrs.SketchwareProject.parseFrom ex { raw with logic } = .ok q ∧ SketchwareProject.tryFrom rnd q = .ok Q ∧ Q = { P with screens := Q.screens } ∧
      All₂ (fun s s' => c135_Screen (fun id z z' => z' = z ∨ (viewNameToLogic s.layoutName = n ∧ id = k ∧ c142_Set ts.length t' z z')) s s') P.screens Q.screens := by
  obtain ⟨q, Q, h1, h2, h3, h4⟩ := c137_text ex rnd hp hP (ms := [l]) (ms' := [l']) hpar hk hs hs' (.cons ⟨hl, hx⟩ .nil) (.cons ⟨hl', hx'⟩ .nil)
    (fun z z' => z' = z ∨ c142_Set ts.length t' z z') (by
      intro a u w code ha hbc _ _ hcode
      have hput : c132_Put x { x with parameters := ts ++ t' :: us } (u ++ ([x] ++ w)) (u ++ ([{ x with parameters := ts ++ t' :: us }] ++ w)) := ⟨rfl, u, w, rfl, rfl⟩
      have hd := hdis a _ ha hbc
      have hm : x ∈ u ++ ([x] ++ w) := by simp
      rcases c140_argument hd hm hcode hts with e | ⟨C, y, e1, e2, e3, ⟨-, e4⟩ | ⟨cl, i, cr, e4, e5, e6, e7, -⟩⟩
      · exact ⟨code, e _ _ hput, .inl rfl⟩
      · exact ⟨code, e4 _ _ hput, .inl rfl⟩
      · obtain ⟨v, g1, g2⟩ := c142_alone hd hm e3 e4 e6
        rw [e5] at g1
        obtain ⟨i', hi'⟩ := c142_literal g2 (hv v g1)
        exact ⟨_, e7 _ _ _ hi' hput, .inr ⟨C, y, cl, i, i', cr, e1, e2, e4, e5, hi', rfl⟩⟩)
  refine ⟨q, Q, h1, h2, h3, h4.imp fun s s' h => c137_mono (fun id z z' h => ?_) h⟩
  rcases h with h | ⟨e1, e2, h | h⟩
  · exact .inl h
  · exact .inl h
  · exact .inr ⟨e1, e2, h⟩

/-- C142: the line of one block in the text of the logic file is changed, so that one of its argument texts refers to the first one of other blocks, whose lines are put at the end
of the section. If the argument of this number of the spec is no menu, the project is opened and converted as before, except that this block is in the place of this argument,
at any depth of the code of its event or more block. -/
theorem c142_fill (ex : PathBuf → Bool) (rnd : ResourceType → Nat → UInt32) {raw : RawSketchwareProject} {logic : Str} {p : Swrs.SketchwareProject} {P : SketchwareProject}
    (hp : Swrs.SketchwareProject.parseFrom ex raw = .ok p) (hP : SketchwareProject.tryFrom rnd p = .ok P) {pre mid new post : List Str} {l l' hd : Str} {b : List Str} {n k : Str}
    (hpar : c122_LastPar pre hd b) (hk : c115_Header hd n (.code k)) (hs : lines raw.logic = pre ++ (l :: mid ++ post)) (hs' : lines logic = pre ++ (l' :: (mid ++ new) ++ post))
    (hend : post = [] ∨ post.head? = some []) {x d : ParserBlock} {ys ds : List ParserBlock} {ts us : List Str} {t t' : Str} {m : UInt32} {v : Block} {vs : List Block}
    (hm : c137_Lines (l :: mid) (x :: ys)) (hts : x.parameters = ts ++ t :: us) (hl' : c137_Lines [l'] [{ x with parameters := ts ++ t' :: us }]) (hnew : c137_Lines new (d :: ds))
    (hid : parseU32 d.id = some m) (ht' : c140_Ref t' m) (hcode : tryFrom ⟨d :: ds⟩ = .ok (v :: vs))
    (hw : ¬ ∃ r, (c142_words x.spec)[ts.length]? = some ('%' :: 'm' :: r))
    (hdis : ∀ a bs, p.logic.screens.get n = some a → a.blockContainers.get k = some ⟨bs⟩ → c129_Distinct (bs ++ d :: ds)) :
    ∃ q Q, Swrs.SketchwareProject.parseFrom ex { raw with logic } = .ok q ∧ SketchwareProject.tryFrom rnd q = .ok Q ∧ Q = { P with screens := Q.screens } ∧
      All₂ (fun s s' => c135_Screen (fun id z z' => z' = z ∨ (viewNameToLogic s.layoutName = n ∧ id = k ∧ c142_Fill ts.length v z z')) s s') P.screens Q.screens := by
  have hm' : c137_Lines (l' :: (mid ++ new)) ({ x with parameters := ts ++ t' :: us } :: (ys ++ d :: ds)) := by
    cases hm with
    | cons h1 h2 =>
      cases hl' with
      | cons h3 _ => exact .cons h3 (c121_all_append h2 hnew)
  obtain ⟨r, Q, h1, h2, h3, h4⟩ := c137_text ex rnd hp hP hpar hk hs hs' hm hm' (fun z z' => z' = z ∨ c142_Fill ts.length v z z') (by
      intro a u w c ha hbc _ hw0 hc
      obtain rfl := hw0 hend
      have hd2 := hdis a _ ha hbc
      rw [List.append_nil] at hc hd2
      have hput : c132_Put x { x with parameters := ts ++ t' :: us } (u ++ x :: ys) (u ++ { x with parameters := ts ++ t' :: us } :: ys) := ⟨rfl, u, ys, rfl, rfl⟩
      have hco : u ++ ({ x with parameters := ts ++ t' :: us } :: (ys ++ d :: ds) ++ []) = (u ++ { x with parameters := ts ++ t' :: us } :: ys) ++ d :: ds := by simp
      rw [hco]
      have hd3 := c129_distinct_left hd2
      have hmem : x ∈ u ++ x :: ys := by simp
      have hd4 : c129_Distinct ((u ++ { x with parameters := ts ++ t' :: us } :: ys) ++ d :: ds) := by
        refine c129_distinct_of hd2 (.of_eq ?_)
        rw [List.map_append (l₁ := u ++ { x with parameters := ts ++ t' :: us } :: ys), c132_numbers hput, ← List.map_append]
      rcases c140_argument hd3 hmem hc hts with e | ⟨C, y, e1, e2, e3, ⟨-, e4⟩ | ⟨cl, i, cr, e4, e5, e6, -, e7, -⟩⟩
      · exact ⟨c, c137_more hd4 (by simp) (e _ _ hput), .inl rfl⟩
      · exact ⟨c, c137_more hd4 (by simp) (e4 _ _ hput), .inl rfl⟩
      · obtain ⟨w, g1, g2⟩ := c142_alone hd3 hmem e3 e4 e6
        rw [e5] at g1
        obtain ⟨i', hi'⟩ := c142_block g2 (fun ⟨r, hr⟩ => hw ⟨r, hr ▸ g1⟩) v
        exact ⟨_, e7 _ _ _ _ _ _ _ _ hd2 hid ht' hcode hi' hput, .inr ⟨C, y, cl, i, i', cr, e1, e2, e4, e5, hi', rfl⟩⟩)
  refine ⟨r, Q, h1, h2, h3, h4.imp fun s s' h => c137_mono (fun id z z' h => ?_) h⟩
  rcases h with h | ⟨e1, e2, h | h⟩
  · exact .inl h
  · exact .inl h
  · exact .inr ⟨e1, e2, h⟩

end

/-! ### The hypotheses can be met -/

/-- A block with a block in its substack that has arguments of all kinds. -/
def c142_old : List ParserBlock := [exBlock (s% "0") (-1) 1 (s% "a") [], exBlock (s% "1") (-1) (-1) (s% "b %s c %d %b.n %m.view") [s% "x", s% "1", s% "true", s% "@v"]]

/-- `c142_value` and `c142_fill`: the text of a project with a block in a substack. Its third argument gets another value, or a block, whose line is put behind. -/
example [pol : MapPol] (ex : PathBuf → Bool) (rnd : ResourceType → Nat → UInt32) : let _ : Floats := toyFloats.toFloats
    let raw := c120_raw [] (c137_file c142_old)
    let n := s% "MainActivity"
    let hd := s% "@MainActivity.java_onCreate_initializeLogic"
    let a := exBlock (s% "0") (-1) 1 (s% "a") []
    let b := exBlock (s% "1") (-1) (-1) (s% "b %s c %d %b.n %m.view") [s% "x", s% "1", s% "true", s% "@v"]
    let d := exBlock (s% "7") (-1) (-1) (s% "d") []
    ∃ (p : Swrs.SketchwareProject) (P : SketchwareProject), Swrs.SketchwareProject.parseFrom ex raw = .ok p ∧ SketchwareProject.tryFrom rnd p = .ok P ∧ P.screens.length = 1 ∧
      Logic.c122_LastPar [hd, a.reconstruct] hd [a.reconstruct] ∧ Logic.c115_Header hd n (.code onCreateId) ∧
      lines raw.logic = [hd, a.reconstruct] ++ b.reconstruct :: [] ∧ Logic.c137_Lines [b.reconstruct] [b] ∧ b.parameters = [s% "x", s% "1"] ++ s% "true" :: [s% "@v"] ∧
      (∀ b', ∃ logic, lines logic = [hd, a.reconstruct] ++ Block.reconstruct b' :: [] ∧ Logic.c137_Lines [Block.reconstruct b'] [b']) ∧
      (∀ b', ∃ logic, lines logic = [hd, a.reconstruct] ++ (Block.reconstruct b' :: ([] ++ [d.reconstruct]) ++ []) ∧ Logic.c137_Lines [d.reconstruct] [d]) ∧
      (c142_words b.spec)[2]? = some (s% "%b.n") ∧ c142_Value (s% "%b.n") (s% "false") ∧ ¬ c142_Value (s% "%b.n") (s% "no") ∧ parseU32 d.id = some 7 ∧ c140_Ref (s% "@7") 7 ∧
      (∃ v, tryFrom ⟨[d]⟩ = .ok [v]) ∧ ∀ a bs, p.logic.screens.get n = some a → a.blockContainers.get onCreateId = some ⟨bs⟩ → c129_Distinct (bs ++ [d]) := by
  let _ : Floats := toyFloats.toFloats
  have hcode : ∃ v, tryFrom ⟨[exBlock (s% "7") (-1) (-1) (s% "d") []]⟩ = .ok [v] := by
    obtain ⟨a, b⟩ := pol
    cases a <;> cases b <;> exact ⟨_, rfl⟩
  have hP : ∃ P, SketchwareProject.tryFrom rnd (c120_read ⟨[], []⟩
      ⟨[(s% "MainActivity", { ScreenLogic.newEmpty (s% "MainActivity") with blockContainers := [(onCreateId, ⟨c142_old⟩)] })]⟩) = .ok P ∧ P.screens.length = 1 := by
    obtain ⟨a, b⟩ := pol
    cases a <;> cases b <;> exact ⟨_, rfl, rfl⟩
  obtain ⟨P, hP, hl⟩ := hP
  refine ⟨_, P, c120_parsed ex rfl (c137_file_read c142_old), hP, hl, ⟨?_, .inl rfl⟩, ⟨by decide, by decide⟩, c137_file_lines c142_old, c137_file_lines_of [_], rfl,
    fun b' => ⟨_, c137_file_lines [_, b'], c137_file_lines_of [b']⟩, fun b' => ⟨_, c137_file_lines [_, b', _], c137_file_lines_of [_]⟩, by decide, ⟨by decide, .inr rfl⟩,
    (fun h => by have := h.2; revert this; decide), by decide, ⟨s% "7", rfl, by decide⟩, hcode, ?_⟩
  · intro h
    rcases List.mem_cons.mp h with h | h
    · cases h
    · exact (Block.jline _).ne_nil (List.mem_singleton.mp h).symm
  · intro a bs ha hbs
    obtain rfl : _ = a := Option.some.inj ha
    obtain rfl : c142_old = bs := by have := Option.some.inj hbs; cases this; rfl
    exact ⟨by decide, by decide⟩

end Swrs.Api
