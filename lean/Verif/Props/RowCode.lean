import Verif.Props.DeepCode
/-!
# C136: rows of blocks at any depth of the code are cut, joined and filled
-/
set_option linter.unusedSectionVars false
namespace Swrs.Api
variable [MapPol] [Floats]

/-! ### Specification: code with the end of a row left open -/

mutual
/-- Specification: a block in which the end of a row, at any depth, is left open. -/
inductive c136_BlockRow : (List Block → Block) → Prop
  | stack1 {f : List Block → List Block} {s2 c o t k} (h : c136_Row f) : c136_BlockRow fun x => ⟨some (f x), s2, c, o, t, k⟩
  | stack2 {f : List Block → List Block} {s1 c o t k} (h : c136_Row f) : c136_BlockRow fun x => ⟨s1, some (f x), c, o, t, k⟩
  | argument {f : List Block → SpecItem Block} {s1 s2 c o l r k} (h : c136_ItemRow f) : c136_BlockRow fun x => ⟨s1, s2, c, o, l ++ f x :: r, k⟩
/-- Specification: a list of blocks in which the end of a row is left open: its own end, or one inside of a block. -/
inductive c136_Row : (List Block → List Block) → Prop
  | here {l} : c136_Row fun x => l ++ x
  | among {f : List Block → Block} {l r} (h : c136_BlockRow f) : c136_Row fun x => l ++ f x :: r
/-- Specification: an argument in which the end of a row is left open. Boolean arguments are literals if the block is called `true` or `false`. -/
inductive c136_ItemRow : (List Block → SpecItem Block) → Prop
  | string {f : List Block → Block} {n} (h : c136_BlockRow f) : c136_ItemRow fun x => .param (.string n (.block (f x)))
  | number {f : List Block → Block} {n} (h : c136_BlockRow f) : c136_ItemRow fun x => .param (.number n (.block (f x)))
  | boolean {f : List Block → Block} {n} (h : c136_BlockRow f) : c136_ItemRow fun x => .param (.boolean n
      (if (f x).opCode = s% "true" then .value true else if (f x).opCode = s% "false" then .value false else .block (f x)))
  | menu {f : List Block → Block} {n} (h : c136_BlockRow f) : c136_ItemRow fun x => .param (.menu n (.block (f x)))
end

/-! ### Trees with an open row -/

/-- What is read, with an open row in it. -/
def c136_Goal : Goal → (List Block → Goal) → Prop
  | .block id _, F => ∃ f, c136_BlockRow f ∧ F = fun x => .block id (f x)
  | .stack p _, F => ∃ f, c136_Row f ∧ F = fun x => .stack p (some (f x))
  | .blocks id _, F => ∃ f, c136_Row f ∧ F = fun x => .blocks id (f x)
  | .items is _, F => ∃ l f r, c136_ItemRow f ∧ F = fun x => .items is (l ++ f x :: r)

/-- A block that is met while reading is an argument, or the row that begins with it has a tree of its own. -/
theorem c136_split {g : UInt32 → Option ParserBlock} {n : UInt32} {b : ParserBlock} (hb : g n = some b) {G : Goal} {u : List UInt32} (ht : Tree g G u) :
    u.Nodup → n ∈ u → (∀ (g' : UInt32 → Option ParserBlock) (q : Int32), (∀ k ∈ u, k ≠ n → g' k = g k) → g' n = some { b with nextBlock := q } → Tree g' G u) ∨
      ∃ xs u0 p q, u = p ++ (u0 ++ q) ∧ Tree g (.blocks n xs) u0 ∧ (∀ id a, G = .block id a → id ∈ p) ∧ ∃ F, c136_Goal G F ∧ F xs = G ∧
        ∀ (g' : UInt32 → Option ParserBlock) (ys : List Block) (v : List UInt32), (∀ k ∈ p ++ q, g' k = g k) → Tree g' (.blocks n ys) v → Tree g' (F ys) (p ++ (v ++ q)) := by
  induction ht with
  | @block id pb s1 s2 c0 c t u1 u2 u3 h0 h1 h2 hr hi hty ih1 ih2 ih3 =>
    intro hu hn
    by_cases hid : id = n
    · subst hid
      exact .inl fun g' q e1 e2 => c129_block (.block h0 h1 h2 hr hi hty) hu hb e2 e1
    · obtain ⟨m1, m2⟩ := List.nodup_cons.mp hu
      obtain ⟨m3, m4, m5⟩ := List.nodup_append.mp m2
      obtain ⟨m6, m7, m8⟩ := List.nodup_append.mp m4
      rcases List.mem_cons.mp hn with h | hn
      · exact absurd h.symm hid
      rcases List.mem_append.mp hn with hn | hn
      · rcases ih1 m3 hn with hB | ⟨xs, u0, p, q, rfl, hx, -, F, ⟨f, hf, rfl⟩, hF, hh⟩
        · refine .inl fun g' q e1 e2 => .block ((e1 id (by simp) hid).trans h0) (hB g' q (fun k hk => e1 k (by simp [hk])) e2)
            (h2.congr fun k hk => e1 k (by simp [hk]) ?_) hr (hi.congr fun k hk => e1 k (by simp [hk]) ?_) hty <;>
          · rintro rfl
            exact m5 _ hn _ (by simp [hk]) rfl
        · simp only [Goal.stack.injEq, true_and] at hF
          subst hF
          refine .inr ⟨xs, u0, id :: p, q ++ (u2 ++ u3), by simp, hx, fun _ _ h => by cases h; simp, fun x => .block id ⟨some (f x), s2, pb.color, pb.opCode, c, t⟩,
            ⟨_, .stack1 hf, rfl⟩, rfl, ?_⟩
          intro g' y v e1 hv
          have := Tree.block (g := g') (id := id) ((e1 id (by simp)).trans h0) (hh g' y v (fun k hk => e1 k (by
              simp only [List.mem_append, List.mem_cons] at hk ⊢; exact hk.elim (fun h => .inl (.inr h)) fun h => .inr (.inl h))) hv)
            (h2.congr fun k hk => e1 k (by simp [hk])) hr (hi.congr fun k hk => e1 k (by simp [hk])) hty
          simpa [List.append_assoc] using this
      rcases List.mem_append.mp hn with hn | hn
      · rcases ih2 m6 hn with hB | ⟨xs, u0, p, q, rfl, hx, -, F, ⟨f, hf, rfl⟩, hF, hh⟩
        · refine .inl fun g' q e1 e2 => .block ((e1 id (by simp) hid).trans h0) (h1.congr fun k hk => e1 k (by simp [hk]) ?_)
            (hB g' q (fun k hk => e1 k (by simp [hk])) e2) hr (hi.congr fun k hk => e1 k (by simp [hk]) ?_) hty
          · rintro rfl
            exact m5 _ hk _ (by simp [hn]) rfl
          · rintro rfl
            exact m8 _ hn _ hk rfl
        · simp only [Goal.stack.injEq, true_and] at hF
          subst hF
          refine .inr ⟨xs, u0, id :: (u1 ++ p), q ++ u3, by simp, hx, fun _ _ h => by cases h; simp, fun x => .block id ⟨s1, some (f x), pb.color, pb.opCode, c, t⟩,
            ⟨_, .stack2 hf, rfl⟩, rfl, ?_⟩
          intro g' y v e1 hv
          have := Tree.block (g := g') (id := id) ((e1 id (by simp)).trans h0) (h1.congr fun k hk => e1 k (by simp [hk])) (hh g' y v (fun k hk => e1 k (by
              simp only [List.mem_append, List.mem_cons] at hk ⊢; exact hk.elim (fun h => .inl (.inr (.inr h))) fun h => .inr (.inl h))) hv)
            hr (hi.congr fun k hk => e1 k (by simp [hk])) hty
          simpa [List.append_assoc] using this
      · rcases ih3 m7 hn with hB | ⟨xs, u0, p, q, rfl, hx, -, F, ⟨l, f, r, hf, rfl⟩, hF, hh⟩
        · refine .inl fun g' q e1 e2 => .block ((e1 id (by simp) hid).trans h0) (h1.congr fun k hk => e1 k (by simp [hk]) ?_)
            (h2.congr fun k hk => e1 k (by simp [hk]) ?_) hr (hB g' q (fun k hk => e1 k (by simp [hk])) e2) hty
          · rintro rfl
            exact m5 _ hk _ (by simp [hn]) rfl
          · rintro rfl
            exact m8 _ hk _ hn rfl
        · simp only [Goal.items.injEq, true_and] at hF
          subst hF
          refine .inr ⟨xs, u0, id :: (u1 ++ (u2 ++ p)), q, by simp, hx, fun _ _ h => by cases h; simp, fun x => .block id ⟨s1, s2, pb.color, pb.opCode, l ++ f x :: r, t⟩,
            ⟨_, .argument hf, rfl⟩, rfl, ?_⟩
          intro g' y v e1 hv
          have := Tree.block (g := g') (id := id) ((e1 id (by simp)).trans h0) (h1.congr fun k hk => e1 k (by simp [hk])) (h2.congr fun k hk => e1 k (by simp [hk])) hr
            (hh g' y v (fun k hk => e1 k (by
              simp only [List.mem_append, List.mem_cons] at hk ⊢; exact hk.elim (fun h => .inl (.inr (.inr (.inr h)))) fun h => .inr h)) hv) hty
          simpa [List.append_assoc] using this
  | noStack h => intro _ hn; cases hn
  | @stack p bs u h hbs ih =>
    intro hu hn
    rcases ih hu hn with hB | ⟨xs, u0, p', q, rfl, hx, -, F, ⟨f, hf, rfl⟩, hF, hh⟩
    · exact .inl fun g' q e1 e2 => .stack h (hB g' q e1 e2)
    · simp only [Goal.blocks.injEq, true_and] at hF
      subst hF
      exact .inr ⟨xs, u0, p', q, rfl, hx, nofun, fun x => .stack p (some (f x)), ⟨f, hf, rfl⟩, rfl, fun g' y v e1 hv => .stack h (hh g' y v e1 hv)⟩
  | @last id pb a u h0 hl ha ih =>
    intro hu hn
    by_cases hid : id = n
    · subst hid
      exact .inr ⟨[a], u, [], [], by simp, .last h0 hl ha, nofun, fun x => .blocks id x, ⟨_, .here (l := []), rfl⟩, rfl, fun g' y v _ hv => by simpa using hv⟩
    rcases ih hu hn with hB | ⟨xs, u0, p, q, rfl, hx, hp, F, ⟨f, hf, rfl⟩, hF, hh⟩
    · exact .inl fun g' q e1 e2 => .last ((e1 id ha.head hid).trans h0) hl (hB g' q e1 e2)
    · simp only [Goal.block.injEq, true_and] at hF
      subst hF
      refine .inr ⟨xs, u0, p, q, rfl, hx, nofun, fun x => .blocks id [f x], ⟨_, .among (l := []) (r := []) hf, rfl⟩, rfl, ?_⟩
      intro g' y v e1 hv
      exact .last ((e1 id (by simp [hp id _ rfl])).trans h0) hl (hh g' y v e1 hv)
  | @next id pb a bs u u' h0 hl ha hbs ih1 ih2 =>
    intro hu hn
    by_cases hid : id = n
    · subst hid
      exact .inr ⟨a :: bs, u ++ u', [], [], by simp, .next h0 hl ha hbs, nofun, fun x => .blocks id x, ⟨_, .here (l := []), rfl⟩, rfl, fun g' y v _ hv => by simpa using hv⟩
    obtain ⟨m1, m2, m3⟩ := List.nodup_append.mp hu
    rcases List.mem_append.mp hn with hn | hn
    · rcases ih1 m1 hn with hB | ⟨xs, u0, p, q, rfl, hx, hp, F, ⟨f, hf, rfl⟩, hF, hh⟩
      · refine .inl fun g' q e1 e2 => .next ((e1 id (by simp [ha.head]) hid).trans h0) hl (hB g' q (fun k hk => e1 k (by simp [hk])) e2)
          (hbs.congr fun k hk => e1 k (by simp [hk]) ?_)
        rintro rfl
        exact m3 _ hn _ hk rfl
      · simp only [Goal.block.injEq, true_and] at hF
        subst hF
        refine .inr ⟨xs, u0, p, q ++ u', by simp, hx, nofun, fun x => .blocks id (f x :: bs), ⟨_, .among (l := []) (r := bs) hf, rfl⟩, rfl, ?_⟩
        intro g' y v e1 hv
        have hh' := hh g' y v (fun k hk => e1 k (by simp only [List.mem_append] at hk ⊢; exact hk.elim .inl fun h => .inr (.inl h))) hv
        have := Tree.next ((e1 id (by simp [hp id _ rfl])).trans h0) hl hh' (hbs.congr (g' := g') fun k hk => e1 k (by simp [hk]))
        simpa [List.append_assoc] using this
    · rcases ih2 m2 hn with hB | ⟨xs, u0, p, q, rfl, hx, -, F, ⟨f, hf, rfl⟩, hF, hh⟩
      · refine .inl fun g' q e1 e2 => .next ((e1 id (by simp [ha.head]) hid).trans h0) hl (ha.congr fun k hk => e1 k (by simp [hk]) ?_)
          (hB g' q (fun k hk => e1 k (by simp [hk])) e2)
        rintro rfl
        exact m3 _ hk _ hn rfl
      · simp only [Goal.blocks.injEq, true_and] at hF
        subst hF
        refine .inr ⟨xs, u0, u ++ p, q, by simp, hx, nofun, fun x => .blocks id (a :: f x), ⟨_, ?_, rfl⟩, rfl, ?_⟩
        · cases hf with
          | @here l => exact .here (l := a :: l)
          | @among f l r hf => exact .among (l := a :: l) (r := r) hf
        · intro g' y v e1 hv
          have := Tree.next (g := g') ((e1 id (by simp [ha.head])).trans h0) hl (ha.congr fun k hk => e1 k (by simp [hk])) (hh g' y v (fun k hk => e1 k (by
            simp only [List.mem_append] at hk ⊢; exact hk.elim (fun h => .inl (.inr h)) .inr)) hv)
          simpa [List.append_assoc] using this
  | nil => intro _ hn; cases hn
  | @keep i is is' u h t ih =>
    intro hu hn
    rcases ih hu hn with hB | ⟨xs, u0, p, q, rfl, hx, -, F, ⟨l, f, r, hf, rfl⟩, hF, hh⟩
    · exact .inl fun g' q e1 e2 => .keep h (hB g' q e1 e2)
    · simp only [Goal.items.injEq, true_and] at hF
      subst hF
      exact .inr ⟨xs, u0, p, q, rfl, hx, nofun, fun x => .items (i :: is) (i :: l ++ f x :: r), ⟨i :: l, f, r, hf, rfl⟩, rfl, fun g' y v e1 hv => .keep h (hh g' y v e1 hv)⟩
  | @string m id a u is is' u' ha t ih1 ih2 =>
    intro hu hn
    obtain ⟨m1, m2, m3⟩ := List.nodup_append.mp hu
    rcases List.mem_append.mp hn with hn | hn
    · rcases ih1 m1 hn with hB | ⟨xs, u0, p, q, rfl, hx, -, F, ⟨f, hf, rfl⟩, hF, hh⟩
      · refine .inl fun g' q e1 e2 => .string (hB g' q (fun k hk => e1 k (by simp [hk])) e2) (t.congr fun k hk => e1 k (by simp [hk]) ?_)
        rintro rfl
        exact m3 _ hn _ hk rfl
      · simp only [Goal.block.injEq, true_and] at hF
        subst hF
        refine .inr ⟨xs, u0, p, q ++ u', by simp, hx, nofun, fun x => .items _ (.param (.string m (.block (f x))) :: is'), ⟨[], _, is', .string hf, rfl⟩, rfl, ?_⟩
        intro g' y v e1 hv
        have := Tree.string (n := m) (hh g' y v (fun k hk => e1 k (by simp only [List.mem_append] at hk ⊢; exact hk.elim .inl fun h => .inr (.inl h))) hv)
          (t.congr fun k hk => e1 k (by simp [hk]))
        simpa [List.append_assoc] using this
    · rcases ih2 m2 hn with hB | ⟨xs, u0, p, q, rfl, hx, -, F, ⟨l, f, r, hf, rfl⟩, hF, hh⟩
      · refine .inl fun g' q e1 e2 => .string (ha.congr fun k hk => e1 k (by simp [hk]) ?_) (hB g' q (fun k hk => e1 k (by simp [hk])) e2)
        rintro rfl
        exact m3 _ hk _ hn rfl
      · simp only [Goal.items.injEq, true_and] at hF
        subst hF
        refine .inr ⟨xs, u0, u ++ p, q, by simp, hx, nofun, fun x => .items _ (.param (.string m (.block a)) :: (l ++ f x :: r)), ⟨_ :: l, f, r, hf, rfl⟩, rfl, ?_⟩
        intro g' y v e1 hv
        have := Tree.string (n := m) (ha.congr (g' := g') fun k hk => e1 k (by simp [hk])) (hh g' y v (fun k hk => e1 k (by
          simp only [List.mem_append] at hk ⊢; exact hk.elim (fun h => .inl (.inr h)) .inr)) hv)
        simpa [List.append_assoc] using this
  | @number m id a u is is' u' ha t ih1 ih2 =>
    intro hu hn
    obtain ⟨m1, m2, m3⟩ := List.nodup_append.mp hu
    rcases List.mem_append.mp hn with hn | hn
    · rcases ih1 m1 hn with hB | ⟨xs, u0, p, q, rfl, hx, -, F, ⟨f, hf, rfl⟩, hF, hh⟩
      · refine .inl fun g' q e1 e2 => .number (hB g' q (fun k hk => e1 k (by simp [hk])) e2) (t.congr fun k hk => e1 k (by simp [hk]) ?_)
        rintro rfl
        exact m3 _ hn _ hk rfl
      · simp only [Goal.block.injEq, true_and] at hF
        subst hF
        refine .inr ⟨xs, u0, p, q ++ u', by simp, hx, nofun, fun x => .items _ (.param (.number m (.block (f x))) :: is'), ⟨[], _, is', .number hf, rfl⟩, rfl, ?_⟩
        intro g' y v e1 hv
        have := Tree.number (n := m) (hh g' y v (fun k hk => e1 k (by simp only [List.mem_append] at hk ⊢; exact hk.elim .inl fun h => .inr (.inl h))) hv)
          (t.congr fun k hk => e1 k (by simp [hk]))
        simpa [List.append_assoc] using this
    · rcases ih2 m2 hn with hB | ⟨xs, u0, p, q, rfl, hx, -, F, ⟨l, f, r, hf, rfl⟩, hF, hh⟩
      · refine .inl fun g' q e1 e2 => .number (ha.congr fun k hk => e1 k (by simp [hk]) ?_) (hB g' q (fun k hk => e1 k (by simp [hk])) e2)
        rintro rfl
        exact m3 _ hk _ hn rfl
      · simp only [Goal.items.injEq, true_and] at hF
        subst hF
        refine .inr ⟨xs, u0, u ++ p, q, by simp, hx, nofun, fun x => .items _ (.param (.number m (.block a)) :: (l ++ f x :: r)), ⟨_ :: l, f, r, hf, rfl⟩, rfl, ?_⟩
        intro g' y v e1 hv
        have := Tree.number (n := m) (ha.congr (g' := g') fun k hk => e1 k (by simp [hk])) (hh g' y v (fun k hk => e1 k (by
          simp only [List.mem_append] at hk ⊢; exact hk.elim (fun h => .inl (.inr h)) .inr)) hv)
        simpa [List.append_assoc] using this
  | @boolean m id a u is is' u' ha t ih1 ih2 =>
    intro hu hn
    obtain ⟨m1, m2, m3⟩ := List.nodup_append.mp hu
    rcases List.mem_append.mp hn with hn | hn
    · rcases ih1 m1 hn with hB | ⟨xs, u0, p, q, rfl, hx, -, F, ⟨f, hf, rfl⟩, hF, hh⟩
      · refine .inl fun g' q e1 e2 => .boolean (hB g' q (fun k hk => e1 k (by simp [hk])) e2) (t.congr fun k hk => e1 k (by simp [hk]) ?_)
        rintro rfl
        exact m3 _ hn _ hk rfl
      · simp only [Goal.block.injEq, true_and] at hF
        subst hF
        refine .inr ⟨xs, u0, p, q ++ u', by simp, hx, nofun, fun x => .items _ (.param (.boolean m (boolValue (f x))) :: is'), ⟨[], _, is', .boolean hf, rfl⟩, rfl, ?_⟩
        intro g' y v e1 hv
        have := Tree.boolean (n := m) (hh g' y v (fun k hk => e1 k (by simp only [List.mem_append] at hk ⊢; exact hk.elim .inl fun h => .inr (.inl h))) hv)
          (t.congr fun k hk => e1 k (by simp [hk]))
        simpa [List.append_assoc] using this
    · rcases ih2 m2 hn with hB | ⟨xs, u0, p, q, rfl, hx, -, F, ⟨l, f, r, hf, rfl⟩, hF, hh⟩
      · refine .inl fun g' q e1 e2 => .boolean (ha.congr fun k hk => e1 k (by simp [hk]) ?_) (hB g' q (fun k hk => e1 k (by simp [hk])) e2)
        rintro rfl
        exact m3 _ hk _ hn rfl
      · simp only [Goal.items.injEq, true_and] at hF
        subst hF
        refine .inr ⟨xs, u0, u ++ p, q, by simp, hx, nofun, fun x => .items _ (.param (.boolean m (boolValue a)) :: (l ++ f x :: r)), ⟨_ :: l, f, r, hf, rfl⟩, rfl, ?_⟩
        intro g' y v e1 hv
        have := Tree.boolean (n := m) (ha.congr (g' := g') fun k hk => e1 k (by simp [hk])) (hh g' y v (fun k hk => e1 k (by
          simp only [List.mem_append] at hk ⊢; exact hk.elim (fun h => .inl (.inr h)) .inr)) hv)
        simpa [List.append_assoc] using this
  | @menu m id a u is is' u' ha t ih1 ih2 =>
    intro hu hn
    obtain ⟨m1, m2, m3⟩ := List.nodup_append.mp hu
    rcases List.mem_append.mp hn with hn | hn
    · rcases ih1 m1 hn with hB | ⟨xs, u0, p, q, rfl, hx, -, F, ⟨f, hf, rfl⟩, hF, hh⟩
      · refine .inl fun g' q e1 e2 => .menu (hB g' q (fun k hk => e1 k (by simp [hk])) e2) (t.congr fun k hk => e1 k (by simp [hk]) ?_)
        rintro rfl
        exact m3 _ hn _ hk rfl
      · simp only [Goal.block.injEq, true_and] at hF
        subst hF
        refine .inr ⟨xs, u0, p, q ++ u', by simp, hx, nofun, fun x => .items _ (.param (.menu m (.block (f x))) :: is'), ⟨[], _, is', .menu hf, rfl⟩, rfl, ?_⟩
        intro g' y v e1 hv
        have := Tree.menu (n := m) (hh g' y v (fun k hk => e1 k (by simp only [List.mem_append] at hk ⊢; exact hk.elim .inl fun h => .inr (.inl h))) hv)
          (t.congr fun k hk => e1 k (by simp [hk]))
        simpa [List.append_assoc] using this
    · rcases ih2 m2 hn with hB | ⟨xs, u0, p, q, rfl, hx, -, F, ⟨l, f, r, hf, rfl⟩, hF, hh⟩
      · refine .inl fun g' q e1 e2 => .menu (ha.congr fun k hk => e1 k (by simp [hk]) ?_) (hB g' q (fun k hk => e1 k (by simp [hk])) e2)
        rintro rfl
        exact m3 _ hk _ hn rfl
      · simp only [Goal.items.injEq, true_and] at hF
        subst hF
        refine .inr ⟨xs, u0, u ++ p, q, by simp, hx, nofun, fun x => .items _ (.param (.menu m (.block a)) :: (l ++ f x :: r)), ⟨_ :: l, f, r, hf, rfl⟩, rfl, ?_⟩
        intro g' y v e1 hv
        have := Tree.menu (n := m) (ha.congr (g' := g') fun k hk => e1 k (by simp [hk])) (hh g' y v (fun k hk => e1 k (by
          simp only [List.mem_append] at hk ⊢; exact hk.elim (fun h => .inl (.inr h)) .inr)) hv)
        simpa [List.append_assoc] using this

/-- C136: a block of a container that is read. Either its pointer to the next block does not matter: it is not in the code, or it is an argument. Or it is in a row, at any
depth: without its pointer the row ends with it; when it points to other code that is put into the container, this code follows it in the place of the rest of the row, and
the rest of the row follows this code if the last block of it points where the block did; and when it points to the block after the next one, the next one is left out. -/
theorem c136_row {bs : List ParserBlock} {b : ParserBlock} (hd : c129_Distinct bs) (hb : b ∈ bs) {code : List Block} (h : tryFrom ⟨bs⟩ = .ok code) :
    (∀ q bs', c129_Edit b q bs bs' → tryFrom ⟨bs'⟩ = .ok code) ∨
    ∃ C x r, c136_Row C ∧ code = C (x :: r) ∧ (r = [] ↔ b.nextBlock < 0) ∧ (∀ (q : Int32) bs', q < 0 → c129_Edit b q bs bs' → tryFrom ⟨bs'⟩ = .ok (C [x])) ∧
      (∀ q d ds y bs', c129_Distinct (bs ++ d :: ds) → c129_To q d → tryFrom ⟨d :: ds⟩ = .ok y → c129_Edit b q bs bs' → tryFrom ⟨bs' ++ d :: ds⟩ = .ok (C (x :: y))) ∧
      (∀ q d ds y m e ds' bs', c129_Distinct (bs ++ d :: ds) → c129_To q d → tryFrom ⟨d :: ds⟩ = .ok y → c129_Row (d :: ds) (m ++ [e]) → c129_Edit b q bs bs' →
        c129_Edit e b.nextBlock (d :: ds) ds' → tryFrom ⟨bs' ++ ds'⟩ = .ok (C (x :: (y ++ r)))) ∧
      ∀ d bs', d ∈ bs → c129_To b.nextBlock d → c129_Edit b d.nextBlock bs bs' → tryFrom ⟨bs'⟩ = .ok (C (x :: r.tail)) := by
  cases hbs : bs with
  | nil => subst hbs; cases hb
  | cons f rest =>
  have hm : f ∈ bs := by rw [hbs]; simp
  cases hnn : parseU32 b.id with
  | none => exact absurd hnn (hd.1 b hb)
  | some n =>
  cases hii : parseU32 f.id with
  | none => exact absurd hii (hd.1 f hm)
  | some i =>
  obtain ⟨u, ht, hu⟩ := (c129_accepts (hbs ▸ hd) hii code).mp (hbs ▸ h)
  rw [← hbs] at ht ⊢
  have h0 := (c129_tab_iff hd n b).mpr ⟨hb, hnn⟩
  have here : ∀ {q : Int32} {bs' : List ParserBlock}, c129_Edit b q bs bs' → c129_Distinct bs' ∧ (∀ k ∈ u, k ≠ n → c129_tab bs' k = c129_tab bs k) ∧
      c129_tab bs' n = some { b with nextBlock := q } ∧ ∀ {c v}, Tree (c129_tab bs') (.blocks i c) v → v.Nodup → tryFrom ⟨bs'⟩ = .ok c := by
    intro q bs' he
    have hd' := c129_distinct_of hd (bs' := bs') (by rw [c129_edit_numbers he])
    obtain ⟨t1, t2⟩ := c132_tab hd hd' (c132_edit he) hnn (fun x hx => hx) ht
    obtain ⟨f', rest', rfl, hf⟩ := c129_edit_head he hbs
    exact ⟨hd', t1, t2, fun hv hvn => (c129_accepts hd' (hf.trans hii) _).mpr ⟨_, hv, hvn⟩⟩
  by_cases hnu : n ∈ u
  swap
  · left
    intro q bs' he
    obtain ⟨-, t1, -, t3⟩ := here he
    exact t3 (ht.congr fun k hk => t1 k hk (by rintro rfl; exact hnu hk)) hu
  rcases c136_split h0 ht hu hnu with hB | ⟨xs, u0, p, q0, rfl, hx, -, F, ⟨C, hC, rfl⟩, hF, hh⟩
  · left
    intro q bs' he
    obtain ⟨-, t1, t2, t3⟩ := here he
    exact t3 (hB _ q t1 t2) hu
  right
  simp only [Goal.blocks.injEq, true_and] at hF
  obtain ⟨n1, n2, n3⟩ := List.nodup_append.mp hu
  obtain ⟨n4, n5, n6⟩ := List.nodup_append.mp n2
  have around : ∀ {v : List UInt32}, v.Nodup → (∀ k ∈ v, k ∈ u0 ∨ k ∉ p ++ (u0 ++ q0)) → (p ++ (v ++ q0)).Nodup := by
    intro v hv hvu
    refine List.nodup_append.mpr ⟨n1, List.nodup_append.mpr ⟨hv, n5, ?_⟩, ?_⟩
    · rintro a ha _ hc rfl
      rcases hvu a ha with h | h
      · exact n6 a h a hc rfl
      · exact h (by simp [hc])
    · rintro a ha _ hc rfl
      rcases List.mem_append.mp hc with hc | hc
      · rcases hvu a hc with h | h
        · exact n3 a ha a (by simp [h]) rfl
        · exact h (by simp [ha])
      · exact n3 a ha a (by simp [hc]) rfl
  have hpq : ∀ k ∈ p ++ q0, k ∈ p ++ (u0 ++ q0) ∧ k ∉ u0 := by
    intro k hk
    rcases List.mem_append.mp hk with hk | hk
    · exact ⟨by simp [hk], fun h => n3 k hk k (by simp [h]) rfl⟩
    · exact ⟨by simp [hk], fun h => n6 k h k hk rfl⟩
  -- the first block of the row, and the rest of it
  have hrow : ∃ x r ux ur, xs = x :: r ∧ u0 = ux ++ ur ∧ Tree (c129_tab bs) (.block n x) ux ∧ ((b.nextBlock < 0 ∧ r = [] ∧ ur = []) ∨
      (¬ b.nextBlock < 0 ∧ r ≠ [] ∧ Tree (c129_tab bs) (.blocks (pointerId b.nextBlock) r) ur)) := by
    cases hx with
    | @last _ pb x ux e0 hl hxx =>
      rw [h0] at e0
      cases e0
      exact ⟨x, [], u0, [], rfl, by simp, hxx, .inl ⟨hl, rfl, rfl⟩⟩
    | @next _ pb x r ux ur e0 hl hxx hr =>
      rw [h0] at e0
      cases e0
      refine ⟨x, r, ux, ur, rfl, rfl, hxx, .inr ⟨hl, ?_, hr⟩⟩
      rintro rfl
      cases hr
  obtain ⟨x, r, ux, ur, rfl, rfl, hxx, hr⟩ := hrow
  obtain ⟨k1, k2, k3⟩ := List.nodup_append.mp n4
  have hnx : n ∈ ux := hxx.head
  have hnr : n ∉ ur := fun h => k3 n hnx n h rfl
  refine ⟨C, x, r, hC, hF.symm, ?_, ?_, ?_, ?_, ?_⟩
  · rcases hr with ⟨a1, a2, -⟩ | ⟨a1, a2, -⟩
    · exact ⟨fun _ => a1, fun _ => a2⟩
    · exact ⟨fun h => absurd h a2, fun h => absurd h a1⟩
  · intro q bs' hq he
    obtain ⟨-, t1, t2, t3⟩ := here he
    refine t3 (hh _ [x] ux (fun k hk => t1 k (hpq k hk).1 (by rintro rfl; exact (hpq _ hk).2 (by simp [hnx]))) (.last t2 hq ?_)) (around k1 fun k hk => .inl (by simp [hk]))
    exact c129_block hxx k1 h0 t2 fun k hk => t1 k (by simp [hk])
  · intro q d ds y bs' hd2 hq hy he
    have hd' : c129_Distinct (bs' ++ d :: ds) := c129_distinct_of hd2 (by rw [List.map_append, List.map_append, c129_edit_numbers he])
    obtain ⟨t1, t2⟩ := c132_tab hd hd' (c132_edit he) hnn (fun x hx => List.mem_append_left _ hx) ht
    obtain ⟨v, hv, hvn⟩ := (c129_accepts (c129_distinct_right hd2) hq.2 y).mp hy
    have hv' := c132_tab_all (c129_distinct_right hd2) hd' (fun x hx => List.mem_append_right _ hx) hv
    have hap := c132_apart hd2 ht hv
    have hT := Tree.next t2 hq.1 (c129_block hxx k1 h0 t2 fun k hk => t1 k (by simp [hk])) hv'
    obtain ⟨f', rest', rfl, hf⟩ := c129_edit_head he hbs
    refine (c129_accepts hd' (hf.trans hii) _).mpr ⟨_, hh _ (x :: y) (ux ++ v) (fun k hk => t1 k (hpq k hk).1 (by rintro rfl; exact (hpq _ hk).2 (by simp [hnx]))) hT,
      around (List.nodup_append.mpr ⟨k1, hvn, fun a ha c hc => hap a (by simp [ha]) c hc⟩) fun k hk => ?_⟩
    rcases List.mem_append.mp hk with hk | hk
    · exact .inl (by simp [hk])
    · exact .inr fun h => hap k h k hk rfl
  · intro q d ds y m e ds' bs' hd2 hq hy hs he he'
    have hd' : c129_Distinct (bs' ++ ds') := c129_distinct_of hd2 (by rw [List.map_append, List.map_append, c129_edit_numbers he, c129_edit_numbers he'])
    have hdr := c129_distinct_right hd2
    obtain ⟨f2, rest2, j, e1, hj, hc2⟩ := hs
    obtain ⟨rfl, rfl⟩ := List.cons.inj e1
    obtain ⟨-, n', hn'⟩ := c129_chain_number hc2
    obtain ⟨t1, t2⟩ := c132_tab hd hd' (c132_edit he) hnn (fun x hx => List.mem_append_left _ hx) ht
    obtain ⟨v, hv, hvn⟩ := (c129_accepts hdr hj y).mp hy
    obtain ⟨t3, t4⟩ := c132_tab hdr hd' (c132_edit he') hn' (fun x hx => List.mem_append_right _ hx) hv
    have hap := c132_apart hd2 ht hv
    obtain ⟨ys, zs, v1, v2, rfl, rfl, -, -, k5, -, k7⟩ := c129_upto (c129_tab_iff hdr) hn' hc2 hv hvn
    obtain rfl := k5 rfl
    obtain ⟨b1, b2⟩ := k7 (c129_tab (bs' ++ ds')) b.nextBlock (fun k hk => t3 k (by simp [hk])) t4
    have hpj : pointerId q = j := Option.some.inj (hq.2.symm.trans hj)
    have hv1 := (List.nodup_append.mp hvn).1
    have pasted : ∃ w, Tree (c129_tab (bs' ++ ds')) (.blocks j (ys ++ r)) w ∧ w.Nodup ∧ ∀ k ∈ w, k ∈ v1 ∨ k ∈ ur := by
      rcases hr with ⟨a1, rfl, rfl⟩ | ⟨a1, -, a3⟩
      · rw [List.append_nil]
        exact ⟨v1, b1 a1, hv1, fun k hk => .inl hk⟩
      · refine ⟨v1 ++ ur, b2 r ur a1 (a3.congr fun k hk => t1 k (by simp [hk]) (by rintro rfl; exact hnr hk)), List.nodup_append.mpr ⟨hv1, k2, ?_⟩, fun k hk => List.mem_append.mp hk⟩
        exact fun a ha c hc => (hap c (by simp [hc]) a (by simp [ha])).symm
    obtain ⟨w, hw, hwn, hwu⟩ := pasted
    have hT := Tree.next t2 hq.1 (c129_block hxx k1 h0 t2 fun k hk => t1 k (by simp [hk])) (hpj ▸ hw)
    obtain ⟨f', rest', rfl, hf⟩ := c129_edit_head he hbs
    rw [List.append_nil]
    refine (c129_accepts hd' (hf.trans hii) _).mpr ⟨_, hh _ (x :: (ys ++ r)) (ux ++ w) (fun k hk => t1 k (hpq k hk).1 (by rintro rfl; exact (hpq _ hk).2 (by simp [hnx]))) hT,
      around (List.nodup_append.mpr ⟨k1, hwn, fun a ha c hc e => ?_⟩) fun k hk => ?_⟩
    · subst e
      rcases hwu a hc with h | h
      · exact hap a (by simp [ha]) a (by simp [h]) rfl
      · exact k3 a ha a h rfl
    · rcases List.mem_append.mp hk with hk | hk
      · exact .inl (by simp [hk])
      · rcases hwu k hk with h | h
        · exact .inr fun h' => hap k h' k (by simp [h]) rfl
        · exact .inl (by simp [h])
  · intro d bs' hdm hq he
    rcases hr with ⟨a1, -, -⟩ | ⟨-, -, a3⟩
    · exact absurd a1 hq.1
    obtain ⟨-, t1, t2, t3⟩ := here he
    have hd0 := (c129_tab_iff hd _ d).mpr ⟨hdm, hq.2⟩
    have hbx := c129_block (q := d.nextBlock) hxx k1 h0 t2 fun k hk => t1 k (by simp [hk])
    have hout : ∀ k ∈ p ++ q0, c129_tab bs' k = c129_tab bs k := fun k hk => t1 k (hpq k hk).1 (by rintro rfl; exact (hpq _ hk).2 (by simp [hnx]))
    cases a3 with
    | @last _ pb x' ux' e0 hl hxx' =>
      rw [hd0] at e0
      cases e0
      exact t3 (hh _ [x] ux hout (.last t2 hl hbx)) (around k1 fun k hk => .inl (by simp [hk]))
    | @next _ pb x' r' ux' ur' e0 hl hxx' hr' =>
      rw [hd0] at e0
      cases e0
      have hT := Tree.next t2 hl hbx (hr'.congr (g' := c129_tab bs') fun k hk => t1 k (by simp [hk]) (by rintro rfl; exact hnr (by simp [hk])))
      refine t3 (hh _ (x :: r') (ux ++ ur') hout hT) (around (List.nodup_append.mpr ⟨k1, (List.nodup_append.mp k2).2.1, fun a ha c hc => k3 a ha c (by simp [hc])⟩) fun k hk => .inl ?_)
      simp only [List.mem_append] at hk ⊢
      exact hk.elim .inl fun h => .inr (.inr h)

end Swrs.Api

namespace Swrs.Api

/-- `c136_row`: two blocks in the substack of another one. Cut behind the first one only this one is left there, and with two more blocks put between them there are four. -/
example [pol : MapPol] : let _ : Floats := toyFloats.toFloats
    let a := exBlock (s% "0") (-1) 1 (s% "a") []
    let b := exBlock (s% "1") 2 (-1) (s% "b") []
    let c := exBlock (s% "2") (-1) (-1) (s% "c") []
    let d := exBlock (s% "7") 8 (-1) (s% "d") []
    let e := exBlock (s% "8") (-1) (-1) (s% "e") []
    let inner : List Block → Option Nat := fun code => (code.head?.bind Block.subStack1).map List.length
    c129_Distinct ([a, b, c] ++ [d, e]) ∧ c129_To 7 d ∧ c129_To b.nextBlock c ∧ c129_Row [d, e] ([d] ++ [e]) ∧ (∃ y, tryFrom ⟨[d, e]⟩ = .ok y ∧ y.length = 2) ∧
      (∃ code, tryFrom ⟨[a, b, c]⟩ = .ok code ∧ inner code = some 2) ∧
      (∃ bs', c129_Edit b (-1) [a, b, c] bs' ∧ ∃ code, tryFrom ⟨bs'⟩ = .ok code ∧ inner code = some 1) ∧
      ∃ bs' ds', c129_Edit b 7 [a, b, c] bs' ∧ c129_Edit e 2 [d, e] ds' ∧ ∃ code, tryFrom ⟨bs' ++ ds'⟩ = .ok code ∧ inner code = some 4 := by
  let _ : Floats := toyFloats.toFloats
  refine ⟨⟨by decide, by decide⟩, ⟨by decide, by decide⟩, ⟨by decide, by decide⟩,
    ⟨_, _, 7, rfl, by decide, .step (.head _) (by decide) (by decide) (.stop (.tail _ (.head _)) (by decide) (by decide))⟩, ?_⟩
  obtain ⟨a, b⟩ := pol
  cases a <;> cases b <;> exact ⟨⟨_, rfl, rfl⟩, ⟨_, rfl, rfl⟩, ⟨_, ⟨[_], [_], rfl, rfl⟩, _, rfl, rfl⟩, _, _, ⟨[_], [_], rfl, rfl⟩, ⟨[_], [], rfl, rfl⟩, _, rfl, rfl⟩

end Swrs.Api
