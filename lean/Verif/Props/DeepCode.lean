import Verif.Props.PutCode
/-!
# C134: a block at any depth of the code is edited
-/
set_option linter.unusedSectionVars false
namespace Swrs.Api
variable [MapPol] [Floats]

/-! ### Specification: code with a place in it -/

mutual
/-- Specification: a block with a place in it, at any depth, where another block can be put. -/
inductive c134_BlockPlace : (Block → Block) → Prop
  | here : c134_BlockPlace fun x => x
  | stack1 {f : Block → List Block} {s2 c o t k} (h : c134_Place f) : c134_BlockPlace fun x => ⟨some (f x), s2, c, o, t, k⟩
  | stack2 {f : Block → List Block} {s1 c o t k} (h : c134_Place f) : c134_BlockPlace fun x => ⟨s1, some (f x), c, o, t, k⟩
  | argument {f : Block → SpecItem Block} {s1 s2 c o l r k} (h : c134_ItemPlace f) : c134_BlockPlace fun x => ⟨s1, s2, c, o, l ++ f x :: r, k⟩
/-- Specification: a list of blocks with a place in it. -/
inductive c134_Place : (Block → List Block) → Prop
  | among {f : Block → Block} {l r} (h : c134_BlockPlace f) : c134_Place fun x => l ++ f x :: r
/-- Specification: an argument with a place in it. Boolean arguments are literals if the block is called `true` or `false`. -/
inductive c134_ItemPlace : (Block → SpecItem Block) → Prop
  | string {f : Block → Block} {n} (h : c134_BlockPlace f) : c134_ItemPlace fun x => .param (.string n (.block (f x)))
  | number {f : Block → Block} {n} (h : c134_BlockPlace f) : c134_ItemPlace fun x => .param (.number n (.block (f x)))
  | boolean {f : Block → Block} {n} (h : c134_BlockPlace f) : c134_ItemPlace fun x => .param (.boolean n
      (if (f x).opCode = s% "true" then .value true else if (f x).opCode = s% "false" then .value false else .block (f x)))
  | menu {f : Block → Block} {n} (h : c134_BlockPlace f) : c134_ItemPlace fun x => .param (.menu n (.block (f x)))
end

/-- Specification: a block with another colour and another operation. -/
def c134_label (c : Color) (o : Str) : Block → Block | ⟨s1, s2, _, _, t, k⟩ => ⟨s1, s2, c, o, t, k⟩

/-- Specification: the other blocks of a container. -/
def c134_others (b : ParserBlock) (bs : List ParserBlock) : List ParserBlock := bs.filter fun a => parseU32 a.id ≠ parseU32 b.id

/-! ### Trees with a place -/

/-- What is read, with a place in it. -/
def c134_Goal : Goal → (Block → Goal) → Prop
  | .block id _, F => ∃ f, c134_BlockPlace f ∧ F = fun x => .block id (f x)
  | .stack p _, F => ∃ f, c134_Place f ∧ F = fun x => .stack p (some (f x))
  | .blocks id _, F => ∃ f, c134_Place f ∧ F = fun x => .blocks id (f x)
  | .items is _, F => ∃ l f r, c134_ItemPlace f ∧ F = fun x => .items is (l ++ f x :: r)

/-- The tree of a block that is met while reading, and the tree around it. -/
theorem c134_split {g : UInt32 → Option ParserBlock} {n : UInt32} {b : ParserBlock} (hb : g n = some b) {G : Goal} {u : List UInt32} (ht : Tree g G u) :
    u.Nodup → n ∈ u → ∃ x u0 p q, u = p ++ (u0 ++ q) ∧ Tree g (.block n x) u0 ∧ (∀ id a, G = .block id a → id = n ∨ id ∈ p) ∧
      ∃ F, c134_Goal G F ∧ F x = G ∧ ∀ (g' : UInt32 → Option ParserBlock) (b' : ParserBlock) (y : Block) (v : List UInt32), (∀ k ∈ p ++ q, g' k = g k) → g' n = some b' →
        b'.nextBlock = b.nextBlock → Tree g' (.block n y) v → Tree g' (F y) (p ++ (v ++ q)) := by
  induction ht with
  | @block id pb s1 s2 c0 c t u1 u2 u3 h0 h1 h2 hr hi hty ih1 ih2 ih3 =>
    intro hu hn
    by_cases hid : id = n
    · subst hid
      refine ⟨⟨s1, s2, pb.color, pb.opCode, c, t⟩, id :: (u1 ++ (u2 ++ u3)), [], [], by simp, .block h0 h1 h2 hr hi hty, fun _ _ h => .inl (by cases h; rfl),
        fun x => .block id x, ⟨_, .here, rfl⟩, rfl, ?_⟩
      intro g' b' y v _ _ _ hv
      simpa using hv
    · obtain ⟨m1, m2⟩ := List.nodup_cons.mp hu
      obtain ⟨m3, m4, m5⟩ := List.nodup_append.mp m2
      obtain ⟨m6, m7, m8⟩ := List.nodup_append.mp m4
      rcases List.mem_cons.mp hn with h | hn
      · exact absurd h.symm hid
      rcases List.mem_append.mp hn with hn | hn
      · obtain ⟨x, u0, p, q, rfl, hx, -, F, ⟨f, hf, rfl⟩, hF, hh⟩ := ih1 m3 hn
        simp only [Goal.stack.injEq, true_and] at hF
        subst hF
        refine ⟨x, u0, id :: p, q ++ (u2 ++ u3), by simp, hx, fun _ _ h => .inr (by cases h; simp), fun x => .block id ⟨some (f x), s2, pb.color, pb.opCode, c, t⟩,
          ⟨_, .stack1 hf, rfl⟩, rfl, ?_⟩
        intro g' b' y v e1 e2 e3 hv
        have := Tree.block (g := g') (id := id) ((e1 id (by simp)).trans h0) (hh g' b' y v (fun k hk => e1 k (by
            simp only [List.mem_append, List.mem_cons] at hk ⊢; exact hk.elim (fun h => .inl (.inr h)) fun h => .inr (.inl h))) e2 e3 hv)
          (h2.congr fun k hk => e1 k (by simp [hk])) hr (hi.congr fun k hk => e1 k (by simp [hk])) hty
        simpa [List.append_assoc] using this
      rcases List.mem_append.mp hn with hn | hn
      · obtain ⟨x, u0, p, q, rfl, hx, -, F, ⟨f, hf, rfl⟩, hF, hh⟩ := ih2 m6 hn
        simp only [Goal.stack.injEq, true_and] at hF
        subst hF
        refine ⟨x, u0, id :: (u1 ++ p), q ++ u3, by simp, hx, fun _ _ h => .inr (by cases h; simp), fun x => .block id ⟨s1, some (f x), pb.color, pb.opCode, c, t⟩,
          ⟨_, .stack2 hf, rfl⟩, rfl, ?_⟩
        intro g' b' y v e1 e2 e3 hv
        have := Tree.block (g := g') (id := id) ((e1 id (by simp)).trans h0) (h1.congr fun k hk => e1 k (by simp [hk])) (hh g' b' y v (fun k hk => e1 k (by
            simp only [List.mem_append, List.mem_cons] at hk ⊢; exact hk.elim (fun h => .inl (.inr (.inr h))) fun h => .inr (.inl h))) e2 e3 hv)
          hr (hi.congr fun k hk => e1 k (by simp [hk])) hty
        simpa [List.append_assoc] using this
      · obtain ⟨x, u0, p, q, rfl, hx, -, F, ⟨l, f, r, hf, rfl⟩, hF, hh⟩ := ih3 m7 hn
        simp only [Goal.items.injEq, true_and] at hF
        subst hF
        refine ⟨x, u0, id :: (u1 ++ (u2 ++ p)), q, by simp, hx, fun _ _ h => .inr (by cases h; simp), fun x => .block id ⟨s1, s2, pb.color, pb.opCode, l ++ f x :: r, t⟩,
          ⟨_, .argument hf, rfl⟩, rfl, ?_⟩
        intro g' b' y v e1 e2 e3 hv
        have := Tree.block (g := g') (id := id) ((e1 id (by simp)).trans h0) (h1.congr fun k hk => e1 k (by simp [hk])) (h2.congr fun k hk => e1 k (by simp [hk])) hr
          (hh g' b' y v (fun k hk => e1 k (by
            simp only [List.mem_append, List.mem_cons] at hk ⊢; exact hk.elim (fun h => .inl (.inr (.inr (.inr h)))) fun h => .inr h)) e2 e3 hv) hty
        simpa [List.append_assoc] using this
  | noStack h => intro _ hn; cases hn
  | @stack p bs u h hbs ih =>
    intro hu hn
    obtain ⟨x, u0, p', q, rfl, hx, -, F, ⟨f, hf, rfl⟩, hF, hh⟩ := ih hu hn
    simp only [Goal.blocks.injEq, true_and] at hF
    subst hF
    exact ⟨x, u0, p', q, rfl, hx, nofun, fun x => .stack p (some (f x)), ⟨f, hf, rfl⟩, rfl, fun g' b' y v e1 e2 e3 hv => .stack h (hh g' b' y v e1 e2 e3 hv)⟩
  | @last id pb a u h0 hl ha ih =>
    intro hu hn
    obtain ⟨x, u0, p, q, rfl, hx, hid, F, ⟨f, hf, rfl⟩, hF, hh⟩ := ih hu hn
    simp only [Goal.block.injEq, true_and] at hF
    subst hF
    refine ⟨x, u0, p, q, rfl, hx, nofun, fun x => .blocks id [f x], ⟨_, .among (l := []) (r := []) hf, rfl⟩, rfl, ?_⟩
    intro g' b' y v e1 e2 e3 hv
    rcases hid id _ rfl with rfl | hm
    · rw [hb] at h0
      cases h0
      exact .last e2 (e3 ▸ hl) (hh g' b' y v e1 e2 e3 hv)
    · exact .last ((e1 id (by simp [hm])).trans h0) hl (hh g' b' y v e1 e2 e3 hv)
  | @next id pb a bs u u' h0 hl ha hbs ih1 ih2 =>
    intro hu hn
    obtain ⟨m1, m2, m3⟩ := List.nodup_append.mp hu
    rcases List.mem_append.mp hn with hn | hn
    · obtain ⟨x, u0, p, q, rfl, hx, hid, F, ⟨f, hf, rfl⟩, hF, hh⟩ := ih1 m1 hn
      simp only [Goal.block.injEq, true_and] at hF
      subst hF
      refine ⟨x, u0, p, q ++ u', by simp, hx, nofun, fun x => .blocks id (f x :: bs), ⟨_, .among (l := []) (r := bs) hf, rfl⟩, rfl, ?_⟩
      intro g' b' y v e1 e2 e3 hv
      have hh' := hh g' b' y v (fun k hk => e1 k (by simp only [List.mem_append] at hk ⊢; exact hk.elim .inl fun h => .inr (.inl h))) e2 e3 hv
      have hbs' := hbs.congr (g' := g') fun k hk => e1 k (by simp [hk])
      have : Tree g' (.blocks id (f y :: bs)) ((p ++ (v ++ q)) ++ u') := by
        rcases hid id _ rfl with rfl | hm
        · rw [hb] at h0
          cases h0
          exact .next e2 (e3 ▸ hl) hh' (e3 ▸ hbs')
        · exact .next ((e1 id (by simp [hm])).trans h0) hl hh' hbs'
      simpa [List.append_assoc] using this
    · obtain ⟨x, u0, p, q, rfl, hx, -, F, ⟨f, hf, rfl⟩, hF, hh⟩ := ih2 m2 hn
      simp only [Goal.blocks.injEq, true_and] at hF
      subst hF
      cases hf with
      | @among f l r hf =>
      refine ⟨x, u0, u ++ p, q, by simp, hx, nofun, fun x => .blocks id (a :: (l ++ f x :: r)), ⟨_, .among (l := a :: l) (r := r) hf, rfl⟩, rfl, ?_⟩
      intro g' b' y v e1 e2 e3 hv
      have := Tree.next (g := g') ((e1 id (by simp [ha.head])).trans h0) hl (ha.congr fun k hk => e1 k (by simp [hk])) (hh g' b' y v (fun k hk => e1 k (by
        simp only [List.mem_append] at hk ⊢; exact hk.elim (fun h => .inl (.inr h)) .inr)) e2 e3 hv)
      simpa [List.append_assoc] using this
  | nil => intro _ hn; cases hn
  | @keep i is is' u h t ih =>
    intro hu hn
    obtain ⟨x, u0, p, q, rfl, hx, -, F, ⟨l, f, r, hf, rfl⟩, hF, hh⟩ := ih hu hn
    simp only [Goal.items.injEq, true_and] at hF
    subst hF
    exact ⟨x, u0, p, q, rfl, hx, nofun, fun x => .items (i :: is) (i :: l ++ f x :: r), ⟨i :: l, f, r, hf, rfl⟩, rfl, fun g' b' y v e1 e2 e3 hv => .keep h (hh g' b' y v e1 e2 e3 hv)⟩
  | @string m id a u is is' u' ha t ih1 ih2 =>
    intro hu hn
    obtain ⟨m1, m2, m3⟩ := List.nodup_append.mp hu
    rcases List.mem_append.mp hn with hn | hn
    · obtain ⟨x, u0, p, q, rfl, hx, hid, F, ⟨f, hf, rfl⟩, hF, hh⟩ := ih1 m1 hn
      simp only [Goal.block.injEq, true_and] at hF
      subst hF
      refine ⟨x, u0, p, q ++ u', by simp, hx, nofun, fun x => .items _ (.param (.string m (.block (f x))) :: is'), ⟨[], _, is', .string hf, rfl⟩, rfl, ?_⟩
      intro g' b' y v e1 e2 e3 hv
      have := Tree.string (n := m) (hh g' b' y v (fun k hk => e1 k (by simp only [List.mem_append] at hk ⊢; exact hk.elim .inl fun h => .inr (.inl h))) e2 e3 hv)
        (t.congr fun k hk => e1 k (by simp [hk]))
      simpa [List.append_assoc] using this
    · obtain ⟨x, u0, p, q, rfl, hx, -, F, ⟨l, f, r, hf, rfl⟩, hF, hh⟩ := ih2 m2 hn
      simp only [Goal.items.injEq, true_and] at hF
      subst hF
      refine ⟨x, u0, u ++ p, q, by simp, hx, nofun, fun x => .items _ (.param (.string m (.block a)) :: (l ++ f x :: r)), ⟨_ :: l, f, r, hf, rfl⟩, rfl, ?_⟩
      intro g' b' y v e1 e2 e3 hv
      have := Tree.string (n := m) (ha.congr (g' := g') fun k hk => e1 k (by simp [hk])) (hh g' b' y v (fun k hk => e1 k (by
        simp only [List.mem_append] at hk ⊢; exact hk.elim (fun h => .inl (.inr h)) .inr)) e2 e3 hv)
      simpa [List.append_assoc] using this
  | @number m id a u is is' u' ha t ih1 ih2 =>
    intro hu hn
    obtain ⟨m1, m2, m3⟩ := List.nodup_append.mp hu
    rcases List.mem_append.mp hn with hn | hn
    · obtain ⟨x, u0, p, q, rfl, hx, hid, F, ⟨f, hf, rfl⟩, hF, hh⟩ := ih1 m1 hn
      simp only [Goal.block.injEq, true_and] at hF
      subst hF
      refine ⟨x, u0, p, q ++ u', by simp, hx, nofun, fun x => .items _ (.param (.number m (.block (f x))) :: is'), ⟨[], _, is', .number hf, rfl⟩, rfl, ?_⟩
      intro g' b' y v e1 e2 e3 hv
      have := Tree.number (n := m) (hh g' b' y v (fun k hk => e1 k (by simp only [List.mem_append] at hk ⊢; exact hk.elim .inl fun h => .inr (.inl h))) e2 e3 hv)
        (t.congr fun k hk => e1 k (by simp [hk]))
      simpa [List.append_assoc] using this
    · obtain ⟨x, u0, p, q, rfl, hx, -, F, ⟨l, f, r, hf, rfl⟩, hF, hh⟩ := ih2 m2 hn
      simp only [Goal.items.injEq, true_and] at hF
      subst hF
      refine ⟨x, u0, u ++ p, q, by simp, hx, nofun, fun x => .items _ (.param (.number m (.block a)) :: (l ++ f x :: r)), ⟨_ :: l, f, r, hf, rfl⟩, rfl, ?_⟩
      intro g' b' y v e1 e2 e3 hv
      have := Tree.number (n := m) (ha.congr (g' := g') fun k hk => e1 k (by simp [hk])) (hh g' b' y v (fun k hk => e1 k (by
        simp only [List.mem_append] at hk ⊢; exact hk.elim (fun h => .inl (.inr h)) .inr)) e2 e3 hv)
      simpa [List.append_assoc] using this
  | @boolean m id a u is is' u' ha t ih1 ih2 =>
    intro hu hn
    obtain ⟨m1, m2, m3⟩ := List.nodup_append.mp hu
    rcases List.mem_append.mp hn with hn | hn
    · obtain ⟨x, u0, p, q, rfl, hx, hid, F, ⟨f, hf, rfl⟩, hF, hh⟩ := ih1 m1 hn
      simp only [Goal.block.injEq, true_and] at hF
      subst hF
      refine ⟨x, u0, p, q ++ u', by simp, hx, nofun, fun x => .items _ (.param (.boolean m (boolValue (f x))) :: is'), ⟨[], _, is', .boolean hf, rfl⟩, rfl, ?_⟩
      intro g' b' y v e1 e2 e3 hv
      have := Tree.boolean (n := m) (hh g' b' y v (fun k hk => e1 k (by simp only [List.mem_append] at hk ⊢; exact hk.elim .inl fun h => .inr (.inl h))) e2 e3 hv)
        (t.congr fun k hk => e1 k (by simp [hk]))
      simpa [List.append_assoc] using this
    · obtain ⟨x, u0, p, q, rfl, hx, -, F, ⟨l, f, r, hf, rfl⟩, hF, hh⟩ := ih2 m2 hn
      simp only [Goal.items.injEq, true_and] at hF
      subst hF
      refine ⟨x, u0, u ++ p, q, by simp, hx, nofun, fun x => .items _ (.param (.boolean m (boolValue a)) :: (l ++ f x :: r)), ⟨_ :: l, f, r, hf, rfl⟩, rfl, ?_⟩
      intro g' b' y v e1 e2 e3 hv
      have := Tree.boolean (n := m) (ha.congr (g' := g') fun k hk => e1 k (by simp [hk])) (hh g' b' y v (fun k hk => e1 k (by
        simp only [List.mem_append] at hk ⊢; exact hk.elim (fun h => .inl (.inr h)) .inr)) e2 e3 hv)
      simpa [List.append_assoc] using this
  | @menu m id a u is is' u' ha t ih1 ih2 =>
    intro hu hn
    obtain ⟨m1, m2, m3⟩ := List.nodup_append.mp hu
    rcases List.mem_append.mp hn with hn | hn
    · obtain ⟨x, u0, p, q, rfl, hx, hid, F, ⟨f, hf, rfl⟩, hF, hh⟩ := ih1 m1 hn
      simp only [Goal.block.injEq, true_and] at hF
      subst hF
      refine ⟨x, u0, p, q ++ u', by simp, hx, nofun, fun x => .items _ (.param (.menu m (.block (f x))) :: is'), ⟨[], _, is', .menu hf, rfl⟩, rfl, ?_⟩
      intro g' b' y v e1 e2 e3 hv
      have := Tree.menu (n := m) (hh g' b' y v (fun k hk => e1 k (by simp only [List.mem_append] at hk ⊢; exact hk.elim .inl fun h => .inr (.inl h))) e2 e3 hv)
        (t.congr fun k hk => e1 k (by simp [hk]))
      simpa [List.append_assoc] using this
    · obtain ⟨x, u0, p, q, rfl, hx, -, F, ⟨l, f, r, hf, rfl⟩, hF, hh⟩ := ih2 m2 hn
      simp only [Goal.items.injEq, true_and] at hF
      subst hF
      refine ⟨x, u0, u ++ p, q, by simp, hx, nofun, fun x => .items _ (.param (.menu m (.block a)) :: (l ++ f x :: r)), ⟨_ :: l, f, r, hf, rfl⟩, rfl, ?_⟩
      intro g' b' y v e1 e2 e3 hv
      have := Tree.menu (n := m) (ha.congr (g' := g') fun k hk => e1 k (by simp [hk])) (hh g' b' y v (fun k hk => e1 k (by
        simp only [List.mem_append] at hk ⊢; exact hk.elim (fun h => .inl (.inr h)) .inr)) e2 e3 hv)
      simpa [List.append_assoc] using this

/-- The blocks of a container without one of them. -/
theorem c134_others_distinct {b : ParserBlock} {bs : List ParserBlock} (hd : c129_Distinct bs) : c129_Distinct (c134_others b bs) := by
  refine ⟨fun x hx => hd.1 x (List.mem_filter.mp hx).1, ?_⟩
  have := hd.2
  unfold c134_others
  exact this.sublist ((List.filter_sublist).map _)

/-- Everything that is not a block of one number, at any depth, is read from the other blocks. -/
theorem c134_core {bs : List ParserBlock} {b : ParserBlock} {n : UInt32} (hd : c129_Distinct bs) (hb : b ∈ bs) (hn : parseU32 b.id = some n) {f : ParserBlock}
    {rest : List ParserBlock} {i : UInt32} (hf : bs = f :: rest) (hi : parseU32 f.id = some i) {code : List Block} {u : List UInt32}
    (ht : Tree (c129_tab bs) (.blocks i code) u) (hu : u.Nodup) (hnu : n ∈ u) :
    ∃ C x u0, c134_Place C ∧ code = C x ∧ u0.Nodup ∧ Tree (c129_tab bs) (.block n x) u0 ∧ c129_tab bs n = some b ∧ (∀ k ∈ u0, k ∈ u) ∧
      ∀ (b' : ParserBlock) (bs' ds : List ParserBlock), c132_Put b b' bs bs' → b'.nextBlock = b.nextBlock → c129_Distinct (bs ++ ds) → c129_Distinct (bs' ++ ds) ∧
        c129_tab (bs' ++ ds) n = some b' ∧ (∀ k ∈ u0, k ≠ n → c129_tab (bs' ++ ds) k = c129_tab bs k) ∧
        ∀ (y : Block) (v : List UInt32), Tree (c129_tab (bs' ++ ds)) (.block n y) v → v.Nodup → (∀ k ∈ v, k ∈ u0 ∨ k ∉ u) → tryFrom ⟨bs' ++ ds⟩ = .ok (C y) := by
  have h0 := (c129_tab_iff hd n b).mpr ⟨hb, hn⟩
  obtain ⟨x, u0, p, q, rfl, hx, -, F, ⟨C, hC, rfl⟩, hF, hh⟩ := c134_split h0 ht hu hnu
  simp only [Goal.blocks.injEq, true_and] at hF
  obtain ⟨n1, n2, n3⟩ := List.nodup_append.mp hu
  obtain ⟨n4, n5, n6⟩ := List.nodup_append.mp n2
  refine ⟨C, x, u0, hC, hF.symm, n4, hx, h0, fun k hk => by simp [hk], ?_⟩
  intro b' bs' ds hp hnx hd2
  have hd' : c129_Distinct (bs' ++ ds) := c129_distinct_of hd2 (by rw [List.map_append, List.map_append, c132_numbers hp])
  obtain ⟨t1, t2⟩ := c132_tab hd hd' hp hn (fun x hx => List.mem_append_left _ hx) ht
  refine ⟨hd', t2, fun k hk => t1 k (by simp [hk]), ?_⟩
  intro y v hv hvn hvu
  have hnpq : ∀ k ∈ p ++ q, k ∉ u0 := by
    intro k hk hk0
    rcases List.mem_append.mp hk with hk | hk
    · exact n3 k hk k (by simp [hk0]) rfl
    · exact n6 k hk0 k hk rfl
  have hsub : ∀ k ∈ p ++ q, k ∈ p ++ (u0 ++ q) := fun k hk => by
    simp only [List.mem_append] at hk ⊢
    exact hk.elim .inl fun h => .inr (.inr h)
  have hpv : ∀ k ∈ p ++ q, k ∉ v := fun k hk hkv => (hvu k hkv).elim (hnpq k hk) fun h => h (hsub k hk)
  have := hh _ b' y v (fun k hk => t1 k (hsub k hk) (by rintro rfl; exact hnpq _ hk hx.head)) t2 hnx hv
  subst hf
  obtain ⟨f', rest', rfl, hf⟩ := c132_head hp rfl
  refine (c129_accepts hd' (hf.trans hi) _).mpr ⟨_, this, ?_⟩
  refine List.nodup_append.mpr ⟨n1, List.nodup_append.mpr ⟨hvn, n5, ?_⟩, ?_⟩
  · rintro a ha _ hc rfl
    exact hpv a (by simp [hc]) ha
  · rintro a ha c hc rfl
    rcases List.mem_append.mp hc with hc | hc
    · exact hpv a (by simp [ha]) hc
    · exact n3 a ha a (by simp [hc]) rfl

/-- C134: a block of a container that is read, whatever its place is. Either it is not in the code: then the container is read in the same way without it, and with any
other block of its number. Or it is in the code, at some place: it is read there as it is read alone, and when its colour and operation are changed, a substack is taken out
of it or put into it, or it is replaced by another block with the same number and next pointer, the same code is read with this change in this place. -/
theorem c134_edit {bs : List ParserBlock} {b : ParserBlock} (hd : c129_Distinct bs) (hb : b ∈ bs) {code : List Block} (h : tryFrom ⟨bs⟩ = .ok code) :
    (tryFrom ⟨c134_others b bs⟩ = .ok code ∧ bs.head? ≠ some b ∧ ∀ b' bs', c132_Put b b' bs bs' → tryFrom ⟨bs'⟩ = .ok code) ∨
    ∃ C x, c134_Place C ∧ code = C x ∧ (∀ q : Int32, q < 0 → tryFrom ⟨{ b with nextBlock := q } :: c134_others b bs⟩ = .ok [x]) ∧
      (∀ c o bs', c132_Put b { b with color := c, opCode := o } bs bs' → tryFrom ⟨bs'⟩ = .ok (C (c134_label c o x))) ∧
      (∀ (q : Int32) bs', q < 0 → c132_Put b { b with subStack1 := q } bs bs' → tryFrom ⟨bs'⟩ = .ok (C (c132_with1 none x))) ∧
      (∀ (q : Int32) bs', q < 0 → c132_Put b { b with subStack2 := q } bs bs' → tryFrom ⟨bs'⟩ = .ok (C (c132_with2 none x))) ∧
      (∀ (q : Int32) d ds y bs', c129_Distinct (bs ++ d :: ds) → c129_To q d → tryFrom ⟨d :: ds⟩ = .ok y → c132_Put b { b with subStack1 := q } bs bs' →
        tryFrom ⟨bs' ++ d :: ds⟩ = .ok (C (c132_with1 (some y) x))) ∧
      (∀ (q : Int32) d ds y bs', c129_Distinct (bs ++ d :: ds) → c129_To q d → tryFrom ⟨d :: ds⟩ = .ok y → c132_Put b { b with subStack2 := q } bs bs' →
        tryFrom ⟨bs' ++ d :: ds⟩ = .ok (C (c132_with2 (some y) x))) ∧
      ∀ (q : Int32) b' ds c bs', c129_Distinct (bs ++ ds) → q < 0 → b'.nextBlock = b.nextBlock → tryFrom ⟨{ b' with nextBlock := q } :: ds⟩ = .ok c → c132_Put b b' bs bs' →
        ∃ y, c = [y] ∧ tryFrom ⟨bs' ++ ds⟩ = .ok (C y) := by
  cases hbs : bs with
  | nil => subst hbs; cases hb
  | cons f rest =>
  have hm : f ∈ bs := by rw [hbs]; simp
  have hn := hd.1 b hb
  cases hnn : parseU32 b.id with
  | none => exact absurd hnn hn
  | some n =>
  cases hii : parseU32 f.id with
  | none => exact absurd hii (hd.1 f hm)
  | some i =>
  obtain ⟨u, ht, hu⟩ := (c129_accepts (hbs ▸ hd) hii code).mp (hbs ▸ h)
  rw [← hbs] at ht
  by_cases hnu : n ∈ u
  · right
    rw [← hbs]
    obtain ⟨C, x, u0, hC, hcode, hu0, hx, e0, hsub, key⟩ := c134_core hd hb hnn hbs hii ht hu hnu
    have old : ∀ (b' : ParserBlock) (bs' : List ParserBlock), c132_Put b b' bs bs' → b'.nextBlock = b.nextBlock → c129_tab bs' n = some b' ∧
        (∀ k ∈ u0, k ≠ n → c129_tab bs' k = c129_tab bs k) ∧
        ∀ (y : Block) (v : List UInt32), Tree (c129_tab bs') (.block n y) v → v.Nodup → (∀ k ∈ v, k ∈ u0) → tryFrom ⟨bs'⟩ = .ok (C y) := by
      intro b' bs' hp hnx
      obtain ⟨-, k2, k3, k4⟩ := key b' bs' [] hp hnx (by rw [List.append_nil]; exact hd)
      rw [List.append_nil] at k2 k3 k4
      exact ⟨k2, k3, fun y v hv hvn hvu => k4 y v hv hvn fun k hk => .inl (hvu k hk)⟩
    have hap : ∀ {ds : List ParserBlock} {G : Goal} {w : List UInt32}, c129_Distinct (bs ++ ds) → Tree (c129_tab ds) G w → ∀ k ∈ w, k ∉ u := fun hd2 hw k hk hku =>
      c132_apart hd2 ht hw k hku k hk rfl
    refine ⟨C, x, hC, hcode, ?_, ?_, ?_, ?_, ?_, ?_, ?_⟩
    · intro q hq
      have hd' : c129_Distinct ({ b with nextBlock := q } :: c134_others b bs) := by
        have ho := c134_others_distinct (b := b) hd
        refine ⟨fun a ha => ?_, ?_⟩
        · rcases List.mem_cons.mp ha with rfl | ha
          · exact hn
          · exact ho.1 a ha
        · rw [List.map_cons, List.nodup_cons]
          refine ⟨fun hm => ?_, ho.2⟩
          obtain ⟨a, ha, hab⟩ := List.mem_map.mp hm
          have := (List.mem_filter.mp ha).2
          simp only [ne_eq, decide_eq_true_eq] at this
          exact this hab
      have hself : c129_tab ({ b with nextBlock := q } :: c134_others b bs) n = some { b with nextBlock := q } := (c129_tab_iff hd' n _).mpr ⟨by simp, hnn⟩
      refine (c129_accepts hd' (i := n) hnn _).mpr ⟨u0, .last hself hq (c129_block hx hu0 e0 hself fun k hk hkn => ?_), hu0⟩
      have := hx.dom k hk
      cases hz : c129_tab bs k with
      | none => rw [hz] at this; cases this
      | some z =>
        rw [← hz]
        obtain ⟨a1, a2⟩ := (c129_tab_iff hd k z).mp hz
        refine c129_tab_congr hd hd' hz (List.mem_cons_of_mem _ (List.mem_filter.mpr ⟨a1, ?_⟩))
        simp only [ne_eq, decide_eq_true_eq, a2, hnn]
        exact fun e => hkn (Option.some.inj e)
    · intro c o bs' hp
      obtain ⟨k2, k3, k4⟩ := old _ bs' hp rfl
      cases hx with
      | @block _ p0 s1 s2 c0 c' t u1 u2 u3 h0 h1 h2 hr' hi' ht' =>
        rw [e0] at h0
        cases h0
        obtain ⟨m1, m2⟩ := List.nodup_cons.mp hu0
        have hk : ∀ k ∈ u1 ++ (u2 ++ u3), c129_tab bs' k = c129_tab bs k := fun k hk => k3 k (List.mem_cons_of_mem _ hk) (by rintro rfl; exact m1 hk)
        exact k4 _ _ (.block (p := { b with color := c, opCode := o }) k2 (h1.congr fun k h => hk k (by simp [h])) (h2.congr fun k h => hk k (by simp [h])) hr'
          (hi'.congr fun k h => hk k (by simp [h])) ht') hu0 fun k hk => hk
    · intro q bs' hq hp
      obtain ⟨k2, k3, k4⟩ := old _ bs' hp rfl
      cases hx with
      | @block _ p0 s1 s2 c0 c' t u1 u2 u3 h0 h1 h2 hr' hi' ht' =>
        rw [e0] at h0
        cases h0
        obtain ⟨m1, m2⟩ := List.nodup_cons.mp hu0
        have hk : ∀ k ∈ u1 ++ (u2 ++ u3), c129_tab bs' k = c129_tab bs k := fun k hk => k3 k (List.mem_cons_of_mem _ hk) (by rintro rfl; exact m1 hk)
        refine k4 _ (n :: ([] ++ (u2 ++ u3))) (.block (p := { b with subStack1 := q }) k2 (.noStack hq) (h2.congr fun k h => hk k (by simp [h])) hr'
          (hi'.congr fun k h => hk k (by simp [h])) ht') (List.nodup_cons.mpr ⟨fun hm => m1 (List.mem_append_right _ hm), (List.nodup_append.mp m2).2.1⟩) fun k hk => ?_
        simp only [List.mem_cons, List.mem_append, List.not_mem_nil, false_or] at hk ⊢
        exact hk.elim .inl fun h => .inr (.inr h)
    · intro q bs' hq hp
      obtain ⟨k2, k3, k4⟩ := old _ bs' hp rfl
      cases hx with
      | @block _ p0 s1 s2 c0 c' t u1 u2 u3 h0 h1 h2 hr' hi' ht' =>
        rw [e0] at h0
        cases h0
        obtain ⟨m1, m2⟩ := List.nodup_cons.mp hu0
        obtain ⟨m3, m4, m5⟩ := List.nodup_append.mp m2
        have hk : ∀ k ∈ u1 ++ (u2 ++ u3), c129_tab bs' k = c129_tab bs k := fun k hk => k3 k (List.mem_cons_of_mem _ hk) (by rintro rfl; exact m1 hk)
        refine k4 _ (n :: (u1 ++ ([] ++ u3))) (.block (p := { b with subStack2 := q }) k2 (h1.congr fun k h => hk k (by simp [h])) (.noStack hq) hr'
          (hi'.congr fun k h => hk k (by simp [h])) ht') (List.nodup_cons.mpr ⟨fun hm => m1 ?_,
            List.nodup_append.mpr ⟨m3, (List.nodup_append.mp m4).2.1, fun a ha c hc => m5 a ha c (List.mem_append_right _ hc)⟩⟩) fun k hk => ?_
        · simp only [List.mem_append, List.not_mem_nil, false_or] at hm ⊢
          exact hm.elim .inl fun h => .inr (.inr h)
        · simp only [List.mem_cons, List.mem_append, List.not_mem_nil, false_or] at hk ⊢
          rcases hk with h | h | h
          · exact .inl h
          · exact .inr (.inl h)
          · exact .inr (.inr (.inr h))
    · intro q d ds y bs' hd2 hq hy hp
      obtain ⟨hd', k2, k3, k4⟩ := key _ bs' (d :: ds) hp rfl hd2
      obtain ⟨v, hv, hvn⟩ := (c129_accepts (c129_distinct_right hd2) hq.2 y).mp hy
      have hvu := hap hd2 hv
      have hv' := c132_tab_all (c129_distinct_right hd2) hd' (fun x hx => List.mem_append_right _ hx) hv
      cases hx with
      | @block _ p0 s1 s2 c0 c' t u1 u2 u3 h0 h1 h2 hr' hi' ht' =>
        rw [e0] at h0
        cases h0
        obtain ⟨m1, m2⟩ := List.nodup_cons.mp hu0
        have hk : ∀ k ∈ u1 ++ (u2 ++ u3), c129_tab (bs' ++ d :: ds) k = c129_tab bs k := fun k hk => k3 k (List.mem_cons_of_mem _ hk) (by rintro rfl; exact m1 hk)
        refine k4 _ (n :: (v ++ (u2 ++ u3))) (.block (p := { b with subStack1 := q }) k2 (.stack hq.1 hv') (h2.congr fun k h => hk k (by simp [h])) hr'
          (hi'.congr fun k h => hk k (by simp [h])) ht') (List.nodup_cons.mpr ⟨fun hm => ?_, List.nodup_append.mpr ⟨hvn, (List.nodup_append.mp m2).2.1, fun a ha c hc e => ?_⟩⟩) fun k hk => ?_
        · rcases List.mem_append.mp hm with hm | hm
          · exact hvu n hm hnu
          · exact m1 (List.mem_append_right _ hm)
        · subst e
          exact hvu a ha (hsub a (List.mem_cons_of_mem _ (List.mem_append_right _ hc)))
        · simp only [List.mem_cons, List.mem_append] at hk ⊢
          rcases hk with h | h | h
          · exact .inl (.inl h)
          · exact .inr (hvu k h)
          · exact .inl (.inr (.inr h))
    · intro q d ds y bs' hd2 hq hy hp
      obtain ⟨hd', k2, k3, k4⟩ := key _ bs' (d :: ds) hp rfl hd2
      obtain ⟨v, hv, hvn⟩ := (c129_accepts (c129_distinct_right hd2) hq.2 y).mp hy
      have hvu := hap hd2 hv
      have hv' := c132_tab_all (c129_distinct_right hd2) hd' (fun x hx => List.mem_append_right _ hx) hv
      cases hx with
      | @block _ p0 s1 s2 c0 c' t u1 u2 u3 h0 h1 h2 hr' hi' ht' =>
        rw [e0] at h0
        cases h0
        obtain ⟨m1, m2⟩ := List.nodup_cons.mp hu0
        obtain ⟨m3, m4, m5⟩ := List.nodup_append.mp m2
        have hk : ∀ k ∈ u1 ++ (u2 ++ u3), c129_tab (bs' ++ d :: ds) k = c129_tab bs k := fun k hk => k3 k (List.mem_cons_of_mem _ hk) (by rintro rfl; exact m1 hk)
        refine k4 _ (n :: (u1 ++ (v ++ u3))) (.block (p := { b with subStack2 := q }) k2 (h1.congr fun k h => hk k (by simp [h])) (.stack hq.1 hv') hr'
          (hi'.congr fun k h => hk k (by simp [h])) ht') (List.nodup_cons.mpr ⟨fun hm => ?_, List.nodup_append.mpr ⟨m3,
            List.nodup_append.mpr ⟨hvn, (List.nodup_append.mp m4).2.1, fun a ha c hc e => ?_⟩, fun a ha c hc e => ?_⟩⟩) fun k hk => ?_
        · rcases List.mem_append.mp hm with hm | hm
          · exact m1 (List.mem_append_left _ hm)
          rcases List.mem_append.mp hm with hm | hm
          · exact hvu n hm hnu
          · exact m1 (by simp [hm])
        · subst e
          exact hvu a ha (hsub a (by simp [hc]))
        · subst e
          rcases List.mem_append.mp hc with hc | hc
          · exact hvu a hc (hsub a (by simp [ha]))
          · exact m5 a ha a (by simp [hc]) rfl
        · simp only [List.mem_cons, List.mem_append] at hk ⊢
          rcases hk with h | h | h | h
          · exact .inl (.inl h)
          · exact .inl (.inr (.inl h))
          · exact .inr (hvu k h)
          · exact .inl (.inr (.inr (.inr h)))
    · intro q b' ds c bs' hd2 hq hnx hc hp
      obtain ⟨hd', k2, k3, k4⟩ := key _ bs' ds hp hnx hd2
      have hn' : parseU32 b'.id = some n := hp.1.trans hnn
      have hdb : c129_Distinct ({ b' with nextBlock := q } :: ds) := by
        refine ⟨?_, ?_⟩
        · intro x hx
          cases hx with
          | head => rw [show parseU32 b'.id = some n from hn']; exact nofun
          | tail _ hx => exact hd2.1 x (List.mem_append_right _ hx)
        · have := hd2.2
          rw [List.map_append] at this
          obtain ⟨-, h2, h3⟩ := List.nodup_append.mp this
          rw [List.map_cons, List.nodup_cons]
          exact ⟨fun hm => h3 _ (List.mem_map.mpr ⟨b, hb, rfl⟩) _ hm hp.1.symm, h2⟩
      obtain ⟨y, v, rfl, hvn, hv⟩ := c132_alone hn' hq hdb hc
      have own : ∀ k ∈ v, k ≠ n → ∃ z ∈ ds, parseU32 z.id = some k := by
        intro k hk hkn
        have := hv.dom k hk
        cases hx : c129_tab ({ b' with nextBlock := q } :: ds) k with
        | none => rw [hx] at this; cases this
        | some z =>
          obtain ⟨a1, a2⟩ := (c129_tab_iff hdb k z).mp hx
          cases a1 with
          | head => exact absurd (Option.some.inj (a2.symm.trans hn')) hkn
          | tail _ hm => exact ⟨z, hm, a2⟩
      refine ⟨y, rfl, k4 y v (c129_block (p := { b' with nextBlock := q }) (q := b'.nextBlock) hv hvn ((c129_tab_iff hdb n _).mpr ⟨by simp, hn'⟩) k2 fun k hk hkn => ?_) hvn fun k hk => ?_⟩
      · obtain ⟨z, hz, hzk⟩ := own k hk hkn
        rw [(c129_tab_iff hd' k z).mpr ⟨List.mem_append_right _ hz, hzk⟩, (c129_tab_iff hdb k z).mpr ⟨List.mem_cons_of_mem _ hz, hzk⟩]
      · by_cases hkn : k = n
        · exact .inl (hkn ▸ hx.head)
        · right
          intro hku
          obtain ⟨z, hz, hza⟩ := own k hk hkn
          have := ht.dom k hku
          cases hw : c129_tab bs k with
          | none => rw [hw] at this; cases this
          | some w =>
            obtain ⟨a1, a2⟩ := (c129_tab_iff hd k w).mp hw
            have := hd2.2
            rw [List.map_append] at this
            exact (List.nodup_append.mp this).2.2 _ (List.mem_map.mpr ⟨w, a1, rfl⟩) _ (List.mem_map.mpr ⟨z, hz, rfl⟩) (by rw [a2, hza])
  · left
    have hiu : i ∈ u := by
      cases ht with
      | last _ _ h => exact h.head
      | next _ _ h' _ => exact List.mem_append_left _ h'.head
    have hin : i ≠ n := by rintro rfl; exact hnu hiu
    rw [← hbs]
    refine ⟨?_, ?_, ?_⟩
    · have ho := c134_others_distinct (b := b) hd
      have hof : c134_others b bs = f :: c134_others b rest := by
        rw [hbs]
        unfold c134_others
        rw [List.filter_cons, if_pos]
        simp only [ne_eq, decide_eq_true_eq, hii, hnn]
        exact fun e => hin (Option.some.inj e)
      rw [hof] at ho ⊢
      refine (c129_accepts ho hii _).mpr ⟨u, ht.congr fun k hk => ?_, hu⟩
      have := ht.dom k hk
      cases hz : c129_tab bs k with
      | none => rw [hz] at this; cases this
      | some z =>
        rw [← hz]
        obtain ⟨a1, a2⟩ := (c129_tab_iff hd k z).mp hz
        refine c129_tab_congr hd ho hz (hof ▸ List.mem_filter.mpr ⟨a1, ?_⟩)
        simp only [ne_eq, decide_eq_true_eq, a2, hnn]
        exact fun e => hnu (Option.some.inj e ▸ hk)
    · rw [hbs, List.head?_cons]
      intro e
      rw [Option.some.inj e, hnn] at hii
      exact hin (Option.some.inj hii).symm
    · intro b' bs' hp
      have hd' : c129_Distinct bs' := c129_distinct_of hd (by rw [c132_numbers hp])
      obtain ⟨t1, -⟩ := c132_tab hd hd' hp hnn (fun _ h => h) ht
      obtain ⟨f', rest', rfl, hf⟩ := c132_head hp hbs
      exact (c129_accepts hd' (hf.trans hii) _).mpr ⟨u, ht.congr fun k hk => t1 k hk (by rintro rfl; exact hnu hk), hu⟩

end Swrs.Api

namespace Swrs.Api

/-- `c134_edit`: three blocks. The second one is in the substack of the first one, and the code is refused without it; the third one is not in the code. -/
example [pol : MapPol] : let _ : Floats := toyFloats.toFloats
    let b := exBlock (s% "1") (-1) (-1) (s% "b") []
    let e := exBlock (s% "2") (-1) (-1) (s% "c") []
    let d := exBlock (s% "7") (-1) (-1) (s% "d") []
    let bs := [exBlock (s% "0") (-1) 1 (s% "a") [], b, e]
    c129_Distinct (bs ++ [d]) ∧ b ∈ bs ∧ e ∈ bs ∧ (∃ x, tryFrom ⟨c134_others b bs⟩ = .err x) ∧ (∃ code, tryFrom ⟨bs⟩ = .ok code ∧ tryFrom ⟨c134_others e bs⟩ = .ok code) ∧
      (∃ bs', c132_Put b { b with subStack1 := 7 } bs bs') ∧ c129_To 7 d ∧ ∃ y, tryFrom ⟨[d]⟩ = .ok y := by
  let _ : Floats := toyFloats.toFloats
  refine ⟨⟨by decide, by decide⟩, .tail _ (.head _), .tail _ (.tail _ (.head _)), ?_⟩
  have h : (∃ x, tryFrom ⟨[exBlock (s% "0") (-1) 1 (s% "a") [], exBlock (s% "2") (-1) (-1) (s% "c") []]⟩ = .err x) ∧ (∃ code, tryFrom ⟨[exBlock (s% "0") (-1) 1 (s% "a") [],
      exBlock (s% "1") (-1) (-1) (s% "b") [], exBlock (s% "2") (-1) (-1) (s% "c") []]⟩ = .ok code ∧ tryFrom ⟨[exBlock (s% "0") (-1) 1 (s% "a") [],
      exBlock (s% "1") (-1) (-1) (s% "b") []]⟩ = .ok code) ∧ ∃ y, tryFrom ⟨[exBlock (s% "7") (-1) (-1) (s% "d") []]⟩ = .ok y := by
    obtain ⟨a, b⟩ := pol
    cases a <;> cases b <;> exact ⟨⟨_, rfl⟩, ⟨_, rfl, rfl⟩, _, rfl⟩
  exact ⟨h.1, h.2.1, ⟨_, rfl, [_], [_], rfl, rfl⟩, ⟨by decide, by decide⟩, h.2.2⟩

end Swrs.Api
