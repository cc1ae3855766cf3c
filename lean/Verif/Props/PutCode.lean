import Verif.Props.TwoProjects
/-!
# C132: code is put into the middle of a row, into a block and in the place of a block
-/
set_option linter.unusedSectionVars false
namespace Swrs.Api
variable [MapPol] [Floats]

/-! ### Specification -/

/-- Specification: one block of a container is put in the place of another one with the same number. -/
def c132_Put (b b' : ParserBlock) (bs bs' : List ParserBlock) : Prop := parseU32 b'.id = parseU32 b.id ∧ ∃ u w, bs = u ++ b :: w ∧ bs' = u ++ b' :: w

/-- Specification: a block with another first substack. -/
def c132_with1 (s : Option (List Block)) : Block → Block | ⟨_, s2, c, o, t, k⟩ => ⟨s, s2, c, o, t, k⟩
/-- Specification: a block with another second substack. -/
def c132_with2 (s : Option (List Block)) : Block → Block | ⟨s1, _, c, o, t, k⟩ => ⟨s1, s, c, o, t, k⟩

/-! ### The table of the blocks -/

theorem c132_numbers {b b' : ParserBlock} {bs bs' : List ParserBlock} (h : c132_Put b b' bs bs') : (bs'.map fun b => parseU32 b.id) = bs.map fun b => parseU32 b.id := by
  obtain ⟨h, u, w, rfl, rfl⟩ := h
  simp [h]

theorem c132_head {b b' : ParserBlock} {bs bs' rest : List ParserBlock} {f : ParserBlock} (h : c132_Put b b' bs bs') (hf : bs = f :: rest) :
    ∃ f' rest', bs' = f' :: rest' ∧ parseU32 f'.id = parseU32 f.id := by
  obtain ⟨h, u, w, h1, rfl⟩ := h
  subst hf
  cases u with
  | nil =>
    obtain ⟨rfl, rfl⟩ := List.cons.inj h1
    exact ⟨_, _, rfl, h⟩
  | cons x u =>
    obtain ⟨rfl, rfl⟩ := List.cons.inj h1
    exact ⟨_, _, rfl, rfl⟩

theorem c132_mem {b b' x : ParserBlock} {bs bs' : List ParserBlock} (h : c132_Put b b' bs bs') (hx : x ∈ bs) (hn : parseU32 x.id ≠ parseU32 b.id) : x ∈ bs' := by
  obtain ⟨-, u, w, rfl, rfl⟩ := h
  simp only [List.mem_append, List.mem_cons] at hx ⊢
  rcases hx with h | rfl | h
  · exact .inl h
  · exact absurd rfl hn
  · exact .inr (.inr h)

theorem c132_self {b b' : ParserBlock} {bs bs' : List ParserBlock} (h : c132_Put b b' bs bs') : b' ∈ bs' := by
  obtain ⟨-, u, w, rfl, rfl⟩ := h
  simp

theorem c132_edit {b : ParserBlock} {q : Int32} {bs bs' : List ParserBlock} (h : c129_Edit b q bs bs') : c132_Put b { b with nextBlock := q } bs bs' := ⟨rfl, h⟩

/-- A number of a tree is not one of another container. -/
theorem c132_apart {bs ds : List ParserBlock} (hd : c129_Distinct (bs ++ ds)) {G G' : Goal} {u v : List UInt32} (hu : Tree (c129_tab bs) G u)
    (hv : Tree (c129_tab ds) G' v) : ∀ a ∈ u, ∀ c ∈ v, a ≠ c := by
  rintro a ha _ hc rfl
  have h1 := hu.dom a ha
  have h2 := hv.dom a hc
  cases e1 : c129_tab bs a with
  | none => rw [e1] at h1; cases h1
  | some x =>
    cases e2 : c129_tab ds a with
    | none => rw [e2] at h2; cases h2
    | some y =>
      obtain ⟨a1, a2⟩ := (c129_tab_iff (c129_distinct_left hd) a x).mp e1
      obtain ⟨b1, b2⟩ := (c129_tab_iff (c129_distinct_right hd) a y).mp e2
      have := hd.2
      rw [List.map_append] at this
      exact (List.nodup_append.mp this).2.2 _ (List.mem_map.mpr ⟨x, a1, rfl⟩) _ (List.mem_map.mpr ⟨y, b1, rfl⟩) (by rw [a2, b2])

/-- The table has the same blocks for the numbers of a tree, except for the block that is another one. -/
theorem c132_tab {b b' : ParserBlock} {bs bs' all : List ParserBlock} {n : UInt32} (hd : c129_Distinct bs) (hd' : c129_Distinct all) (hp : c132_Put b b' bs bs')
    (hn : parseU32 b.id = some n) (hs : ∀ x ∈ bs', x ∈ all) {G : Goal} {u : List UInt32} (ht : Tree (c129_tab bs) G u) :
    (∀ k ∈ u, k ≠ n → c129_tab all k = c129_tab bs k) ∧ c129_tab all n = some b' := by
  refine ⟨fun k hk hkn => ?_, (c129_tab_iff hd' n _).mpr ⟨hs _ (c132_self hp), hp.1.trans hn⟩⟩
  have := ht.dom k hk
  cases hx : c129_tab bs k with
  | none => rw [hx] at this; cases this
  | some x =>
    rw [← hx]
    obtain ⟨a1, a2⟩ := (c129_tab_iff hd k x).mp hx
    exact c129_tab_congr hd hd' hx (hs _ (c132_mem hp a1 (by rw [a2, hn]; exact fun h => hkn (Option.some.inj h))))

theorem c132_tab_all {bs all : List ParserBlock} (hd : c129_Distinct bs) (hd' : c129_Distinct all) (hs : ∀ x ∈ bs, x ∈ all) {G : Goal} {u : List UInt32}
    (ht : Tree (c129_tab bs) G u) : Tree (c129_tab all) G u := by
  refine ht.congr fun k hk => ?_
  have := ht.dom k hk
  cases hx : c129_tab bs k with
  | none => rw [hx] at this; cases this
  | some x =>
    rw [← hx]
    exact c129_tab_congr hd hd' hx (hs _ ((c129_tab_iff hd k x).mp hx).1)

/-! ### Into the middle of a row -/

theorem c132_chain_next {bs : List ParserBlock} {l1 l2 : List ParserBlock} {b : ParserBlock} : ∀ {i : UInt32}, c129_Chain bs i (l1 ++ b :: l2) →
    (l2 = [] → b.nextBlock < 0) ∧ ∀ b2 l3, l2 = b2 :: l3 → ¬ b.nextBlock < 0 ∧ parseU32 b2.id = some (pointerId b.nextBlock) := by
  induction l1 with
  | nil =>
    intro i h
    rw [List.nil_append] at h
    cases h with
    | stop _ _ hn => exact ⟨fun _ => hn, fun _ _ h => by cases h⟩
    | step _ _ hn h =>
      refine ⟨fun e => ?_, fun b2 l3 e => ⟨hn, ?_⟩⟩
      · subst e; cases h
      · subst e
        cases h with
        | stop _ hi _ => exact hi
        | step _ hi _ _ => exact hi
  | cons x l1 ih =>
    intro i h
    rw [List.cons_append] at h
    generalize hl : x :: (l1 ++ b :: l2) = l at h
    cases h with
    | stop _ _ _ =>
      obtain ⟨-, h⟩ := List.cons.inj hl
      simp at h
    | step _ _ _ h =>
      obtain ⟨rfl, rfl⟩ := List.cons.inj hl
      exact ih h

/-- C132: two containers with different numbers. A block of the row of the first one gets a pointer to the first block of the second one, and the last block of the
row of the second one gets the pointer that this block had. The code of the second one is read in the middle of the code of the first one. -/
theorem c132_paste {bs bs' ds ds' l1 l2 m : List ParserBlock} {b d e : ParserBlock} {q : Int32} (hd : c129_Distinct (bs ++ ds)) (hr : c129_Row bs (l1 ++ b :: l2))
    (hs : c129_Row ds (m ++ [e])) (hh : ds.head? = some d) (he : c129_Edit b q bs bs') (hq : c129_To q d) (he' : c129_Edit e b.nextBlock ds ds') {x y : List Block}
    (hx : tryFrom ⟨bs⟩ = .ok x) (hy : tryFrom ⟨ds⟩ = .ok y) : tryFrom ⟨bs' ++ ds'⟩ = .ok (x.take (l1.length + 1) ++ (y ++ x.drop (l1.length + 1))) := by
  obtain ⟨f, rest, i, rfl, hi, hc⟩ := hr
  obtain ⟨f2, rest2, j, rfl, hj, hc2⟩ := hs
  cases hh
  obtain ⟨-, n, hn⟩ := c129_chain_number hc
  obtain ⟨-, n', hn'⟩ := c129_chain_number hc2
  have hd1 := c129_distinct_left hd
  have hd2 := c129_distinct_right hd
  have hd' : c129_Distinct (bs' ++ ds') := c129_distinct_of hd (by rw [List.map_append, List.map_append, c129_edit_numbers he, c129_edit_numbers he'])
  obtain ⟨u, ht, hu⟩ := (c129_accepts hd1 hi x).mp hx
  obtain ⟨v, hv, hvn⟩ := (c129_accepts hd2 hj y).mp hy
  have hap := c132_apart hd ht hv
  obtain ⟨t1, t2⟩ := c132_tab hd1 hd' (c132_edit he) hn (fun x hx => List.mem_append_left _ hx) ht
  obtain ⟨t3, t4⟩ := c132_tab hd2 hd' (c132_edit he') hn' (fun x hx => List.mem_append_right _ hx) hv
  obtain ⟨xs, ys, u1, u2, rfl, rfl, h3, h4, h5, h6, h7⟩ := c129_upto (c129_tab_iff hd1) hn hc ht hu
  obtain ⟨xs', ys', v1, v2, rfl, rfl, -, -, k5, -, k7⟩ := c129_upto (c129_tab_iff hd2) hn' hc2 hv hvn
  obtain rfl := k5 rfl
  obtain ⟨-, a2⟩ := h7 (c129_tab (bs' ++ ds')) q (fun k hk => t1 k (by simp [hk])) t2
  obtain ⟨b1, b2⟩ := k7 (c129_tab (bs' ++ ds')) b.nextBlock (fun k hk => t3 k (by simp [hk])) t4
  obtain ⟨c1, c2⟩ := c132_chain_next hc
  have hpj : pointerId q = j := Option.some.inj (hq.2.symm.trans hj)
  obtain ⟨hu1, hu2, hdis⟩ := List.nodup_append.mp hu
  have hv1 := (List.nodup_append.mp hvn).1
  have pasted : ∃ w, Tree (c129_tab (bs' ++ ds')) (.blocks j (xs' ++ ys)) w ∧ w.Nodup ∧ ∀ a ∈ u1, ∀ c ∈ w, a ≠ c := by
    cases l2 with
    | nil =>
      rw [h5 rfl, List.append_nil]
      exact ⟨v1, b1 (c1 rfl), hv1, fun a ha c hc => hap a (by simp [ha]) c (by simp [hc])⟩
    | cons b2' l3 =>
      obtain ⟨d1, d2⟩ := c2 b2' l3 rfl
      have ht2 := (h6 b2' l3 _ rfl d2).2
      have hn1 : n ∉ u2 := fun h => hdis n h4 n h rfl
      refine ⟨v1 ++ u2, b2 ys u2 d1 (ht2.congr fun k hk => t1 k (by simp [hk]) (by rintro rfl; exact hn1 hk)), List.nodup_append.mpr ⟨hv1, hu2, ?_⟩, ?_⟩
      · exact fun a ha c hc => (hap c (by simp [hc]) a (by simp [ha])).symm
      · intro a ha c hc
        rcases List.mem_append.mp hc with hc | hc
        · exact hap a (by simp [ha]) c (by simp [hc])
        · exact hdis a ha c hc
  obtain ⟨w, hw, hwn, hdw⟩ := pasted
  have h10 := a2 (xs' ++ ys) w hq.1 (hpj ▸ hw)
  obtain ⟨f', rest', rfl, hf⟩ := c129_edit_head he rfl
  rw [← h3, List.take_left, List.drop_left, List.append_nil]
  exact (c129_accepts hd' (hf.trans hi) _).mpr ⟨_, h10, List.nodup_append.mpr ⟨hu1, hwn, hdw⟩⟩

/-! ### In the place of a block -/

section
variable {g : UInt32 → Option ParserBlock} {bs : List ParserBlock} (hg : ∀ k b, g k = some b ↔ b ∈ bs ∧ parseU32 b.id = some k)
include hg

/-- The code with another block in the place of a block of the chain. -/
theorem c132_at {l1 l2 : List ParserBlock} {b : ParserBlock} {n : UInt32} (hb : parseU32 b.id = some n) : ∀ {i : UInt32} {code : List Block} {u : List UInt32},
    c129_Chain bs i (l1 ++ b :: l2) → Tree g (.blocks i code) u → u.Nodup → ∃ xs x ys u1 u0 u2, code = xs ++ x :: ys ∧ u = u1 ++ (u0 ++ u2) ∧ xs.length = l1.length ∧
      Tree g (.block n x) u0 ∧
      ∀ (g' : UInt32 → Option ParserBlock) (b' : ParserBlock) (y : Block) (v : List UInt32), (∀ k ∈ u1 ++ u2, k ≠ n → g' k = g k) → g' n = some b' →
        b'.nextBlock = b.nextBlock → Tree g' (.block n y) v → Tree g' (.blocks i (xs ++ y :: ys)) (u1 ++ (v ++ u2)) := by
  induction l1 with
  | nil =>
    intro i code u hc ht hu
    rw [List.nil_append] at hc
    have hm : b ∈ bs := by cases hc <;> assumption
    have hin : i = n := by
      cases hc with
      | stop _ hi _ => rw [hb] at hi; exact (Option.some.inj hi).symm
      | step _ hi _ _ => rw [hb] at hi; exact (Option.some.inj hi).symm
    subst hin
    have hx' := (hg i b).mpr ⟨hm, hb⟩
    cases ht with
    | last h0 hn hy =>
      rw [hx'] at h0
      cases h0
      refine ⟨[], _, [], [], u, [], rfl, by simp, rfl, hy, ?_⟩
      intro g' b' y v _ h2 h3 h4
      rw [List.append_nil]
      exact .last h2 (h3 ▸ hn) h4
    | @next _ p x code' u0 u' h0 hn hy ht =>
      rw [hx'] at h0
      cases h0
      refine ⟨[], x, code', [], u0, u', rfl, rfl, rfl, hy, ?_⟩
      intro g' b' y v h1 h2 h3 h4
      have hn' : i ∉ u' := fun h => (List.nodup_append.mp hu).2.2 i hy.head i h rfl
      rw [List.nil_append]
      refine .next (bs := code') (u := v) (u' := u') h2 (h3 ▸ hn) h4 ?_
      rw [h3]
      exact ht.congr fun k hk => h1 k (by simp [hk]) (by rintro rfl; exact hn' hk)
  | cons x l1 ih =>
    intro i code u hc ht hu
    rw [List.cons_append] at hc
    generalize hl : x :: (l1 ++ b :: l2) = l at hc
    cases hc with
    | stop _ _ _ =>
      obtain ⟨-, h⟩ := List.cons.inj hl
      simp at h
    | @step x' _ l' hx hi hn hc =>
      obtain ⟨rfl, rfl⟩ := List.cons.inj hl
      have hx' := (hg i x).mpr ⟨hx, hi⟩
      cases ht with
      | last h0 hn' _ => rw [hx'] at h0; cases h0; exact absurd hn' hn
      | @next _ p y code' u0 u' h0 hn' hy ht =>
        rw [hx'] at h0
        cases h0
        obtain ⟨hu0, hu', hd⟩ := List.nodup_append.mp hu
        obtain ⟨xs, z, ys, u1, w0, u2, rfl, rfl, h3, h4, h5⟩ := ih hc ht hu'
        refine ⟨y :: xs, z, ys, u0 ++ u1, w0, u2, rfl, by rw [List.append_assoc], by simp [h3], h4, ?_⟩
        intro g' b' y' v h6 h7 h8 h9
        have hn0 : n ∉ u0 := fun h => hd n h n (by simp [h4.head]) rfl
        have hk0 : ∀ k ∈ u0, g' k = g k := fun k hk' => h6 k (by simp [hk']) (by rintro rfl; exact hn0 hk')
        have hi' : g' i = some x := by rw [hk0 i hy.head, hx']
        rw [List.append_assoc]
        refine .next hi' hn (hy.congr hk0) (h5 g' b' y' v (fun k hk => h6 k ?_) h7 h8 h9)
        simp only [List.mem_append] at hk ⊢
        exact hk.elim (fun h => .inl (.inr h)) .inr

end

omit [MapPol] in
theorem c132_set (xs ys : List Block) (x y : Block) : (xs ++ x :: ys).set xs.length y = xs ++ y :: ys := by
  induction xs with
  | nil => rfl
  | cons a xs ih => rw [List.cons_append, List.length_cons, List.set_cons_succ, ih, List.cons_append]

omit [MapPol] in
theorem c132_get (xs ys : List Block) (x : Block) : (xs ++ x :: ys)[xs.length]? = some x := by simp

/-- The same block is read with another pointer to the next block. -/
theorem c132_alone {b' : ParserBlock} {q : Int32} {ds : List ParserBlock} {n : UInt32} (hn : parseU32 b'.id = some n) (hq : q < 0)
    (hd : c129_Distinct ({ b' with nextBlock := q } :: ds)) {c : List Block} (hy : tryFrom ⟨{ b' with nextBlock := q } :: ds⟩ = .ok c) :
    ∃ y v, c = [y] ∧ v.Nodup ∧ Tree (c129_tab ({ b' with nextBlock := q } :: ds)) (.block n y) v := by
  obtain ⟨v, hv, hvn⟩ := (c129_accepts hd (i := n) hn c).mp hy
  have h0 := (c129_tab_iff hd n { b' with nextBlock := q }).mpr ⟨by simp, hn⟩
  cases hv with
  | last _ _ h => exact ⟨_, v, rfl, hvn, h⟩
  | next h1 h2 _ _ =>
    rw [h0] at h1
    cases h1
    exact absurd hq h2

/-- C132: a block of the row is replaced by another block with the same number and the same pointer to the next block, and with other blocks of its own behind. If
that block, alone with its own blocks, is read as `y`, then `y` is read in the place of the block that was replaced. -/
theorem c132_replace {bs bs' ds l1 l2 : List ParserBlock} {b b' : ParserBlock} {q : Int32} (hd : c129_Distinct (bs ++ ds)) (hr : c129_Row bs (l1 ++ b :: l2))
    (hp : c132_Put b b' bs bs') (hb : b'.nextBlock = b.nextBlock) (hq : q < 0) {code c : List Block} (h : tryFrom ⟨bs⟩ = .ok code)
    (hc : tryFrom ⟨{ b' with nextBlock := q } :: ds⟩ = .ok c) : ∃ y, c = [y] ∧ tryFrom ⟨bs' ++ ds⟩ = .ok (code.set l1.length y) := by
  obtain ⟨f, rest, i, rfl, hi, hch⟩ := hr
  obtain ⟨hbm, n, hn⟩ := c129_chain_number hch
  have hd1 := c129_distinct_left hd
  have hd' : c129_Distinct (bs' ++ ds) := c129_distinct_of hd (by rw [List.map_append, List.map_append, c132_numbers hp])
  have hdb : c129_Distinct ({ b' with nextBlock := q } :: ds) := by
    refine ⟨?_, ?_⟩
    · intro x hx
      cases hx with
      | head => rw [show parseU32 b'.id = some n from hp.1.trans hn]; exact nofun
      | tail _ hx => exact hd.1 x (List.mem_append_right _ hx)
    · have := hd.2
      rw [List.map_append] at this
      obtain ⟨-, h2, h3⟩ := List.nodup_append.mp this
      rw [List.map_cons, List.nodup_cons]
      exact ⟨fun hm => h3 _ (List.mem_map.mpr ⟨b, hbm, rfl⟩) _ hm hp.1.symm, h2⟩
  obtain ⟨y, v, rfl, hvn, hv⟩ := c132_alone (hp.1.trans hn) hq hdb hc
  refine ⟨y, rfl, ?_⟩
  obtain ⟨u, ht, hu⟩ := (c129_accepts hd1 hi code).mp h
  obtain ⟨t1, t2⟩ := c132_tab hd1 hd' hp hn (fun x hx => List.mem_append_left _ hx) ht
  obtain ⟨xs, x, ys, u1, u0, u2, rfl, rfl, h3, h4, h5⟩ := c132_at (c129_tab_iff hd1) hn hch ht hu
  have own : ∀ k ∈ v, k ≠ n → ∃ z ∈ ds, parseU32 z.id = some k := by
    intro k hk hkn
    have := hv.dom k hk
    cases hx : c129_tab ({ b' with nextBlock := q } :: ds) k with
    | none => rw [hx] at this; cases this
    | some z =>
      obtain ⟨a1, a2⟩ := (c129_tab_iff hdb k z).mp hx
      cases a1 with
      | head => exact absurd (Option.some.inj (a2.symm.trans (hp.1.trans hn))) hkn
      | tail _ hm => exact ⟨z, hm, a2⟩
  have hv' : Tree (c129_tab (bs' ++ ds)) (.block n y) v := by
    refine c129_block (p := { b' with nextBlock := q }) (q := b'.nextBlock) hv hvn ((c129_tab_iff hdb n _).mpr ⟨by simp, hp.1.trans hn⟩) t2 fun k hk hkn => ?_
    obtain ⟨z, hz, hzk⟩ := own k hk hkn
    rw [(c129_tab_iff hd' k z).mpr ⟨List.mem_append_right _ hz, hzk⟩, (c129_tab_iff hdb k z).mpr ⟨List.mem_cons_of_mem _ hz, hzk⟩]
  have h10 := h5 _ b' y v (fun k hk => t1 k (by simp only [List.mem_append] at hk ⊢; exact hk.elim .inl fun h => .inr (.inr h))) t2 hb hv'
  obtain ⟨f', rest', rfl, hf⟩ := c132_head hp rfl
  rw [← h3, c132_set]
  refine (c129_accepts hd' (hf.trans hi) _).mpr ⟨_, h10, ?_⟩
  obtain ⟨n1, n2, n3⟩ := List.nodup_append.mp hu
  obtain ⟨n4, n5, n6⟩ := List.nodup_append.mp n2
  have sep : ∀ a ∈ u1 ++ u2, ∀ c ∈ v, a ≠ c := by
    rintro a ha _ hc rfl
    have hau : a ∈ u1 ++ (u0 ++ u2) := by simp only [List.mem_append] at ha ⊢; exact ha.elim .inl fun h => .inr (.inr h)
    have han : a ≠ n := by
      rintro rfl
      rcases List.mem_append.mp ha with ha | ha
      · exact n3 a ha a (by simp [h4.head]) rfl
      · exact n6 a h4.head a ha rfl
    obtain ⟨z, hz, hza⟩ := own a hc han
    have := ht.dom a hau
    cases hx : c129_tab (f :: rest) a with
    | none => rw [hx] at this; cases this
    | some w =>
      obtain ⟨a1, a2⟩ := (c129_tab_iff hd1 a w).mp hx
      have := hd.2
      rw [List.map_append] at this
      exact (List.nodup_append.mp this).2.2 _ (List.mem_map.mpr ⟨w, a1, rfl⟩) _ (List.mem_map.mpr ⟨z, hz, rfl⟩) (by rw [a2, hza])
  refine List.nodup_append.mpr ⟨n1, List.nodup_append.mpr ⟨hvn, n5, fun a ha c hc => (sep c (by simp [hc]) a ha).symm⟩, fun a ha c hc => ?_⟩
  rcases List.mem_append.mp hc with hc | hc
  · exact sep a (by simp [ha]) c hc
  · exact n3 a ha c (by simp [hc])

/-! ### Into a block -/

/-- The code with another block in the place of a block, when that one holds blocks of the old one and of another container. -/
theorem c132_put {bs bs' ds l1 l2 : List ParserBlock} {b b' : ParserBlock} (hd : c129_Distinct (bs ++ ds)) (hr : c129_Row bs (l1 ++ b :: l2))
    (hp : c132_Put b b' bs bs') (hb : b'.nextBlock = b.nextBlock) {code : List Block} (h : tryFrom ⟨bs⟩ = .ok code) :
    ∃ x n u0, code[l1.length]? = some x ∧ parseU32 b.id = some n ∧ u0.Nodup ∧ Tree (c129_tab bs) (.block n x) u0 ∧ c129_tab bs n = some b ∧
      c129_tab (bs' ++ ds) n = some b' ∧ (∀ k ∈ u0, k ≠ n → c129_tab (bs' ++ ds) k = c129_tab bs k) ∧ c129_Distinct (bs' ++ ds) ∧
      ∀ (y : Block) (v w : List UInt32), Tree (c129_tab (bs' ++ ds)) (.block n y) v → v.Nodup → (∀ k ∈ v, k ∈ u0 ∨ k ∈ w) →
        (∃ G, Tree (c129_tab ds) G w) → tryFrom ⟨bs' ++ ds⟩ = .ok (code.set l1.length y) := by
  obtain ⟨f, rest, i, rfl, hi, hch⟩ := hr
  obtain ⟨hbm, n, hn⟩ := c129_chain_number hch
  have hd1 := c129_distinct_left hd
  have hd' : c129_Distinct (bs' ++ ds) := c129_distinct_of hd (by rw [List.map_append, List.map_append, c132_numbers hp])
  obtain ⟨u, ht, hu⟩ := (c129_accepts hd1 hi code).mp h
  obtain ⟨t1, t2⟩ := c132_tab hd1 hd' hp hn (fun x hx => List.mem_append_left _ hx) ht
  obtain ⟨xs, x, ys, u1, u0, u2, rfl, rfl, h3, h4, h5⟩ := c132_at (c129_tab_iff hd1) hn hch ht hu
  obtain ⟨n1, n2, n3⟩ := List.nodup_append.mp hu
  obtain ⟨n4, n5, n6⟩ := List.nodup_append.mp n2
  refine ⟨x, n, u0, by rw [← h3, c132_get], hn, n4, h4, (c129_tab_iff hd1 n b).mpr ⟨hbm, hn⟩, t2, fun k hk => t1 k (by simp [hk]), hd', ?_⟩
  rintro y v w hv hvn hvw ⟨G, hw⟩
  have h10 := h5 _ b' y v (fun k hk => t1 k (by simp only [List.mem_append] at hk ⊢; exact hk.elim .inl fun h => .inr (.inr h))) t2 hb hv
  have hap := c132_apart hd ht hw
  obtain ⟨f', rest', rfl, hf⟩ := c132_head hp rfl
  rw [← h3, c132_set]
  refine (c129_accepts hd' (hf.trans hi) _).mpr ⟨_, h10, ?_⟩
  refine List.nodup_append.mpr ⟨n1, List.nodup_append.mpr ⟨hvn, n5, fun a ha c hc => ?_⟩, fun a ha c hc => ?_⟩
  · rcases hvw a ha with h | h
    · exact n6 a h c hc
    · exact (hap c (by simp [hc]) a h).symm
  · rcases List.mem_append.mp hc with hc | hc
    · rcases hvw c hc with h | h
      · exact n3 a ha c (by simp [h])
      · exact hap a (by simp [ha]) c h
    · exact n3 a ha c (by simp [hc])

/-- C132: a block of the row gets a pointer from its first or second substack to the first block of another container with other numbers. The code of that container is
read in this substack, and the rest as before. -/
theorem c132_fill {bs bs' ds l1 l2 : List ParserBlock} {b d : ParserBlock} {q : Int32} (hd : c129_Distinct (bs ++ d :: ds)) (hr : c129_Row bs (l1 ++ b :: l2)) (hq : c129_To q d)
    {code y : List Block} (h : tryFrom ⟨bs⟩ = .ok code) (hy : tryFrom ⟨d :: ds⟩ = .ok y) : ∃ x, code[l1.length]? = some x ∧
      (c132_Put b { b with subStack1 := q } bs bs' → tryFrom ⟨bs' ++ d :: ds⟩ = .ok (code.set l1.length (c132_with1 (some y) x))) ∧
      (c132_Put b { b with subStack2 := q } bs bs' → tryFrom ⟨bs' ++ d :: ds⟩ = .ok (code.set l1.length (c132_with2 (some y) x))) := by
  have hd2 := c129_distinct_right hd
  obtain ⟨v, hv, hvn⟩ := (c129_accepts hd2 hq.2 y).mp hy
  obtain ⟨x, -, -, hx, -⟩ := c132_put (b := b) (b' := b) (bs' := bs) hd hr ⟨rfl, by
    obtain ⟨f, rest, i, rfl, hi, hch⟩ := hr
    obtain ⟨u, w, hm⟩ := List.append_of_mem (c129_chain_number hch).1
    exact ⟨u, w, hm, hm⟩⟩ rfl h
  refine ⟨x, hx, fun hp => ?_, fun hp => ?_⟩
  · obtain ⟨x', n, u0, hx', hn, hu, ht, e1, e2, e3, hd', key⟩ := c132_put hd hr hp rfl h
    rw [hx] at hx'
    cases hx'
    have hap := c132_apart hd ht hv
    have hv' := c132_tab_all hd2 hd' (fun x hx => List.mem_append_right _ hx) hv
    cases ht with
    | @block _ p0 s1 s2 c0 c t u1 u2 u3 h0 h1 h2 hr' hi' ht' =>
      rw [e1] at h0
      cases h0
      obtain ⟨m1, m2⟩ := List.nodup_cons.mp hu
      obtain ⟨m3, m4, m5⟩ := List.nodup_append.mp m2
      have hk : ∀ k ∈ u1 ++ (u2 ++ u3), c129_tab (bs' ++ d :: ds) k = c129_tab bs k := fun k hk => e3 k (List.mem_cons_of_mem _ hk) (by rintro rfl; exact m1 hk)
      refine key _ (n :: (v ++ (u2 ++ u3))) v (.block (p := { b with subStack1 := q }) e2 (.stack hq.1 hv') (h2.congr fun k h => hk k (by simp [h])) hr'
        (hi'.congr fun k h => hk k (by simp [h])) ht') ?_ ?_ ⟨_, hv⟩
      · refine List.nodup_cons.mpr ⟨fun hm => ?_, List.nodup_append.mpr ⟨hvn, m4, fun a ha c hc => (hap c (List.mem_cons_of_mem _ (List.mem_append_right _ hc)) a ha).symm⟩⟩
        rcases List.mem_append.mp hm with hm | hm
        · exact hap n (by simp) n hm rfl
        · exact m1 (List.mem_append_right _ hm)
      · intro k hk
        rcases List.mem_cons.mp hk with rfl | hk
        · exact .inl (by simp)
        · exact (List.mem_append.mp hk).elim .inr fun h => .inl (List.mem_cons_of_mem _ (List.mem_append_right _ h))
  · obtain ⟨x', n, u0, hx', hn, hu, ht, e1, e2, e3, hd', key⟩ := c132_put hd hr hp rfl h
    rw [hx] at hx'
    cases hx'
    have hap := c132_apart hd ht hv
    have hv' := c132_tab_all hd2 hd' (fun x hx => List.mem_append_right _ hx) hv
    cases ht with
    | @block _ p0 s1 s2 c0 c t u1 u2 u3 h0 h1 h2 hr' hi' ht' =>
      rw [e1] at h0
      cases h0
      obtain ⟨m1, m2⟩ := List.nodup_cons.mp hu
      obtain ⟨m3, m4, m5⟩ := List.nodup_append.mp m2
      obtain ⟨m6, m7, m8⟩ := List.nodup_append.mp m4
      have hk : ∀ k ∈ u1 ++ (u2 ++ u3), c129_tab (bs' ++ d :: ds) k = c129_tab bs k := fun k hk => e3 k (List.mem_cons_of_mem _ hk) (by rintro rfl; exact m1 hk)
      refine key _ (n :: (u1 ++ (v ++ u3))) v (.block (p := { b with subStack2 := q }) e2 (h1.congr fun k h => hk k (by simp [h])) (.stack hq.1 hv') hr'
        (hi'.congr fun k h => hk k (by simp [h])) ht') ?_ ?_ ⟨_, hv⟩
      · refine List.nodup_cons.mpr ⟨fun hm => ?_, List.nodup_append.mpr ⟨m3, List.nodup_append.mpr ⟨hvn, m7, fun a ha c hc => (hap c (by simp [hc]) a ha).symm⟩, fun a ha c hc => ?_⟩⟩
        · rcases List.mem_append.mp hm with hm | hm
          · exact m1 (List.mem_append_left _ hm)
          rcases List.mem_append.mp hm with hm | hm
          · exact hap n (by simp) n hm rfl
          · exact m1 (by simp [hm])
        · rcases List.mem_append.mp hc with hc | hc
          · exact hap a (by simp [ha]) c hc
          · exact m5 a ha c (by simp [hc])
      · intro k hk
        simp only [List.mem_cons, List.mem_append] at hk ⊢
        rcases hk with h | h | h | h
        · exact .inl (.inl h)
        · exact .inl (.inr (.inl h))
        · exact .inr h
        · exact .inl (.inr (.inr (.inr h)))

/-- C132: a substack pointer of a block of the row is set to no block. The block is read without this substack, and the rest as before. -/
theorem c132_empty {bs bs' l1 l2 : List ParserBlock} {b : ParserBlock} {q : Int32} (hd : c129_Distinct bs) (hr : c129_Row bs (l1 ++ b :: l2)) (hq : q < 0)
    {code : List Block} (h : tryFrom ⟨bs⟩ = .ok code) : ∃ x, code[l1.length]? = some x ∧
      (c132_Put b { b with subStack1 := q } bs bs' → tryFrom ⟨bs'⟩ = .ok (code.set l1.length (c132_with1 none x))) ∧
      (c132_Put b { b with subStack2 := q } bs bs' → tryFrom ⟨bs'⟩ = .ok (code.set l1.length (c132_with2 none x))) := by
  have hd0 : c129_Distinct (bs ++ []) := by rw [List.append_nil]; exact hd
  have no : ∃ G, Tree (c129_tab []) G [] := ⟨.items [] [], .nil⟩
  obtain ⟨x, -, -, hx, -⟩ := c132_put (b := b) (b' := b) (bs' := bs) hd0 hr ⟨rfl, by
    obtain ⟨f, rest, i, rfl, hi, hch⟩ := hr
    obtain ⟨u, w, hm⟩ := List.append_of_mem (c129_chain_number hch).1
    exact ⟨u, w, hm, hm⟩⟩ rfl h
  refine ⟨x, hx, fun hp => ?_, fun hp => ?_⟩
  · obtain ⟨x', n, u0, hx', hn, hu, ht, e1, e2, e3, hd', key⟩ := c132_put hd0 hr hp rfl h
    rw [hx] at hx'
    cases hx'
    simp only [List.append_nil] at e2 e3 hd' key
    cases ht with
    | @block _ p0 s1 s2 c0 c t u1 u2 u3 h0 h1 h2 hr' hi' ht' =>
      rw [e1] at h0
      cases h0
      obtain ⟨m1, m2⟩ := List.nodup_cons.mp hu
      obtain ⟨m3, m4, m5⟩ := List.nodup_append.mp m2
      have hk : ∀ k ∈ u1 ++ (u2 ++ u3), c129_tab bs' k = c129_tab bs k := fun k hk => e3 k (List.mem_cons_of_mem _ hk) (by rintro rfl; exact m1 hk)
      refine key _ (n :: ([] ++ (u2 ++ u3))) [] (.block (p := { b with subStack1 := q }) e2 (.noStack hq) (h2.congr fun k h => hk k (by simp [h])) hr'
        (hi'.congr fun k h => hk k (by simp [h])) ht') ?_ ?_ no
      · exact List.nodup_cons.mpr ⟨fun hm => m1 (List.mem_append_right _ hm), m4⟩
      · intro k hk
        simp only [List.mem_cons, List.mem_append, List.not_mem_nil, false_or, or_false] at hk ⊢
        rcases hk with h | h
        · exact .inl h
        · exact .inr (.inr h)
  · obtain ⟨x', n, u0, hx', hn, hu, ht, e1, e2, e3, hd', key⟩ := c132_put hd0 hr hp rfl h
    rw [hx] at hx'
    cases hx'
    simp only [List.append_nil] at e2 e3 hd' key
    cases ht with
    | @block _ p0 s1 s2 c0 c t u1 u2 u3 h0 h1 h2 hr' hi' ht' =>
      rw [e1] at h0
      cases h0
      obtain ⟨m1, m2⟩ := List.nodup_cons.mp hu
      obtain ⟨m3, m4, m5⟩ := List.nodup_append.mp m2
      have hk : ∀ k ∈ u1 ++ (u2 ++ u3), c129_tab bs' k = c129_tab bs k := fun k hk => e3 k (List.mem_cons_of_mem _ hk) (by rintro rfl; exact m1 hk)
      refine key _ (n :: (u1 ++ ([] ++ u3))) [] (.block (p := { b with subStack2 := q }) e2 (h1.congr fun k h => hk k (by simp [h])) (.noStack hq) hr'
        (hi'.congr fun k h => hk k (by simp [h])) ht') ?_ ?_ no
      · refine List.nodup_cons.mpr ⟨fun hm => m1 ?_, List.nodup_append.mpr ⟨m3, (List.nodup_append.mp m4).2.1, fun a ha c hc => m5 a ha c (List.mem_append_right _ hc)⟩⟩
        simp only [List.mem_append, List.not_mem_nil, false_or] at hm ⊢
        exact hm.elim .inl fun h => .inr (.inr h)
      · intro k hk
        simp only [List.mem_cons, List.mem_append, List.not_mem_nil, false_or, or_false] at hk ⊢
        rcases hk with h | h | h
        · exact .inl h
        · exact .inr (.inl h)
        · exact .inr (.inr (.inr h))

end Swrs.Api

namespace Swrs.Api

/-- `c132_paste`: three blocks, and two blocks that are put behind the first one. -/
example [pol : MapPol] : let _ : Floats := toyFloats.toFloats
    let ds := [exBlock (s% "7") 8 (-1) (s% "e") [], exBlock (s% "8") (-1) (-1) (s% "f") []]
    c129_Distinct (c129_three ++ ds) ∧ (∃ l2, c129_Row c129_three ([] ++ exBlock (s% "0") 3 (-1) (s% "a") [] :: l2) ∧ l2.length = 2) ∧
      (∃ m, c129_Row ds (m ++ [exBlock (s% "8") (-1) (-1) (s% "f") []]) ∧ m.length = 1) ∧ ds.head? = some (exBlock (s% "7") 8 (-1) (s% "e") []) ∧
      (∃ bs', c129_Edit (exBlock (s% "0") 3 (-1) (s% "a") []) 7 c129_three bs') ∧ c129_To 7 (exBlock (s% "7") 8 (-1) (s% "e") []) ∧
      (∃ ds', c129_Edit (exBlock (s% "8") (-1) (-1) (s% "f") []) 3 ds ds') ∧ (∃ x, tryFrom ⟨c129_three⟩ = .ok x ∧ x.length = 3) ∧
      ∃ y, tryFrom ⟨ds⟩ = .ok y ∧ y.length = 2 := by
  let _ : Floats := toyFloats.toFloats
  refine ⟨⟨by decide, by decide⟩, ⟨_, c129_three_row, rfl⟩, ⟨[_], ⟨_, _, 7, rfl, by decide, .step (.head _) (by decide) (by decide) (.stop (.tail _ (.head _)) (by decide) (by decide))⟩, rfl⟩,
    rfl, ⟨_, [], _, rfl, rfl⟩, ⟨by decide, by decide⟩, ⟨_, [_], [], rfl, rfl⟩, ?_⟩
  obtain ⟨a, b⟩ := pol
  cases a <;> cases b <;> exact ⟨⟨_, rfl, rfl⟩, _, rfl, rfl⟩

/-- `c132_replace`, `c132_fill` and `c132_empty`: the second one of three blocks is replaced by a block with a substack, gets a block into its substack, or loses it. -/
example [pol : MapPol] : let _ : Floats := toyFloats.toFloats
    let b := exBlock (s% "3") 2 (-1) (s% "d") []
    let d := exBlock (s% "7") (-1) (-1) (s% "e") []
    c129_Distinct (c129_three ++ [d]) ∧ (∃ l1 l2, c129_Row c129_three (l1 ++ b :: l2) ∧ l1.length = 1) ∧ (∃ bs', c132_Put b { b with subStack1 := 7 } c129_three bs') ∧
      (∃ bs', c132_Put b { b with subStack2 := -1 } c129_three bs') ∧ c129_To 7 d ∧ (∃ x, tryFrom ⟨c129_three⟩ = .ok x ∧ x.length = 3) ∧
      (∃ y, tryFrom ⟨[d]⟩ = .ok y) ∧ ∃ c, tryFrom ⟨[{ b with subStack1 := 7, nextBlock := -1 }, d]⟩ = .ok c := by
  let _ : Floats := toyFloats.toFloats
  refine ⟨⟨by decide, by decide⟩, ⟨[_], [_], c129_three_row, rfl⟩, ⟨_, rfl, [_, _, _], [], rfl, rfl⟩, ⟨_, rfl, [_, _, _], [], rfl, rfl⟩, ⟨by decide, by decide⟩, ?_⟩
  obtain ⟨a, b⟩ := pol
  cases a <;> cases b <;> exact ⟨⟨_, rfl, rfl⟩, ⟨_, rfl⟩, _, rfl⟩

/-- C132: the numbers must differ: when the block that is put into a substack has the number of a block that comes later, the code is refused. -/
theorem c132_fill_false [pol : MapPol] : let _ : Floats := toyFloats.toFloats
    ∃ (bs bs' : List ParserBlock) (b d : ParserBlock) (l2 : List ParserBlock) (q : Int32) (x y : List Block) (e : BlockConversionError), c129_Distinct bs ∧ c129_Distinct [d] ∧
      c129_Row bs (b :: l2) ∧ c132_Put b { b with subStack1 := q } bs bs' ∧ c129_To q d ∧ tryFrom ⟨bs⟩ = .ok x ∧ tryFrom ⟨[d]⟩ = .ok y ∧ tryFrom ⟨bs' ++ [d]⟩ = .err e := by
  let _ : Floats := toyFloats.toFloats
  obtain ⟨x, y, e, h1, h2, h3⟩ : ∃ x y e, tryFrom ⟨[exBlock (s% "0") 1 (-1) (s% "a") [], exBlock (s% "1") (-1) (-1) (s% "b") []]⟩ = .ok x ∧
      tryFrom ⟨[exBlock (s% "1") (-1) (-1) (s% "c") []]⟩ = .ok y ∧
      tryFrom ⟨[{ exBlock (s% "0") 1 (-1) (s% "a") [] with subStack1 := 1 }, exBlock (s% "1") (-1) (-1) (s% "b") [], exBlock (s% "1") (-1) (-1) (s% "c") []]⟩ = .err e := by
    obtain ⟨a, b⟩ := pol
    cases a <;> cases b <;> exact ⟨_, _, _, rfl, rfl, rfl⟩
  exact ⟨_, _, exBlock (s% "0") 1 (-1) (s% "a") [], exBlock (s% "1") (-1) (-1) (s% "c") [], [exBlock (s% "1") (-1) (-1) (s% "b") []], 1, x, y, e, ⟨by decide, by decide⟩,
    ⟨by decide, by decide⟩, ⟨_, _, 0, rfl, by decide, .step (.head _) (by decide) (by decide) (.stop (.tail _ (.head _)) (by decide) (by decide))⟩, ⟨rfl, [], [_], rfl, rfl⟩,
    ⟨by decide, by decide⟩, h1, h2, h3⟩

end Swrs.Api
