import Verif.Proofs.PoolText
/-! Round trip of the variable, list variable and moreblock pools. -/
set_option linter.unusedSectionVars false
namespace Swrs
variable [MapPol]

/-- The entries of a pool are filed under their own names. -/
def Keyed {α : Type} (key : α → Str) (m : LMap Str α) : Prop := ∀ e ∈ m, e.1 = key e.2

/-- Reading a text and collecting the values under their names. -/
def readMap {ε ε' α : Type} (p : Str → Out ε α) (mk : Nat → Str → ε → ε') (key : α → Str) (s : Str) :
    Out ε' (LMap Str α) := do
  let (vs, _) ← readPool p mk (lines s) 0 []
  pure (LMap.collect (vs.map fun v => (key v, v)))

theorem VariablePool.parse_eq (s : Str) :
    VariablePool.parse s = (readMap Variable.parse PoolError.mk (·.name) s) >>= fun m => .ok ⟨m⟩ := by
  unfold VariablePool.parse VariablePool.parseIter readMap
  cases readPool Variable.parse PoolError.mk (lines s) 0 [] <;> rfl
theorem ListVariablePool.parse_eq (s : Str) :
    ListVariablePool.parse s = (readMap ListVariable.parse PoolError.mk (·.name) s) >>= fun m => .ok ⟨m⟩ := by
  unfold ListVariablePool.parse ListVariablePool.parseIter readMap
  cases readPool ListVariable.parse PoolError.mk (lines s) 0 [] <;> rfl
theorem MoreBlockPool.parse_eq (s : Str) :
    MoreBlockPool.parse s = (readMap MoreBlock.parse PoolError.mk (·.id) s) >>= fun m => .ok ⟨m⟩ := by
  unfold MoreBlockPool.parse MoreBlockPool.parseIter readMap
  cases readPool MoreBlock.parse PoolError.mk (lines s) 0 [] <;> rfl

section
variable {ε ε' α : Type} {p : Str → Out ε α} {mk : Nat → Str → ε → ε'} {key : α → Str}

theorem readMap_ok {s : Str} {m : LMap Str α} (h : readMap p mk key s = .ok m) :
    ∃ vs rest, readPool p mk (lines s) 0 [] = .ok (vs, rest) ∧ m = LMap.collect (vs.map fun v => (key v, v)) := by
  unfold readMap at h
  rw [Out.bind_eq_ok] at h
  obtain ⟨⟨vs, rest⟩, h1, h2⟩ := h
  simp at h2
  exact ⟨vs, rest, h1, h2.symm⟩

theorem readMap_keyed {s : Str} {m : LMap Str α} (h : readMap p mk key s = .ok m) : Keyed key m := by
  obtain ⟨vs, rest, _, rfl⟩ := readMap_ok h
  intro e he
  have := LMap.collect_mem _ e he
  simp only [List.mem_map] at this
  obtain ⟨v, _, rfl⟩ := this
  rfl

theorem readMap_nodup {s : Str} {m : LMap Str α} (h : readMap p mk key s = .ok m) : m.keys.Nodup := by
  obtain ⟨vs, rest, _, rfl⟩ := readMap_ok h
  exact LMap.collect_keys_nodup _

theorem readMap_of_reads {s : Str} {vs : List α} (h : PoolReads p (lines s) vs) :
    readMap p mk key s = .ok (LMap.collect (vs.map fun v => (key v, v))) := by
  unfold readMap; rw [readPool_eof mk h]; rfl

theorem readMap_nil : readMap p mk key [] = .ok [] := by
  unfold readMap
  have : readPool p mk (lines []) 0 [] = .ok ([], []) := readPool_blank mk .nil []
  rw [this]; rfl

theorem Keyed.map {m : LMap Str α} (h : Keyed key m) : (m.map (·.2)).map (fun v => (key v, v)) = m := by
  rw [List.map_map]
  conv => rhs; rw [← List.map_id m]
  apply List.map_congr_left
  intro e he
  simp only [Function.comp, id]
  rw [← h e he]

theorem readMap_value {s : Str} {m : LMap Str α} (hp : ∀ l, p l ≠ .panic) (h : readMap p mk key s = .ok m) :
    ∀ e ∈ m, ∃ l, p l = .ok e.2 ∧ '\n' ∉ l := by
  obtain ⟨vs, rest, hr, rfl⟩ := readMap_ok h
  intro e he
  have := LMap.collect_mem _ e he
  simp only [List.mem_map] at this
  obtain ⟨v, hv, rfl⟩ := this
  exact readPool_lines hp hr v hv

end

/-! ### pools named by the end of the line -/

/-- Lines `d:name`. -/
structure SuffixNamed {ε α : Type} (p : Str → Out ε α) (f : α → Str) (key : α → Str) where
  noPanic : ∀ l, p l ≠ .panic
  pre : α → Str
  setName : α → Str → α
  f_eq : ∀ a, f a = pre a ++ ':' :: key a
  pre_ne : ∀ a, pre a ≠ []
  pre_ws : ∀ a, ∀ c ∈ pre a, isWs c = false
  parse_pre : ∀ a x, p (pre a ++ ':' :: x) = .ok (setName a x)
  key_set : ∀ a x, key (setName a x) = x
  set_key : ∀ a, setName a (key a) = a
  noNl : ∀ l a, p l = .ok a → '\n' ∉ l → '\n' ∉ key a

section
variable {ε ε' α : Type} {p : Str → Out ε α} {mk : Nat → Str → ε → ε'} {key f : α → Str}

theorem SuffixNamed.visible (S : SuffixNamed p f key) (a : α) : Visible (f a) :=
  ⟨':', by rw [S.f_eq]; simp, by decide⟩

theorem SuffixNamed.trimStart_eq (S : SuffixNamed p f key) (a : α) : trimStart (f a) = f a := by
  apply Swrs.trimStart_eq
  rw [S.f_eq]
  intro c hc
  cases h : S.pre a with
  | nil => exact absurd h (S.pre_ne a)
  | cons d t =>
    rw [h] at hc; simp at hc; subst hc
    exact S.pre_ws a d (by rw [h]; simp)

theorem SuffixNamed.trimEnd_line (S : SuffixNamed p f key) (a : α) :
    trimEnd (f a) = S.pre a ++ ':' :: trimEnd (key a) := by
  rw [S.f_eq]
  rcases Classical.em (Visible (key a)) with h | h
  · have := trimEnd_append h (S.pre a ++ [':'])
    simpa using this
  · have hw : ∀ c ∈ key a, isWs c = true := by
      intro c hc
      cases hcw : isWs c with
      | true => rfl
      | false => exact absurd ⟨c, hc, hcw⟩ h
    have h1 : trimEnd (key a) = [] := by
      have := trimEnd_append_ws (s := []) hw
      simpa using this
    have h2 := trimEnd_frame (s := S.pre a ++ [':']) hw (by simp [isWs])
    rw [h1]; simpa using h2

theorem SuffixNamed.noNl_line (S : SuffixNamed p f key) (a : α) (h : '\n' ∉ key a) : '\n' ∉ f a := by
  rw [S.f_eq]
  intro hm
  simp only [List.mem_append, List.mem_cons] at hm
  rcases hm with hm | hm | hm
  · have := S.pre_ws a _ hm; simp [isWs] at this
  · simp at hm
  · exact h hm

theorem SuffixNamed.reads_concat (S : SuffixNamed p f key) (ini : List α) (a : α)
    (hn : ∀ b ∈ ini ++ [a], '\n' ∉ key b) :
    readMap p mk key (foldLines ((ini ++ [a]).map f)) =
      .ok (LMap.collect ((ini ++ [S.setName a (trimEnd (key a))]).map fun v => (key v, v))) := by
  apply readMap_of_reads
  rw [lines_foldLines (by simp) (by simp only [List.mem_map]; rintro l ⟨b, _, rfl⟩; exact S.visible b)
    (by simp only [List.mem_map]; rintro l ⟨b, hb, rfl⟩; exact S.noNl_line b (hn b hb))]
  have hs : adjS ((ini ++ [a]).map f) = (ini ++ [a]).map f := by
    cases ini with
    | nil => simp [adjS, S.trimStart_eq]
    | cons b ini => simp [adjS, S.trimStart_eq]
  rw [hs, List.map_append, List.map_singleton, adjE_concat, S.trimEnd_line]
  apply ReadsAll.append
  · apply ReadsAll.map
    intro b _
    refine ⟨?_, ?_⟩
    · rw [S.f_eq]; simp
    · rw [S.f_eq, S.parse_pre, S.set_key]; rfl
  · exact .cons (by simp) (by rw [S.parse_pre]; rfl) .nil

/-- The exact condition for the round trip of a pool named by the end of the line. -/
theorem SuffixNamed.round_trip (S : SuffixNamed p f key) (m : LMap Str α) (hk : m.keys.Nodup) :
    readMap p mk key (foldLines (m.map fun e => f e.2)) = .ok m ↔
      Keyed key m ∧ (∀ e ∈ m, '\n' ∉ key e.2) ∧
        ∀ e, m.getLast? = some e → ∀ c, (key e.2).getLast? = some c → isWs c = false := by
  rcases List.eq_nil_or_concat m with rfl | ⟨ini, e, rfl⟩
  · simp [foldLines, readMap_nil, Keyed]
  rw [List.concat_eq_append] at hk ⊢
  have hmap : (ini ++ [e]).map (fun e => f e.2) = (ini.map (·.2) ++ [e.2]).map f := by simp
  rw [hmap]
  have main : ∀ (hkd : Keyed key (ini ++ [e])) (hnl : ∀ x ∈ ini ++ [e], '\n' ∉ key x.2),
      readMap p mk key (foldLines ((ini.map (·.2) ++ [e.2]).map f)) =
      .ok (LMap.collect (ini ++ [(trimEnd (key e.2), S.setName e.2 (trimEnd (key e.2)))])) := by
    intro hkd hnl
    rw [S.reads_concat]
    · have : Keyed key ini := fun x hx => hkd x (by simp [hx])
      rw [List.map_append, this.map]
      simp [S.key_set]
    · intro b hb
      simp only [List.mem_append, List.mem_map, List.mem_singleton] at hb
      rcases hb with ⟨x, hx, rfl⟩ | rfl
      · exact hnl x (by simp [hx])
      · exact hnl e (by simp)
  constructor
  · intro h
    have hkd := readMap_keyed h
    have hnl : ∀ x ∈ ini ++ [e], '\n' ∉ key x.2 := by
      intro x hx
      obtain ⟨l, h1, h2⟩ := readMap_value S.noPanic h x hx
      exact S.noNl l _ h1 h2
    refine ⟨hkd, hnl, ?_⟩
    intro e' he'
    simp at he'; subst he'
    rw [← trimEnd_eq_self]
    rw [main hkd hnl] at h
    simp only [Out.ok.injEq] at h
    refine Classical.byContradiction fun hne => ?_
    have h1 := LMap.get_collect (ini ++ [(trimEnd (key e.2), S.setName e.2 (trimEnd (key e.2)))]) (key e.2)
    rw [h, LMap.last, List.reverse_append, List.reverse_singleton, List.singleton_append, LMap.get, if_neg hne] at h1
    have he1 : e.1 = key e.2 := hkd e (by simp)
    have h2 : LMap.get (ini ++ [e]) (key e.2) = some e.2 := by
      apply LMap.get_of_mem hk
      rw [← he1]; simp
    rw [h2] at h1
    have h3 := LMap.get_mem h1.symm
    simp only [List.mem_reverse] at h3
    rw [LMap.keys_append, List.nodup_append] at hk
    refine hk.2.2 e.1 ?_ e.1 (by simp) rfl
    rw [he1]
    exact List.mem_map_of_mem (f := (·.1)) h3
  · rintro ⟨hkd, hnl, hl⟩
    have hl := trimEnd_eq_self.mpr (hl e (by simp))
    rw [main hkd hnl, hl, S.set_key]
    have he1 : e.1 = key e.2 := hkd e (by simp)
    rw [← he1, LMap.collect_nodup]
    exact hk

end

/-- Variables are named by the end of the line. -/
def Variable.suffixNamed : SuffixNamed Variable.parse Variable.reconstruct (·.name) where
  noPanic := Variable.parse_ne_panic
  pre v := natStr 10 v.type.num.toNat
  setName v x := ⟨x, v.type⟩
  f_eq _ := rfl
  pre_ne _ := natStr_ne_nil _ _
  pre_ws v := by
    rw [VariableType.natStr_num]
    intro c hc; simp at hc; subst hc
    exact digitChar_not_ws v.type.num_lt
  parse_pre v x := Variable.parse_reconstruct ⟨x, v.type⟩
  key_set _ _ := rfl
  set_key _ := rfl
  noNl l a h hn := by
    obtain ⟨t, rfl, _⟩ := Variable.parse_eq_ok.mp h
    simp at hn; exact hn.2

/-- List variables are named by the end of the line. -/
def ListVariable.suffixNamed : SuffixNamed ListVariable.parse ListVariable.reconstruct (·.name) where
  noPanic := ListVariable.parse_ne_panic
  pre v := natStr 10 v.type.num.toNat
  setName v x := ⟨x, v.type⟩
  f_eq _ := rfl
  pre_ne _ := natStr_ne_nil _ _
  pre_ws v := by
    rw [VariableType.natStr_num]
    intro c hc; simp at hc; subst hc
    exact digitChar_not_ws v.type.num_lt
  parse_pre v x := ListVariable.parse_reconstruct ⟨x, v.type⟩
  key_set _ _ := rfl
  set_key _ := rfl
  noNl l a h hn := by
    obtain ⟨t, rfl, _⟩ := ListVariable.parse_eq_ok.mp h
    simp at hn; exact hn.2

theorem VariablePool.round_trip (q : VariablePool) (hk : q.map.keys.Nodup) :
    parse q.reconstruct = .ok q ↔ (∀ e ∈ q.map, e.1 = e.2.name) ∧ (∀ e ∈ q.map, '\n' ∉ e.2.name) ∧
        ∀ e, q.map.getLast? = some e → ∀ c, e.2.name.getLast? = some c → isWs c = false := by
  have := Variable.suffixNamed.round_trip (mk := PoolError.mk) q.map hk
  refine Iff.trans ?_ this
  rw [parse_eq, reconstruct]
  cases q
  cases readMap Variable.parse PoolError.mk (·.name) _ <;> simp

theorem ListVariablePool.round_trip (q : ListVariablePool) (hk : q.map.keys.Nodup) :
    parse q.reconstruct = .ok q ↔ (∀ e ∈ q.map, e.1 = e.2.name) ∧ (∀ e ∈ q.map, '\n' ∉ e.2.name) ∧
        ∀ e, q.map.getLast? = some e → ∀ c, e.2.name.getLast? = some c → isWs c = false := by
  have := ListVariable.suffixNamed.round_trip (mk := PoolError.mk) q.map hk
  refine Iff.trans ?_ this
  rw [parse_eq, reconstruct]
  cases q
  cases readMap ListVariable.parse PoolError.mk (·.name) _ <;> simp

/-! ### moreblocks -/

namespace MoreBlock

theorem visible (m : MoreBlock) : Visible m.reconstruct := ⟨':', by simp [reconstruct], by decide⟩

theorem parse_reconstruct {m : MoreBlock} (h : ':' ∉ m.id) : parse m.reconstruct = .ok m := parse_eq_ok.mpr ⟨rfl, h⟩

theorem not_visible {s : Str} (h : ¬ Visible s) : ∀ c ∈ s, isWs c = true := by
  intro c hc
  cases hcw : isWs c with
  | true => rfl
  | false => exact absurd ⟨c, hc, hcw⟩ h

theorem trimEnd_line (m : MoreBlock) : trimEnd m.reconstruct = (⟨m.id, trimEnd m.spec⟩ : MoreBlock).reconstruct := by
  unfold reconstruct
  rcases Classical.em (Visible m.spec) with h | h
  · have := trimEnd_append h (m.id ++ [':'])
    simpa using this
  · have hw := not_visible h
    have h1 : trimEnd m.spec = [] := by
      have := trimEnd_append_ws (s := []) hw
      simpa using this
    have h2 := trimEnd_frame (s := m.id ++ [':']) hw (by simp [isWs])
    simp only [h1]; simpa using h2

theorem trimStart_line (m : MoreBlock) :
    trimStart m.reconstruct = (⟨trimStart m.id, m.spec⟩ : MoreBlock).reconstruct := by
  unfold reconstruct
  rcases Classical.em (Visible m.id) with h | h
  · exact trimStart_append h _
  · have hw := not_visible h
    have h1 : trimStart m.id = [] := by
      have := trimStart_ws_append (s := []) hw
      simpa [trimStart] using this
    rw [trimStart_ws_append hw, trimStart_eq (by simp [isWs])]
    simp only [h1]; rfl

theorem parse_noNl {l : Str} {m : MoreBlock} (h : parse l = .ok m) (hn : '\n' ∉ l) :
    '\n' ∉ m.id ∧ '\n' ∉ m.spec ∧ ':' ∉ m.id := by
  obtain ⟨rfl, h2⟩ := parse_eq_ok.mp h
  simp [reconstruct] at hn
  exact ⟨hn.1, hn.2, h2⟩

theorem noNl_line {m : MoreBlock} (h1 : '\n' ∉ m.id) (h2 : '\n' ∉ m.spec) : '\n' ∉ m.reconstruct := by
  simp [reconstruct, h1, h2]

/-- The first declaration loses the leading blanks of its id. -/
def adjFirst : List MoreBlock → List MoreBlock
  | [] => []
  | m :: ms => ⟨trimStart m.id, m.spec⟩ :: ms
/-- The last declaration loses the trailing blanks of its spec. -/
def adjLast : List MoreBlock → List MoreBlock
  | [] => []
  | [m] => [⟨m.id, trimEnd m.spec⟩]
  | m :: n :: ms => m :: adjLast (n :: ms)

theorem adjS_map (ms : List MoreBlock) : adjS (ms.map reconstruct) = (adjFirst ms).map reconstruct := by
  cases ms with
  | nil => rfl
  | cons m ms => simp [adjS, adjFirst, trimStart_line]
theorem adjE_map (ms : List MoreBlock) : adjE (ms.map reconstruct) = (adjLast ms).map reconstruct := by
  induction ms with
  | nil => rfl
  | cons m ms ih =>
    cases ms with
    | nil => simp [adjE, adjLast, trimEnd_line]
    | cons n ms => simp only [List.map_cons, adjE, adjLast] at ih ⊢; rw [ih]

theorem adjLast_concat (ms : List MoreBlock) (m : MoreBlock) :
    adjLast (ms ++ [m]) = ms ++ [⟨m.id, trimEnd m.spec⟩] := by
  induction ms with
  | nil => rfl
  | cons x ls ih =>
    cases ls with
    | nil => rfl
    | cons y ls => simp only [List.cons_append] at ih ⊢; rw [adjLast, ih]

theorem adjLast_ids (ms : List MoreBlock) : (adjLast ms).map (·.id) = ms.map (·.id) := by
  rcases List.eq_nil_or_concat ms with rfl | ⟨ini, m, rfl⟩
  · rfl
  · rw [List.concat_eq_append, adjLast_concat]; simp

theorem readMap_adj {ms : List MoreBlock} (hne : ms ≠ []) (h : ∀ m ∈ ms, '\n' ∉ m.id ∧ '\n' ∉ m.spec ∧ ':' ∉ m.id) :
    readMap parse PoolError.mk (·.id) (foldLines (ms.map reconstruct)) =
      .ok (LMap.collect ((adjLast (adjFirst ms)).map fun v => (v.id, v))) := by
  apply readMap_of_reads
  rw [lines_foldLines (by simpa using hne) (by simp only [List.mem_map]; rintro l ⟨b, _, rfl⟩; exact b.visible)
    (by simp only [List.mem_map]; rintro l ⟨b, hb, rfl⟩; exact noNl_line (h b hb).1 (h b hb).2.1)]
  rw [adjS_map, adjE_map]
  apply ReadsAll.map
  intro m hm
  refine ⟨by simp [reconstruct], ?_⟩
  rw [parse_reconstruct]; rfl
  have : m.id ∈ (adjFirst ms).map (·.id) := by
    rw [← adjLast_ids]; exact List.mem_map_of_mem hm
  cases ms with
  | nil => exact absurd rfl hne
  | cons x ms =>
    simp only [adjFirst, List.map_cons, List.mem_cons, List.mem_map] at this
    rcases this with h1 | ⟨y, hy, h1⟩
    · rw [h1]; intro hc
      exact (h x (by simp)).2.2 ((trimStart_suffix _).subset hc)
    · rw [← h1]; exact (h y (by simp [hy])).2.2

end MoreBlock

theorem MoreBlockPool.round_trip (q : MoreBlockPool) (hk : q.map.keys.Nodup) :
    parse q.reconstruct = .ok q ↔ (∀ e ∈ q.map, e.1 = e.2.id) ∧
        (∀ e ∈ q.map, '\n' ∉ e.2.id ∧ '\n' ∉ e.2.spec ∧ ':' ∉ e.2.id) ∧
        (∀ e, q.map.head? = some e → ∀ c, e.2.id.head? = some c → isWs c = false) ∧
        (∀ e, q.map.getLast? = some e → ∀ c, e.2.spec.getLast? = some c → isWs c = false) := by
  obtain ⟨m⟩ := q
  have hq : parse (reconstruct ⟨m⟩) = .ok ⟨m⟩ ↔
      readMap MoreBlock.parse PoolError.mk (·.id) (foldLines (m.map fun e => e.2.reconstruct)) = .ok m := by
    rw [parse_eq, reconstruct]
    cases readMap MoreBlock.parse PoolError.mk (·.id) _ <;> simp
  rw [hq]
  have hmap : m.map (fun e => e.2.reconstruct) = (m.map (·.2)).map MoreBlock.reconstruct := by simp
  rw [hmap]
  by_cases hne : m = []
  · subst hne; simp [foldLines, readMap_nil]
  simp only at hk ⊢
  have hne' : m.map (·.2) ≠ [] := by simpa using hne
  have hmem : (∀ e ∈ m, '\n' ∉ e.2.id ∧ '\n' ∉ e.2.spec ∧ ':' ∉ e.2.id) →
      ∀ x ∈ m.map (·.2), '\n' ∉ x.id ∧ '\n' ∉ x.spec ∧ ':' ∉ x.id := by
    intro h x hx
    simp only [List.mem_map] at hx
    obtain ⟨e, he, rfl⟩ := hx
    exact h e he
  constructor
  · intro h
    have hkd : ∀ e ∈ m, e.1 = e.2.id := readMap_keyed h
    have hnl : ∀ e ∈ m, '\n' ∉ e.2.id ∧ '\n' ∉ e.2.spec ∧ ':' ∉ e.2.id := by
      intro e he
      obtain ⟨l, h1, h2⟩ := readMap_value MoreBlock.parse_ne_panic h e he
      exact MoreBlock.parse_noNl h1 h2
    rw [MoreBlock.readMap_adj hne' (hmem hnl)] at h
    simp only [Out.ok.injEq] at h
    have hfirst : ∀ e, m.head? = some e → trimStart e.2.id = e.2.id := by
      intro e he
      cases m with
      | nil => simp at he
      | cons x m =>
        simp at he; subst he
        refine Classical.byContradiction fun hn => ?_
        have hg : x.2.id ∈ LMap.keys (LMap.collect ((MoreBlock.adjLast (MoreBlock.adjFirst ((x :: m).map (·.2)))).map
            fun v => (v.id, v))) := by
          rw [h, ← hkd x (by simp)]; simp
        rw [LMap.keys, List.mem_map] at hg
        obtain ⟨y, hy, hy1⟩ := hg
        have hy := LMap.collect_mem _ y hy
        simp only [List.mem_map] at hy
        obtain ⟨z, hz, rfl⟩ := hy
        have hz := List.mem_map_of_mem (f := (·.id)) hz
        rw [MoreBlock.adjLast_ids] at hz
        simp only [List.map_cons, MoreBlock.adjFirst, List.mem_cons, List.mem_map] at hz
        simp only at hy1
        rw [hy1] at hz
        rcases hz with hz | ⟨w, ⟨v, hv, rfl⟩, hw⟩
        · exact hn hz.symm
        · rw [LMap.keys_cons, List.nodup_cons] at hk
          apply hk.1
          rw [hkd x (by simp), ← hw, ← hkd v (by simp [hv])]
          exact List.mem_map_of_mem (f := (·.1)) hv
    have hadj : MoreBlock.adjFirst (m.map (·.2)) = m.map (·.2) := by
      cases m with
      | nil => rfl
      | cons x m =>
        have := hfirst x rfl
        simp [MoreBlock.adjFirst, this]
    refine ⟨hkd, hnl, fun e he => trimStart_eq_self.mp (hfirst e he), ?_⟩
    intro e he
    rw [← trimEnd_eq_self]
    rw [hadj] at h
    rcases List.eq_nil_or_concat m with rfl | ⟨ini, e', rfl⟩
    · simp at he
    · rw [List.concat_eq_append] at *
      simp at he; subst he
      rw [List.map_append, List.map_singleton, MoreBlock.adjLast_concat] at h
      have h1 := LMap.get_collect ((ini.map (·.2) ++ [(⟨e'.2.id, trimEnd e'.2.spec⟩ : MoreBlock)]).map
        fun v => (v.id, v)) e'.2.id
      rw [h, LMap.last, List.map_append, List.reverse_append, List.map_singleton, List.reverse_singleton,
        List.singleton_append, LMap.get, if_pos rfl] at h1
      have h2 : LMap.get (ini ++ [e']) e'.2.id = some e'.2 := by
        apply LMap.get_of_mem hk
        rw [← hkd e' (by simp)]; simp
      rw [h2] at h1
      simp only [Option.some.injEq] at h1
      exact (congrArg MoreBlock.spec h1).symm
  · rintro ⟨hkd, hnl, hs, he⟩
    rw [MoreBlock.readMap_adj hne' (hmem hnl)]
    have hadj : MoreBlock.adjFirst (m.map (·.2)) = m.map (·.2) := by
      cases m with
      | nil => rfl
      | cons x m =>
        have := trimStart_eq_self.mpr (hs x rfl)
        simp [MoreBlock.adjFirst, this]
    have hadj2 : MoreBlock.adjLast (m.map (·.2)) = m.map (·.2) := by
      rcases List.eq_nil_or_concat m with rfl | ⟨ini, e', rfl⟩
      · rfl
      · rw [List.concat_eq_append] at *
        rw [List.map_append, List.map_singleton, MoreBlock.adjLast_concat]
        have := trimEnd_eq_self.mpr (he e' (by simp))
        rw [this]
    have hkd' : Keyed (fun x : MoreBlock => x.id) m := hkd
    rw [hadj, hadj2, hkd'.map, LMap.collect_nodup _ hk]

/-! ### JSON pools -/

omit [MapPol] in
theorem ComponentPool.reconstruct_eq (q : ComponentPool) :
    q.reconstruct = joinWith '\n' (q.items.map Component.reconstruct) := by
  unfold reconstruct
  rw [foldl_unlines, List.nil_append]
  have hj : ∀ p ∈ q.items.map Component.reconstruct, JLine p := by
    simp only [List.mem_map]; rintro p ⟨c, _, rfl⟩; exact c.jline
  by_cases hne : q.items.map Component.reconstruct = []
  · rw [hne]; rfl
  · rw [unlines_eq_joinWith hne, trimEnd_frame (by simp [isWs])]
    intro c hc
    obtain ⟨p, hp, hl⟩ := joinWith_last hne fun p hp => (hj p hp).ne_nil
    rw [hl] at hc
    exact (hj p hp).last_not_ws c hc

omit [MapPol] in
/-- Reading the text of a JSON pool. -/
theorem readPool_json {α ε' : Type} {p : Str → Option α} {f : α → Str} (h1 : ∀ a, JLine (f a))
    (h2 : ∀ a, p (f a) = some a) (mk : Nat → Str → Unit → ε') (as : List α) :
    readPool (lineParser p) mk (lines (joinWith '\n' (as.map f))) 0 [] = .ok (as, []) := by
  by_cases hne : as = []
  · subst hne; rfl
  · rw [lines, splitOn_joinWith (by simpa using hne)
      (by simp only [List.mem_map]; rintro l ⟨a, _, rfl⟩; exact (h1 a).noNl)]
    exact readPool_eof mk (PoolReads.lineParser h1 h2 as)

omit [MapPol] in
theorem ComponentPool.round_trip (q : ComponentPool) : parse q.reconstruct = .ok q := by
  rw [reconstruct_eq, parse, parseIter,
    readPool_json Component.jline Component.parse_reconstruct]; rfl

omit [MapPol] in
theorem EventPool.reconstruct_eq (q : EventPool) :
    q.reconstruct = joinWith '\n' (q.items.map Event.reconstruct) := by
  unfold reconstruct
  apply foldLines_jlines
  simp only [List.mem_map]; rintro p ⟨c, _, rfl⟩; exact c.jline

omit [MapPol] in
theorem EventPool.round_trip (q : EventPool) : parse q.reconstruct = .ok q := by
  rw [reconstruct_eq, parse, parseIter,
    readPool_json Event.jline Event.parse_reconstruct]; rfl

omit [MapPol] in
theorem BlockContainer.reconstruct_eq (q : BlockContainer) :
    q.reconstruct = unlines (q.blocks.map Block.reconstruct) := by
  unfold reconstruct; rw [foldl_unlines, List.nil_append]

omit [MapPol] in
theorem BlockContainer.round_trip [Floats] (q : BlockContainer) : parse q.reconstruct = .ok q := by
  have hl : lines q.reconstruct = q.blocks.map Block.reconstruct ++ [] :: [] := by
    have := lines_unlines (ps := q.blocks.map Block.reconstruct)
      (by simp only [List.mem_map]; rintro l ⟨a, _, rfl⟩; exact a.jline.noNl) []
    rw [List.append_nil] at this
    rw [reconstruct_eq, this]; rfl
  rw [parse, parseIter, hl, readPool_blank _ (PoolReads.lineParser Block.jline Block.parse_reconstruct q.blocks)]
  rfl

end Swrs
