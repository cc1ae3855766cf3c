import Verif.Props.PoliciesApi
import Verif.Props.MoreView
/-!
# C124: the order of the entries

What happens when the blocks of a container, the entries of the file list or of the resource list, or the events and components of a screen are listed in
another order: the same is read, in the order of the entries, provided that no two of them compete for the same part.
-/
set_option linter.unusedSectionVars false
namespace Swrs.Api
variable [MapPol] [Floats]

/-! ### Blocks -/

theorem c124_insert_front {k k' : UInt32} {p p' : ParserBlock} {m : BlockMap} (h : k' ≠ k) : ∃ t, LMap.insert ((k, p) :: m) k' p' = (k, p) :: t := by
  unfold LMap.insert
  split
  · split
    · exact ⟨LMap.erase m k' ++ [(k', p')], by simp [LMap.erase, Ne.symm h]⟩
    · exact ⟨LMap.set m k' p', by simp [LMap.set, Ne.symm h]⟩
  · exact ⟨m ++ [(k', p')], rfl⟩

theorem c124_front {k : UInt32} {p : ParserBlock} : ∀ (es : List (UInt32 × ParserBlock)) {m : BlockMap}, k ∉ es.map Prod.fst →
    ∃ t, es.foldl (fun m e => LMap.insert m e.1 e.2) ((k, p) :: m) = (k, p) :: t
  | [], m, _ => ⟨m, rfl⟩
  | e :: es, m, h => by
    simp only [List.map_cons, List.mem_cons, not_or] at h
    obtain ⟨t, ht⟩ := c124_insert_front (p := p) (p' := e.2) (m := m) (Ne.symm h.1)
    rw [List.foldl_cons, ht]
    exact c124_front es h.2

/-- Inserting entries with different keys in another order. -/
theorem c124_fold_perm {es es' : List (UInt32 × ParserBlock)} (h : es.Perm es') : ∀ {m m' : BlockMap}, (es.map Prod.fst).Nodup → (∀ k, m.get k = m'.get k) →
    ∀ k, (es.foldl (fun m e => LMap.insert m e.1 e.2) m).get k = (es'.foldl (fun m e => LMap.insert m e.1 e.2) m').get k := by
  induction h with
  | nil => intro m m' _ hm; exact hm
  | cons e _ ih =>
    intro m m' hn hm
    rw [List.map_cons, List.nodup_cons] at hn
    refine ih hn.2 fun k => ?_
    rw [LMap.get_insert, LMap.get_insert, hm]
  | swap a b l =>
    intro m m' hn hm
    have key : ∀ (l : List (UInt32 × ParserBlock)) (m m' : BlockMap), (∀ k, m.get k = m'.get k) →
        ∀ k, (l.foldl (fun m e => LMap.insert m e.1 e.2) m).get k = (l.foldl (fun m e => LMap.insert m e.1 e.2) m').get k := by
      intro l
      induction l with
      | nil => intro m m' hm; exact hm
      | cons e l ih => intro m m' hm; exact ih _ _ fun k => by rw [LMap.get_insert, LMap.get_insert, hm]
    have hab : b.1 ≠ a.1 := by
      simp only [List.map_cons, List.nodup_cons, List.mem_cons, not_or] at hn
      exact hn.1.1
    refine key l _ _ fun k => ?_
    simp only [LMap.get_insert, hm]
    by_cases h1 : k = a.1
    · have h2 : ¬ k = b.1 := fun h2 => hab (h2.symm.trans h1)
      simp [h1, Ne.symm hab]
    · simp [h1]
  | trans h₁ _ ih₁ ih₂ =>
    intro m m' hn hm k
    exact (ih₁ hn hm k).trans (ih₂ ((h₁.map _).nodup_iff.mp hn) (fun _ => rfl) k)

theorem c124_all_perm {α β : Type} {R : α → β → Prop} {as as' : List α} (h : as.Perm as') : ∀ {bs : List β}, All₂ R as bs →
    ∃ bs', All₂ R as' bs' ∧ (as.zip bs).Perm (as'.zip bs') := by
  induction h with
  | nil => intro bs h; cases h; exact ⟨[], .nil, .refl _⟩
  | cons a _ ih =>
    intro bs h
    cases h with
    | cons h t =>
      obtain ⟨bs', h1, h2⟩ := ih t
      exact ⟨_, .cons h h1, h2.cons _⟩
  | swap a b l =>
    intro bs h
    cases h with
    | cons h t =>
      cases t with
      | cons h' t => exact ⟨_, .cons h' (.cons h t), .swap ..⟩
  | trans _ _ ih₁ ih₂ =>
    intro bs h
    obtain ⟨bs', h1, h2⟩ := ih₁ h
    obtain ⟨bs'', h3, h4⟩ := ih₂ h1
    exact ⟨bs'', h3, h2.trans h4⟩

theorem c124_zip_right {α β : Type} {R : α → β → Prop} {as : List α} {bs : List β} (h : All₂ R as bs) : (as.zip bs).map Prod.snd = bs ∧ (as.zip bs).map Prod.fst = as := by
  induction h with
  | nil => exact ⟨rfl, rfl⟩
  | cons _ _ ih => simp [ih]

/-- C124: when the numbers of the blocks of a container differ, the code is the same, or the same error, in whatever order the blocks after the first one are
listed. -/
theorem c124_blocks {b : ParserBlock} {bs bs' : List ParserBlock} (h : bs.Perm bs') (hn : ∀ b' ∈ b :: bs, ∃ n, parseU32 b'.id = some n)
    (hd : ((b :: bs).map fun b' => parseU32 b'.id).Nodup) : tryFrom ⟨b :: bs⟩ = tryFrom ⟨b :: bs'⟩ := by
  obtain ⟨es, hes⟩ : ∃ es, All₂ (fun (b : ParserBlock) (e : UInt32 × ParserBlock) => parseU32 b.id = some e.1 ∧ e.2 = b) bs es := by
    have : ∀ bs : List ParserBlock, (∀ b' ∈ bs, ∃ n, parseU32 b'.id = some n) →
        ∃ es, All₂ (fun (b : ParserBlock) (e : UInt32 × ParserBlock) => parseU32 b.id = some e.1 ∧ e.2 = b) bs es := by
      intro bs
      induction bs with
      | nil => exact fun _ => ⟨[], .nil⟩
      | cons b bs ih =>
        intro h
        obtain ⟨n, hn⟩ := h b (by simp)
        obtain ⟨es, hes⟩ := ih fun b' hb' => h b' (by simp [hb'])
        exact ⟨(n, b) :: es, .cons ⟨hn, rfl⟩ hes⟩
    exact this bs fun b' hb' => hn b' (by simp [hb'])
  obtain ⟨n, hb⟩ := hn b (by simp)
  obtain ⟨es', hes', hp⟩ := c124_all_perm h hes
  have hpe : es.Perm es' := by
    have := hp.map Prod.snd
    rwa [(c124_zip_right hes).1, (c124_zip_right hes').1] at this
  have hkeys : ∀ {bs : List ParserBlock} {es : List (UInt32 × ParserBlock)},
      All₂ (fun (b : ParserBlock) (e : UInt32 × ParserBlock) => parseU32 b.id = some e.1 ∧ e.2 = b) bs es →
      bs.map (fun b' => parseU32 b'.id) = (es.map Prod.fst).map some := by
    intro bs es h
    induction h with
    | nil => rfl
    | cons h _ ih => simp only [List.map_cons, h.1, ih]
  rw [List.map_cons, hb, hkeys hes, List.nodup_cons] at hd
  have hk : n ∉ es.map Prod.fst := fun h => hd.1 (List.mem_map_of_mem h)
  have hk' : n ∉ es'.map Prod.fst := fun h => hk ((hpe.map _).mem_iff.mpr h)
  have hnd : (es.map Prod.fst).Nodup := hd.2.of_map _
  have h1 : blockMap (b :: bs) [] = .ok (es.foldl (fun m e => LMap.insert m e.1 e.2) [(n, b)]) :=
    (blockMap_ok _ _ _).mpr ⟨(n, b) :: es, .cons ⟨hb, rfl⟩ hes, rfl⟩
  have h2 : blockMap (b :: bs') [] = .ok (es'.foldl (fun m e => LMap.insert m e.1 e.2) [(n, b)]) :=
    (blockMap_ok _ _ _).mpr ⟨(n, b) :: es', .cons ⟨hb, rfl⟩ hes', rfl⟩
  have hget := c124_fold_perm hpe (m := [(n, b)]) (m' := [(n, b)]) hnd fun _ => rfl
  obtain ⟨t, ht⟩ := c124_front (p := b) es (m := []) hk
  obtain ⟨t', ht'⟩ := c124_front (p := b) es' (m := []) hk'
  rw [ht, ht'] at hget
  rw [ht] at h1
  rw [ht'] at h2
  have hlen : (b :: bs).length = (b :: bs').length := by simp [h.length_eq]
  have key := (c110_parse (2 * (b :: bs).length + 2)).2 n _ _ (c110_maps_eq.mpr hget)
  unfold tryFrom tryFromFuel
  rw [← hlen]
  simp only [h1, h2, lift, Out.mapErr_ok, Out.ok_bind]
  generalize parseBlocks (2 * (b :: bs).length + 2) n ((n, b) :: t) = x at key
  generalize parseBlocks (2 * (b :: bs).length + 2) n ((n, b) :: t') = y at key
  cases key with
  | ok h => rename_i u v; obtain ⟨u, _⟩ := u; obtain ⟨v, _⟩ := v; obtain ⟨h, -⟩ := h; cases h; rfl
  | err e => rfl
  | panic => rfl

/-! ### The file list -/

theorem c124_customs {items : List FileItem} : ∀ {ls : LMap Str Layout} {cs : List CustomView}, customViewsConv items ls = .ok cs ↔
    All₂ (fun f c => c.resName = f.filename ∧ ∃ l, ls.get f.filename = some l ∧ parseRawLayout l = .ok c.layout) items cs ∧ (items.map (·.filename)).Nodup := by
  induction items with
  | nil =>
    intro ls cs
    constructor
    · intro h; cases h; exact ⟨.nil, List.nodup_nil⟩
    · rintro ⟨h, -⟩; cases h; rfl
  | cons f items ih =>
    intro ls cs
    simp only [customViewsConv, Out.bind_eq_ok, Out.mapErr_eq_ok, Out.ofOption_eq_ok]
    constructor
    · rintro ⟨l, h1, t, h2, cs', h3, h4⟩
      cases h4
      obtain ⟨h5, h6⟩ := ih.mp h3
      have key : f.filename ∉ items.map (·.filename) ∧ All₂ (fun f c => c.resName = f.filename ∧ ∃ l, ls.get f.filename = some l ∧ parseRawLayout l = .ok c.layout) items cs' := by
        clear ih h3 h6
        induction h5 with
        | nil => exact ⟨by simp, .nil⟩
        | cons h _ ih =>
          obtain ⟨h7, l', h8, h9⟩ := h
          rw [LMap.get_erase] at h8
          split at h8
          · cases h8
          · rename_i hne
            exact ⟨by simp only [List.map_cons, List.mem_cons, not_or]; exact ⟨Ne.symm hne, ih.1⟩, .cons ⟨h7, l', h8, h9⟩ ih.2⟩
      exact ⟨.cons ⟨rfl, l, h1, h2⟩ key.2, List.nodup_cons.mpr ⟨key.1, h6⟩⟩
    · rintro ⟨h, hn⟩
      rw [List.map_cons, List.nodup_cons] at hn
      cases h with
      | cons h t =>
        rename_i c cs'
        obtain ⟨h1, l, h2, h3⟩ := h
        refine ⟨l, h2, c.layout, h3, cs', ih.mpr ⟨?_, hn.2⟩, by rw [← h1]; rfl⟩
        have hn1 := hn.1
        clear hn ih
        induction t with
        | nil => exact .nil
        | cons h _ ih =>
          simp only [List.map_cons, List.mem_cons, not_or] at hn1
          obtain ⟨h4, l', h5, h6⟩ := h
          exact .cons ⟨h4, l', by rw [LMap.get_erase, if_neg (Ne.symm hn1.1)]; exact h5, h6⟩ (ih hn1.2)

theorem c124_all_mono {α β : Type} {R S : α → β → Prop} {as : List α} {bs : List β} (h : All₂ R as bs) (f : ∀ a b, R a b → S a b) : All₂ S as bs := by
  induction h with
  | nil => exact .nil
  | cons h _ ih => exact .cons (f _ _ h) ih

/-- C124: the entries of the file list in another order, when no two activities have the same name for their logic. The project is converted as well, with
the same screens and the same custom views, in the order of their entries; nothing else changes. -/
theorem c124_files (rnd : ResourceType → Nat → UInt32) {p : Swrs.SketchwareProject} {P : SketchwareProject} (hP : SketchwareProject.tryFrom rnd p = .ok P)
    {file : File} (ha : p.file.activities.Perm file.activities) (hc : p.file.customViews.Perm file.customViews)
    (hn : (p.file.activities.map fun f => viewNameToLogic f.filename).Nodup) :
    ∃ ss cs, SketchwareProject.tryFrom rnd { p with file } = .ok { P with screens := ss, customViews := cs } ∧
      ss.length = file.activities.length ∧ (p.file.activities.zip P.screens).Perm (file.activities.zip ss) ∧ P.screens.Perm ss ∧
      cs.length = file.customViews.length ∧ (p.file.customViews.zip P.customViews).Perm (file.customViews.zip cs) ∧ P.customViews.Perm cs := by
  obtain ⟨ss, ly, cv, lb, im, so, fo, a1, a2, a3, a4, a5, a6, a7, a8, -⟩ := tryFrom_ok hP
  obtain ⟨h1, h2⟩ := (activitiesConv_ok hn).mp a1
  obtain ⟨ss', h3, h4⟩ := c124_all_perm ha h1
  have h5 := (activitiesConv_ok (ls := p.view.layouts) (lg := p.logic.screens) (fs := p.view.fabs) ((ha.map _).nodup_iff.mp hn)).mpr ⟨h3, rfl⟩
  obtain ⟨h6, h7⟩ := c124_customs.mp a2
  obtain ⟨cs', h8, h9⟩ := c124_all_perm hc h6
  have hl : ∀ n, ly.get n = ((file.activities.map (·.filename)).foldl LMap.erase p.view.layouts).get n := by
    intro n
    rw [c123_activities_left a1, c123_activities_left h5]
    simp only [(ha.map _).mem_iff]
  have h10 := c124_customs.mpr ⟨c124_all_mono h8 fun f c h => (by simpa only [hl] using h :
    c.resName = f.filename ∧ ∃ l, ((file.activities.map (·.filename)).foldl LMap.erase p.view.layouts).get f.filename = some l ∧ parseRawLayout l = .ok c.layout),
    (hc.map _).nodup_iff.mp h7⟩
  rw [a7, a8]
  refine ⟨ss', cs', c123_tryFrom (q := { p with file }) hP h5 h10 rfl rfl rfl rfl, h3.length_eq.symm, h4, ?_, h8.length_eq.symm, h9, ?_⟩
  · have := h4.map Prod.snd
    rwa [(c124_zip_right h1).1, (c124_zip_right h3).1] at this
  · have := h9.map Prod.snd
    rwa [(c124_zip_right h6).1, (c124_zip_right h8).1] at this

/-! ### The resources -/

omit [MapPol] [Floats] in
theorem c124_resourcesConv {rnd : Nat → UInt32} {t : ResourceType} {items : List ResourceItem} : ∀ {files : HMap Str ResourceFileWrapper}
    {es : List (Str × ResourceFileWrapper)}, All₂ (fun (i : ResourceItem) (e : Str × ResourceFileWrapper) => e.1 = i.name ∧ files.get i.fullName = some e.2) items es →
    (items.map (·.fullName)).Nodup → resourcesConv rnd t items (some files) = .ok es := by
  induction items with
  | nil => intro files es h _; cases h; rfl
  | cons i items ih =>
    intro files es h hn
    rw [List.map_cons, List.nodup_cons] at hn
    cases h with
    | cons h t' =>
      rename_i e es'
      have : All₂ (fun (i : ResourceItem) (e : Str × ResourceFileWrapper) => e.1 = i.name ∧ (LMap.erase files i.fullName).get i.fullName = some e.2) [] [] := .nil
      have h2 : resourcesConv rnd t items (some (LMap.erase files i.fullName)) = .ok es' := by
        refine ih ?_ hn.2
        have hn1 := hn.1
        clear this hn ih
        induction t' with
        | nil => exact .nil
        | cons h _ ih =>
          simp only [List.map_cons, List.mem_cons, not_or] at hn1
          exact .cons ⟨h.1, by rw [HMap.get, LMap.get_erase, if_neg (Ne.symm hn1.1)]; exact h.2⟩ (ih hn1.2)
      rw [resourcesConv, h.2]
      simp only [Out.ofOption_some, Out.ok_bind, h2, ← h.1]
      rfl

theorem c124_resource {rnd : Nat → UInt32} {t : ResourceType} {items items' : List ResourceItem} {files : HMap Str ResourceFileWrapper}
    {es : List (Str × ResourceFileWrapper)} (h : items.Perm items') (hn : (items.map (·.name)).Nodup) (hr : resourcesConv rnd t items (some files) = .ok es) :
    ∃ es', resourcesConv rnd t items' (some files) = .ok es' ∧ (LMap.collect es).Perm (LMap.collect es') := by
  obtain ⟨h1, h2⟩ := resourcesConv_some hr
  obtain ⟨es', h3, h4⟩ := c124_all_perm h h1
  refine ⟨es', c124_resourcesConv h3 ((h.map _).nodup_iff.mp h2), ?_⟩
  have hp := h4.map Prod.snd
  rw [(c124_zip_right h1).1, (c124_zip_right h3).1] at hp
  have hk : LMap.keys es = items.map (·.name) := by
    clear hr h2 h4 hp hn h
    induction h1 with
    | nil => rfl
    | cons h _ ih => simp only [LMap.keys, List.map_cons, h.1] at ih ⊢; rw [ih]
  have hk' : (LMap.keys es).Nodup := by rw [hk]; exact hn
  rw [LMap.collect_nodup _ hk', LMap.collect_nodup _ ((hp.map Prod.fst).nodup_iff.mp hk')]
  exact hp

/-- C124: the entries of the resource list in another order, when the files are given and no two entries of a section have the same name. The project is
converted as well, with the same resources; nothing else changes. -/
theorem c124_resources (rnd : ResourceType → Nat → UInt32) {p : Swrs.SketchwareProject} {P : SketchwareProject} (hP : SketchwareProject.tryFrom rnd p = .ok P)
    (hf : p.resourceFiles ≠ none) {resource : Resource} (hi : p.resource.images.Perm resource.images) (hs : p.resource.sounds.Perm resource.sounds)
    (ho : p.resource.fonts.Perm resource.fonts) (hin : (p.resource.images.map (·.name)).Nodup) (hsn : (p.resource.sounds.map (·.name)).Nodup)
    (hon : (p.resource.fonts.map (·.name)).Nodup) :
    ∃ R, SketchwareProject.tryFrom rnd { p with resource } = .ok { P with resources := R } ∧
      P.resources.images.Perm R.images ∧ P.resources.sounds.Perm R.sounds ∧ P.resources.fonts.Perm R.fonts := by
  obtain ⟨fs, hfs⟩ := Option.ne_none_iff_exists'.mp hf
  unfold SketchwareProject.tryFrom at hP ⊢
  simp only [Out.bind_eq_ok, Prod.exists] at hP
  obtain ⟨ss', ly', a1, cs', a2, lb, a3, im, a4, so, a5, fo, a6, a7⟩ := hP
  obtain rfl := Out.ok.inj a7
  rw [hfs, Option.map_some] at a4 a5 a6
  obtain ⟨im', b4, c4⟩ := c124_resource hi hin a4
  obtain ⟨so', b5, c5⟩ := c124_resource hs hsn a5
  obtain ⟨fo', b6, c6⟩ := c124_resource ho hon a6
  refine ⟨⟨LMap.collect im', LMap.collect so', LMap.collect fo'⟩, ?_, c4, c5, c6⟩
  simp only [hfs, Option.map_some, a1, Out.ok_bind, a2, a3, b4, b5, b6]
  rfl

/-! ### The events and the components -/

theorem c124_readsBack {es : List Event} : ∀ {cs : Containers}, (es.map (·.containerId)).Nodup → (ReadsBack es cs ↔ ∀ e ∈ es, codeOf cs e.containerId = .ok e.code) := by
  induction es with
  | nil => intro cs _; simp [ReadsBack]
  | cons e es ih =>
    intro cs hn
    rw [List.map_cons, List.nodup_cons] at hn
    simp only [ReadsBack, List.mem_cons, forall_eq_or_imp, ih hn.2]
    have : ∀ e' ∈ es, codeOf (cs.erase e.containerId) e'.containerId = codeOf cs e'.containerId := by
      intro e' he'
      have hne : e'.containerId ≠ e.containerId := fun h => hn.1 (h ▸ List.mem_map_of_mem he')
      unfold codeOf
      rw [LMap.get_erase, if_neg hne]
    constructor
    · rintro ⟨h1, h2⟩; exact ⟨h1, fun e' he' => by rw [← this e' he']; exact h2 e' he'⟩
    · rintro ⟨h1, h2⟩; exact ⟨h1, fun e' he' => by rw [this e' he']; exact h2 e' he'⟩

theorem c124_events {ps ps' : List Swrs.Event} (h : ps.Perm ps') (hn : (ps.map containerName).Nodup) {cs cs' : Containers} {es : List Event}
    (hr : eventsOf ps cs = .ok (es, cs')) : ∃ es' cs'', eventsOf ps' cs = .ok (es', cs'') ∧ (ps.zip es).Perm (ps'.zip es') ∧ es.Perm es' := by
  obtain ⟨h1, h2⟩ := eventsOf_ok.mp ⟨_, hr⟩
  obtain ⟨es', h3, h4⟩ := c124_all_perm h h1
  have hp : es.Perm es' := by
    have := h4.map Prod.snd
    rwa [(c124_zip_right h1).1, (c124_zip_right h3).1] at this
  have hid : es.map (·.containerId) = ps.map containerName := by
    clear hr h2 h4 hp hn h
    induction h1 with
    | nil => rfl
    | @cons p e _ _ h _ ih =>
      have : e.containerId = containerName p := by
        rcases event_read p with ⟨e', he, -, -, h3, h6, h7⟩ | ⟨he, -⟩
        · rw [he] at h
          cases h
          exact h3
        · rw [he] at h
          cases h
      rw [List.map_cons, List.map_cons, ih, this]
  rw [← hid] at hn
  have h5 := (c124_readsBack hn).mp h2
  obtain ⟨cs'', h6⟩ := eventsOf_ok.mpr ⟨h3, (c124_readsBack (cs := cs) ((hp.map _).nodup_iff.mp hn)).mpr fun e he => h5 e (hp.mem_iff.mpr he)⟩
  exact ⟨es', cs'', h6, h4, hp⟩

omit [MapPol] [Floats] in
theorem c124_componentsOf {items : List Component} : ∀ {es : List (Str × ComponentKind)}, componentsOf items = .ok es ↔
    All₂ (fun (c : Component) (e : Str × ComponentKind) => e.1 = c.id ∧ ComponentKind.fromParser c = .ok e.2) items es := by
  induction items with
  | nil =>
    intro es
    constructor
    · intro h; cases h; exact .nil
    · intro h; cases h; rfl
  | cons c items ih =>
    intro es
    simp only [componentsOf, Out.bind_eq_ok, Out.mapErr_eq_ok]
    constructor
    · rintro ⟨k, h1, ks, h2, h3⟩; cases h3; exact .cons ⟨rfl, h1⟩ (ih.mp h2)
    · intro h
      cases h with
      | cons h t => exact ⟨_, h.2, _, ih.mpr t, by rw [← h.1]; rfl⟩

/-- C124: the events and the components of a screen in another order, when no two events have the same container and no two components the same name. The
screen is read as well, with the same events, in the order of their lines but for the one of `onCreate`, and with the same components; nothing else changes. -/
theorem c124_screen {ln gn : Str} {file : FileItem} {view : Layout} {logic : ScreenLogic} {fab : Option View} {s : Screen}
    (h : Screen.fromParsed ln gn file view logic fab = .ok s) {ev ev' : EventPool} {co co' : ComponentPool} (he : logic.events = some ev) (hc : logic.components = some co)
    (hep : ev.items.Perm ev'.items) (hcp : co.items.Perm co'.items) (hen : ((parserEvents logic).map containerName).Nodup) (hcn : (co.items.map (·.id)).Nodup) :
    ∃ es cs, Screen.fromParsed ln gn file view { logic with events := some ev', components := some co' } fab = .ok { s with events := es, components := cs } ∧
      s.events.Perm es ∧ ((parserEvents logic).zip s.events).Perm ((parserEvents { logic with events := some ev', components := some co' }).zip es) ∧
      s.components.Perm cs := by
  unfold Screen.fromParsed at h ⊢
  simp only [Out.bind_eq_ok, Out.mapErr_eq_ok, Prod.exists] at h
  obtain ⟨t, a1, mbs, bc, a2, comps, a3, es, bc', a4, a5⟩ := h
  obtain rfl := Out.ok.inj a5
  have hp : (parserEvents logic).Perm (parserEvents { logic with events := some ev', components := some co' }) := by
    unfold parserEvents
    simp only [he, Option.map_some, Option.getD_some]
    split
    · exact hep.cons _
    · exact hep
  obtain ⟨es', bc'', h1, h2, h3⟩ := c124_events hp hen a4
  rw [hc] at a3
  have h4 := c124_componentsOf.mp a3
  simp only [Option.map_some, Option.getD_some] at h4
  obtain ⟨cs', h5, h6⟩ := c124_all_perm hcp h4
  have hpc : comps.Perm cs' := by
    have := h6.map Prod.snd
    rwa [(c124_zip_right h4).1, (c124_zip_right h5).1] at this
  have hk : LMap.keys comps = co.items.map (·.id) := by
    clear h5 h6 hpc hcp hcn a3 h2 h3 h1 hp hen hep he hc a5
    generalize co.items = ci at h4
    induction h4 with
    | nil => rfl
    | cons h _ ih => simp only [LMap.keys, List.map_cons, h.1] at ih ⊢; rw [ih]
  have hk' : (LMap.keys comps).Nodup := by rw [hk]; exact hcn
  refine ⟨es', LMap.collect cs', ?_, h3, h2, ?_⟩
  · simp only [a1, Out.mapErr_ok, Out.ok_bind, a2, Option.map_some, Option.getD_some, c124_componentsOf.mpr h5, h1]
    rfl
  · rw [LMap.collect_nodup _ hk', LMap.collect_nodup _ ((hpc.map Prod.fst).nodup_iff.mp hk')]
    exact hpc

/-! ### The lines -/

open Sections

theorem c124_gloop_acc {σ α : Type} {header : Str → Option σ} {read : Str → Option α} : ∀ (ls : List Str) {sec : Option σ} {acc acc' l : List (σ × α)} {n : Nat} (n' : Nat),
    acc.Perm acc' → gloop header read ls sec acc n = .ok l → ∃ l', gloop header read ls sec acc' n' = .ok l' ∧ l.Perm l' := by
  intro ls
  induction ls with
  | nil => intro sec acc acc' l n n' hp h; cases h; exact ⟨acc', rfl, hp⟩
  | cons x ls ih =>
    intro sec acc acc' l n n' hp h
    simp only [gloop] at h ⊢
    cases hx : header x with
    | some s => simp only [hx] at h ⊢; exact ih _ hp h
    | none =>
      cases sec with
      | none => simp only [hx] at h ⊢; exact ih _ hp h
      | some s =>
        simp only [hx] at h ⊢
        split
        · rename_i h0
          rw [if_pos h0] at h
          cases h
          exact ⟨acc', rfl, hp⟩
        · rename_i h0
          rw [if_neg h0] at h
          cases hr : read x with
          | none => simp only [hr] at h; cases h
          | some a => simp only [hr] at h ⊢; exact ih _ (hp.append_right _) h

theorem c124_gloop {σ α : Type} {header : Str → Option σ} {read : Str → Option α} (post : List Str) {A A' : List Str} (hp : A.Perm A') :
    (∀ l ∈ A, l ≠ [] ∧ header l = none) → ∀ {sec : Option σ} {acc acc' l : List (σ × α)} {n : Nat} (n' : Nat),
      acc.Perm acc' → gloop header read (A ++ post) sec acc n = .ok l → ∃ l', gloop header read (A' ++ post) sec acc' n' = .ok l' ∧ l.Perm l' := by
  induction hp with
  | nil => intro _ sec acc acc' l n n'; exact c124_gloop_acc post n'
  | cons x _ ih =>
    intro hA sec acc acc' l n n' hp h
    obtain ⟨h0, hx⟩ := hA x (by simp)
    have hA' := fun l hl => hA l (List.mem_cons_of_mem _ hl)
    simp only [List.cons_append, gloop, hx] at h ⊢
    cases sec with
    | none => exact ih hA' _ hp h
    | some s =>
      simp only [if_neg h0] at h ⊢
      cases hr : read x with
      | none => simp only [hr] at h; cases h
      | some a => simp only [hr] at h ⊢; exact ih hA' _ (hp.append_right _) h
  | swap x y t =>
    intro hA sec acc acc' l n n' hp h
    obtain ⟨h0, hx⟩ := hA x (by simp)
    obtain ⟨h0', hy⟩ := hA y (by simp)
    simp only [List.cons_append, gloop, hx, hy] at h ⊢
    cases sec with
    | none => exact c124_gloop_acc _ _ hp h
    | some s =>
      simp only [if_neg h0, if_neg h0'] at h ⊢
      cases hr : read y with
      | none => simp only [hr] at h; cases h
      | some b =>
        cases hr' : read x with
        | none => simp only [hr, hr'] at h; cases h
        | some a =>
          simp only [hr, hr'] at h ⊢
          refine c124_gloop_acc _ _ ?_ h
          simp only [List.append_assoc, List.singleton_append]
          exact hp.append (.swap ..)
  | trans p _ ih₁ ih₂ =>
    intro hA sec acc acc' l n n' hp h
    obtain ⟨l₁, g1, g2⟩ := ih₁ hA n hp h
    obtain ⟨l₂, g3, g4⟩ := ih₂ (fun l hl => hA l (p.mem_iff.mpr hl)) n' (.refl _) g1
    exact ⟨l₂, g3, g2.trans g4⟩

theorem c124_gloop_pre {σ α : Type} {header : Str → Option σ} {read : Str → Option α} {post A A' : List Str} (hp : A.Perm A') (hA : ∀ l ∈ A, l ≠ [] ∧ header l = none) :
    ∀ (pre : List Str) {sec : Option σ} {acc l : List (σ × α)} {n : Nat}, gloop header read (pre ++ (A ++ post)) sec acc n = .ok l →
      ∃ l', gloop header read (pre ++ (A' ++ post)) sec acc n = .ok l' ∧ l.Perm l'
  | [], sec, acc, l, n, h => c124_gloop post hp hA n (.refl _) h
  | x :: pre, sec, acc, l, n, h => by
    simp only [List.cons_append, gloop] at h ⊢
    cases hx : header x with
    | some s => simp only [hx] at h ⊢; exact c124_gloop_pre hp hA pre h
    | none =>
      cases sec with
      | none => simp only [hx] at h ⊢; exact c124_gloop_pre hp hA pre h
      | some s =>
        simp only [hx] at h ⊢
        split
        · rename_i h0
          rw [if_pos h0] at h
          cases h
          exact ⟨_, rfl, .refl _⟩
        · rename_i h0
          rw [if_neg h0] at h
          cases hr : read x with
          | none => simp only [hr] at h; cases h
          | some a => simp only [hr] at h ⊢; exact c124_gloop_pre hp hA pre h

theorem c124_only {σ α : Type} [DecidableEq σ] (s : σ) {l l' : List (σ × α)} (h : l.Perm l') : (only s l).Perm (only s l') := (h.filter _).map _

/-- C124: lines of the file list that are neither blank nor headers, in another order: the same entries are read, section by section. -/
theorem c124_file_lines {s s' : Str} {pre A A' post : List Str} (hs : lines s = pre ++ (A ++ post)) (hs' : lines s' = pre ++ (A' ++ post)) (hp : A.Perm A')
    (hA : ∀ l ∈ A, l ≠ [] ∧ l ≠ s% "@activity" ∧ l ≠ s% "@customview") {f : File} (hf : File.parse s = .ok f) :
    ∃ f', File.parse s' = .ok f' ∧ f.activities.Perm f'.activities ∧ f.customViews.Perm f'.customViews := by
  rw [c116_file_gloop, hs] at hf
  rw [c116_file_gloop, hs']
  split at hf
  · rename_i l hl
    cases hf
    obtain ⟨l', h1, h2⟩ := c124_gloop_pre (A' := A') hp (fun l hl => ⟨(hA l hl).1, by unfold fileHeader; rw [if_neg (hA l hl).2.1, if_neg (hA l hl).2.2]⟩) pre hl
    rw [h1]
    exact ⟨_, rfl, c124_only _ h2, c124_only _ h2⟩
  · cases hf

/-- C124: lines of the resource list that are neither blank nor headers, in another order: the same resources are read, section by section. -/
theorem c124_resource_lines {s s' : Str} {pre A A' post : List Str} (hs : lines s = pre ++ (A ++ post)) (hs' : lines s' = pre ++ (A' ++ post)) (hp : A.Perm A')
    (hA : ∀ l ∈ A, l ≠ [] ∧ l ≠ s% "@images" ∧ l ≠ s% "@sounds" ∧ l ≠ s% "@fonts") {r : Resource} (hr : Resource.parse s = .ok r) :
    ∃ r', Resource.parse s' = .ok r' ∧ r.images.Perm r'.images ∧ r.sounds.Perm r'.sounds ∧ r.fonts.Perm r'.fonts := by
  rw [c116_resource_gloop, hs] at hr
  rw [c116_resource_gloop, hs']
  split at hr
  · rename_i l hl
    cases hr
    obtain ⟨l', h1, h2⟩ := c124_gloop_pre (A' := A') hp (fun l hl => ⟨(hA l hl).1, by
      unfold resourceHeader; rw [if_neg (hA l hl).2.1, if_neg (hA l hl).2.2.1, if_neg (hA l hl).2.2.2]⟩) pre hl
    rw [h1]
    exact ⟨_, rfl, c124_only _ h2, c124_only _ h2, c124_only _ h2⟩
  · cases hr

/-- C124: a project whose file list has such lines in another order is opened as well, with the same screens and the same custom views, in the order of their
lines. -/
theorem c124_opened (ex : PathBuf → Bool) (rnd : ResourceType → Nat → UInt32) {raw : RawSketchwareProject} {p : Swrs.SketchwareProject} {P : SketchwareProject}
    (hp : Swrs.SketchwareProject.parseFrom ex raw = .ok p) (hP : SketchwareProject.tryFrom rnd p = .ok P) {file : Str} {pre A A' post : List Str}
    (hs : lines raw.file = pre ++ (A ++ post)) (hs' : lines file = pre ++ (A' ++ post)) (h : A.Perm A')
    (hA : ∀ l ∈ A, l ≠ [] ∧ l ≠ s% "@activity" ∧ l ≠ s% "@customview") (hn : (p.file.activities.map fun f => viewNameToLogic f.filename).Nodup) :
    ∃ q ss cs, Swrs.SketchwareProject.parseFrom ex { raw with file } = .ok q ∧
      SketchwareProject.tryFrom rnd q = .ok { P with screens := ss, customViews := cs } ∧ q.file.activities.Perm p.file.activities ∧
      (p.file.activities.zip P.screens).Perm (q.file.activities.zip ss) ∧ P.screens.Perm ss ∧ q.file.customViews.Perm p.file.customViews ∧
      (p.file.customViews.zip P.customViews).Perm (q.file.customViews.zip cs) ∧ P.customViews.Perm cs := by
  have hpf := ((c58_parts ex _ _).mp hp).2.1
  obtain ⟨f', h1, h2, h3⟩ := c124_file_lines hs hs' h hA hpf
  obtain ⟨ss, cs, g1, -, g2, g3, -, g4, g5⟩ := c124_files rnd hP h2 h3 hn
  exact ⟨_, ss, cs, c123_opened hp h1, g1, h2.symm, g2, g3, h3.symm, g4, g5⟩

end Swrs.Api

namespace Swrs.Api

/-! ### The conditions are needed; examples -/

/-- C124: the first block must stay the first one: when it changes places with another, less code may be read. -/
theorem c124_first_false [MapPol] : let _ : Floats := toyFloats.toFloats
    ∃ (b b' : ParserBlock) (x y : Block), parseU32 b.id = some 0 ∧ parseU32 b'.id = some 1 ∧ tryFrom ⟨[b, b']⟩ = .ok [x, y] ∧ tryFrom ⟨[b', b]⟩ = .ok [y] := by
  let _ : Floats := toyFloats.toFloats
  exact ⟨exBlock (s% "0") 1 (-1) (s% "a") [], exBlock (s% "1") (-1) (-1) (s% "b") [], _, _, rfl, rfl, rfl, rfl⟩

/-- C124: the numbers must differ: of two blocks with the same number, the later one is used. -/
theorem c124_number_false [pol : MapPol] : let _ : Floats := toyFloats.toFloats
    ∃ (b b' b'' : ParserBlock) (x y z : Block), parseU32 b'.id = parseU32 b''.id ∧ tryFrom ⟨[b, b', b'']⟩ = .ok [x, y] ∧ tryFrom ⟨[b, b'', b']⟩ = .ok [x, z] ∧ y ≠ z := by
  let _ : Floats := toyFloats.toFloats
  refine ⟨exBlock (s% "0") 1 (-1) (s% "a") [], exBlock (s% "1") (-1) (-1) (s% "b") [], exBlock (s% "1") (-1) (-1) (s% "c") [], ?_⟩
  obtain ⟨a, b⟩ := pol
  cases a <;> cases b <;> exact ⟨_, _, _, rfl, rfl, rfl, by intro h; cases h⟩

/-- C124: the numbers must be numbers: of two blocks without one, the error names the first. -/
theorem c124_malformed_false [pol : MapPol] : let _ : Floats := toyFloats.toFloats
    ∃ b b' b'' : ParserBlock, (∃ n, parseU32 b.id = some n) ∧ b'.id ≠ b''.id ∧
      tryFrom ⟨[b, b', b'']⟩ = .err (.malformedBlockId b'.id) ∧ tryFrom ⟨[b, b'', b']⟩ = .err (.malformedBlockId b''.id) := by
  let _ : Floats := toyFloats.toFloats
  refine ⟨exBlock (s% "0") 1 (-1) (s% "a") [], exBlock (s% "x") (-1) (-1) (s% "b") [], exBlock (s% "y") (-1) (-1) (s% "c") [], ⟨0, rfl⟩, by decide, ?_⟩
  obtain ⟨a, b⟩ := pol
  cases a <;> cases b <;> exact ⟨rfl, rfl⟩

/-- `c124_blocks`: three blocks. -/
example [MapPol] : let _ : Floats := toyFloats.toFloats
    tryFrom ⟨[exBlock (s% "0") 2 (-1) (s% "a") [], exBlock (s% "1") (-1) (-1) (s% "b") [], exBlock (s% "2") 1 (-1) (s% "c") []]⟩ =
      tryFrom ⟨[exBlock (s% "0") 2 (-1) (s% "a") [], exBlock (s% "2") 1 (-1) (s% "c") [], exBlock (s% "1") (-1) (-1) (s% "b") []]⟩ := by
  let _ : Floats := toyFloats.toFloats
  refine c124_blocks (.swap ..) ?_ (by decide)
  simp only [List.mem_cons, List.not_mem_nil, or_false, forall_eq_or_imp, forall_eq]
  exact ⟨⟨0, rfl⟩, ⟨1, rfl⟩, ⟨2, rfl⟩⟩

/-- An activity. -/
def c124_act (n : Str) (full : Bool) : FileItem := ⟨n, .activity, .unspecified, ⟨false, full, false, false⟩, .portrait, .none⟩

/-- C124: the names of the logics must differ: of two activities with the same name, the first one gets the logic. -/
theorem c124_files_false [MapPol] (rnd : ResourceType → Nat → UInt32) : let _ : Floats := toyFloats.toFloats
    ∃ (p : Swrs.SketchwareProject) (P Q : SketchwareProject) (file : File), p.file.activities.Perm file.activities ∧ p.file.customViews = file.customViews ∧
      SketchwareProject.tryFrom rnd p = .ok P ∧ SketchwareProject.tryFrom rnd { p with file } = .ok Q ∧ ¬ P.screens.Perm Q.screens := by
  let _ : Floats := toyFloats.toFloats
  refine ⟨{ c120_read ⟨[], []⟩ ⟨[(s% "MainActivity", ScreenLogic.newEmpty (s% "MainActivity"))]⟩ with
    file := ⟨[c124_act (s% "main") true, c124_act (s% "main") false], []⟩ }, _, _, ⟨[c124_act (s% "main") false, c124_act (s% "main") true], []⟩, .swap .., rfl, rfl, rfl, ?_⟩
  intro h
  have : (true, s% "MainActivity") ∈ [(false, s% "MainActivity"), (true, s% "main")] :=
    (h.map fun s => (s.fullscreenEnabled, s.javaName)).mem_iff.mp (List.mem_cons_self ..)
  revert this
  decide

/-- `c124_files`: two activities. -/
example [MapPol] (rnd : ResourceType → Nat → UInt32) : let _ : Floats := toyFloats.toFloats
    ∃ (p : Swrs.SketchwareProject) (P : SketchwareProject) (file : File), SketchwareProject.tryFrom rnd p = .ok P ∧ p.file.activities.Perm file.activities ∧
      p.file.customViews.Perm file.customViews ∧ p.file ≠ file ∧ (p.file.activities.map fun f => viewNameToLogic f.filename).Nodup := by
  let _ : Floats := toyFloats.toFloats
  exact ⟨{ c120_read ⟨[(s% "row", ⟨[]⟩), (s% "cell", ⟨[]⟩)], []⟩ ⟨[]⟩ with
    file := ⟨[c124_act (s% "main") true, c124_act (s% "next") false], [c124_act (s% "row") false, c124_act (s% "cell") false]⟩ }, _,
    ⟨[c124_act (s% "next") false, c124_act (s% "main") true], [c124_act (s% "cell") false, c124_act (s% "row") false]⟩, rfl, .swap .., .swap .., by decide, by decide⟩

/-- `c124_resources`: two images. -/
example [MapPol] (rnd : ResourceType → Nat → UInt32) : let _ : Floats := toyFloats.toFloats
    ∃ (p : Swrs.SketchwareProject) (P : SketchwareProject) (resource : Resource), SketchwareProject.tryFrom rnd p = .ok P ∧ p.resourceFiles ≠ none ∧
      p.resource.images.Perm resource.images ∧ p.resource.sounds.Perm resource.sounds ∧ p.resource.fonts.Perm resource.fonts ∧ p.resource ≠ resource ∧
      (p.resource.images.map (·.name)).Nodup ∧ (p.resource.sounds.map (·.name)).Nodup ∧ (p.resource.fonts.map (·.name)).Nodup := by
  let _ : Floats := toyFloats.toFloats
  exact ⟨{ c120_read ⟨[], []⟩ ⟨[]⟩ with
    resource := ⟨[⟨s% "a.png", s% "a", 1⟩, ⟨s% "b.png", s% "b", 1⟩], [], []⟩
    resourceFiles := some ⟨none, [(s% "a.png", .u32Id 1 (s% "a.png") .image), (s% "b.png", .u32Id 2 (s% "b.png") .image)], [], []⟩ }, _,
    ⟨[⟨s% "b.png", s% "b", 1⟩, ⟨s% "a.png", s% "a", 1⟩], [], []⟩, rfl, by simp, .swap .., .refl _, .refl _, by decide, by decide, by decide, by decide⟩

/-- C124: the names of the resources must differ: of two entries with the same name, the later one is kept. -/
theorem c124_resources_false [pol : MapPol] (rnd : ResourceType → Nat → UInt32) : let _ : Floats := toyFloats.toFloats
    ∃ (p : Swrs.SketchwareProject) (P Q : SketchwareProject) (resource : Resource), p.resourceFiles ≠ none ∧ p.resource.images.Perm resource.images ∧
      p.resource.sounds = resource.sounds ∧ p.resource.fonts = resource.fonts ∧ SketchwareProject.tryFrom rnd p = .ok P ∧
      SketchwareProject.tryFrom rnd { p with resource } = .ok Q ∧ ¬ P.resources.images.Perm Q.resources.images := by
  let _ : Floats := toyFloats.toFloats
  refine ⟨{ c120_read ⟨[], []⟩ ⟨[]⟩ with
    resource := ⟨[⟨s% "a.png", s% "a", 1⟩, ⟨s% "b.png", s% "a", 1⟩], [], []⟩
    resourceFiles := some ⟨none, [(s% "a.png", .u32Id 1 (s% "a.png") .image), (s% "b.png", .u32Id 2 (s% "b.png") .image)], [], []⟩ }, _, _,
    ⟨[⟨s% "b.png", s% "a", 1⟩, ⟨s% "a.png", s% "a", 1⟩], [], []⟩, by simp, .swap .., rfl, rfl, rfl, rfl, ?_⟩
  obtain ⟨a, b⟩ := pol
  cases a <;> cases b <;> exact fun h => absurd (h.mem_iff.mp (List.mem_cons_self ..)) (by decide)

/-- `c124_screen`: two events and two components. -/
example [MapPol] : let _ : Floats := toyFloats.toFloats
    ∃ (logic : ScreenLogic) (s : Screen) (ev ev' : EventPool) (co co' : ComponentPool),
      Screen.fromParsed (s% "main") (s% "MainActivity") (c124_act (s% "main") true) ⟨[]⟩ logic none = .ok s ∧ logic.events = some ev ∧ logic.components = some co ∧
      ev.items.Perm ev'.items ∧ co.items.Perm co'.items ∧ ev.items ≠ ev'.items ∧ ((parserEvents logic).map containerName).Nodup ∧ (co.items.map (·.id)).Nodup ∧
      s.events.length = 3 := by
  let _ : Floats := toyFloats.toFloats
  exact ⟨{ ScreenLogic.newEmpty (s% "MainActivity") with
      blockContainers := [(s% "onCreate_initializeLogic", ⟨[exBlock (s% "0") (-1) (-1) (s% "a") []]⟩)]
      events := some ⟨[⟨s% "onClick", 1, s% "button1", 3⟩, ⟨s% "onClick", 1, s% "button2", 3⟩]⟩
      components := some ⟨[⟨s% "net", [], [], [], 17⟩, ⟨s% "net2", [], [], [], 17⟩]⟩ }, _, _, ⟨[⟨s% "onClick", 1, s% "button2", 3⟩, ⟨s% "onClick", 1, s% "button1", 3⟩]⟩, _,
    ⟨[⟨s% "net2", [], [], [], 17⟩, ⟨s% "net", [], [], [], 17⟩]⟩, rfl, rfl, rfl, .swap .., .swap .., by decide, by decide +kernel, by decide, rfl⟩

/-- C124: the containers must differ: of two events with the same container, the first one gets the code. -/
theorem c124_screen_false [MapPol] : let _ : Floats := toyFloats.toFloats
    ∃ (logic : ScreenLogic) (s s' : Screen) (ev ev' : EventPool), logic.events = some ev ∧ ev.items.Perm ev'.items ∧
      Screen.fromParsed (s% "main") (s% "MainActivity") (c124_act (s% "main") true) ⟨[]⟩ logic none = .ok s ∧
      Screen.fromParsed (s% "main") (s% "MainActivity") (c124_act (s% "main") true) ⟨[]⟩ { logic with events := some ev' } none = .ok s' ∧ ¬ s.events.Perm s'.events := by
  let _ : Floats := toyFloats.toFloats
  refine ⟨{ ScreenLogic.newEmpty (s% "MainActivity") with
      blockContainers := [(s% "web_onLoad", ⟨[exBlock (s% "0") (-1) (-1) (s% "a") []]⟩)]
      events := some ⟨[⟨s% "onLoad", 1, s% "web", 3⟩, ⟨s% "onLoad", 2, s% "web", 3⟩]⟩ }, _, _, _, ⟨[⟨s% "onLoad", 2, s% "web", 3⟩, ⟨s% "onLoad", 1, s% "web", 3⟩]⟩, rfl, .swap .., rfl, rfl, ?_⟩
  intro h
  have : (EventType.viewEvent (s% "web"), 1) ∈ [(EventType.componentEvent (s% "web") 3, 1), (EventType.viewEvent (s% "web"), 0)] :=
    (h.map fun e => (e.eventType, e.code.length)).mem_iff.mp (List.mem_cons_self ..)
  revert this
  decide

/-- C124: the names of the components must differ: of two components with the same name, the last one is read. -/
theorem c124_component_false [pol : MapPol] : let _ : Floats := toyFloats.toFloats
    ∃ (logic : ScreenLogic) (s s' : Screen) (co co' : ComponentPool), logic.components = some co ∧ co.items.Perm co'.items ∧
      Screen.fromParsed (s% "main") (s% "MainActivity") (c124_act (s% "main") true) ⟨[]⟩ logic none = .ok s ∧
      Screen.fromParsed (s% "main") (s% "MainActivity") (c124_act (s% "main") true) ⟨[]⟩ { logic with components := some co' } none = .ok s' ∧
      ¬ s.components.Perm s'.components := by
  let _ : Floats := toyFloats.toFloats
  refine ⟨{ ScreenLogic.newEmpty (s% "MainActivity") with components := some ⟨[⟨s% "net", [], [], [], 17⟩, ⟨s% "net", [], [], [], 1⟩]⟩ }, ?_⟩
  have : ∃ s s' : Screen,
      Screen.fromParsed (s% "main") (s% "MainActivity") (c124_act (s% "main") true) ⟨[]⟩
        { ScreenLogic.newEmpty (s% "MainActivity") with components := some ⟨[⟨s% "net", [], [], [], 17⟩, ⟨s% "net", [], [], [], 1⟩]⟩ } none = .ok s ∧
      Screen.fromParsed (s% "main") (s% "MainActivity") (c124_act (s% "main") true) ⟨[]⟩
        { ScreenLogic.newEmpty (s% "MainActivity") with components := some ⟨[⟨s% "net", [], [], [], 1⟩, ⟨s% "net", [], [], [], 17⟩]⟩ } none = .ok s' ∧
      s.components = [(s% "net", .intent)] ∧ s'.components = [(s% "net", .requestNetwork)] := by
    obtain ⟨a, b⟩ := pol
    cases a <;> cases b <;> exact ⟨_, _, rfl, rfl, rfl, rfl⟩
  obtain ⟨s, s', h1, h2, h3, h4⟩ := this
  refine ⟨s, s', _, _, rfl, .swap .., h1, h2, fun h => ?_⟩
  rw [h3, h4] at h
  cases h.eq_singleton

/-- C124: the lines must not be headers: the entries after a header that is moved are read as others. -/
theorem c124_header_false : ∃ (s s' : Str) (A A' : List Str) (f f' : File), lines s = A ∧ lines s' = A' ∧ A.Perm A' ∧ [] ∉ A ∧ File.parse s = .ok f ∧ File.parse s' = .ok f' ∧
    f.activities.length = 1 ∧ f.customViews.length = 0 ∧ f'.activities.length = 0 ∧ f'.customViews.length = 1 := by
  refine ⟨s% "@customview\n" ++ c114_fileText, c114_fileText.take 9 ++ s% "\n@customview" ++ c114_fileText.drop 9, [s% "@customview", s% "@activity", c114_fileText.drop 10],
    [s% "@activity", s% "@customview", c114_fileText.drop 10], ⟨[c124_act (s% "main") false], []⟩, ⟨[], [c124_act (s% "main") false]⟩, by decide +kernel, by decide +kernel, .swap ..,
    by decide +kernel, by decide +kernel, by decide +kernel, rfl, rfl, rfl, rfl⟩

/-- `c124_file_lines`: the two lines of a section change places. -/
example : ∃ (s s' : Str) (pre A A' post : List Str) (f : File), lines s = pre ++ (A ++ post) ∧ lines s' = pre ++ (A' ++ post) ∧ A.Perm A' ∧ A ≠ A' ∧
    (∀ l ∈ A, l ≠ [] ∧ l ≠ s% "@activity" ∧ l ≠ s% "@customview") ∧ File.parse s = .ok f ∧ f.activities.length = 2 :=
  ⟨s% "@activity\n{\"fileName\":\"next\",\"fileType\":0,\"keyboardSetting\":0,\"options\":0,\"orientation\":0,\"theme\":-1}" ++ c114_fileText.drop 9,
    c114_fileText ++ s% "\n{\"fileName\":\"next\",\"fileType\":0,\"keyboardSetting\":0,\"options\":0,\"orientation\":0,\"theme\":-1}", [s% "@activity"],
    [s% "{\"fileName\":\"next\",\"fileType\":0,\"keyboardSetting\":0,\"options\":0,\"orientation\":0,\"theme\":-1}", c114_fileText.drop 10],
    [c114_fileText.drop 10, s% "{\"fileName\":\"next\",\"fileType\":0,\"keyboardSetting\":0,\"options\":0,\"orientation\":0,\"theme\":-1}"], [],
    ⟨[c124_act (s% "next") false, c124_act (s% "main") false], []⟩, by decide +kernel, by decide +kernel, .swap .., by decide +kernel, by decide +kernel, by decide +kernel, rfl⟩

/-- `c124_resource_lines`: the two lines of a section change places. -/
example : ∃ (s s' : Str) (pre A A' post : List Str) (r : Resource), lines s = pre ++ (A ++ post) ∧ lines s' = pre ++ (A' ++ post) ∧ A.Perm A' ∧ A ≠ A' ∧
    (∀ l ∈ A, l ≠ [] ∧ l ≠ s% "@images" ∧ l ≠ s% "@sounds" ∧ l ≠ s% "@fonts") ∧ Resource.parse s = .ok r ∧ r.images.length = 2 :=
  ⟨s% "@images\n{\"resFullName\":\"a.png\",\"resName\":\"a\",\"resType\":1}\n{\"resFullName\":\"b.png\",\"resName\":\"b\",\"resType\":1}",
    s% "@images\n{\"resFullName\":\"b.png\",\"resName\":\"b\",\"resType\":1}\n{\"resFullName\":\"a.png\",\"resName\":\"a\",\"resType\":1}", [s% "@images"],
    [s% "{\"resFullName\":\"a.png\",\"resName\":\"a\",\"resType\":1}", s% "{\"resFullName\":\"b.png\",\"resName\":\"b\",\"resType\":1}"],
    [s% "{\"resFullName\":\"b.png\",\"resName\":\"b\",\"resType\":1}", s% "{\"resFullName\":\"a.png\",\"resName\":\"a\",\"resType\":1}"], [],
    ⟨[⟨s% "a.png", s% "a", 1⟩, ⟨s% "b.png", s% "b", 1⟩], [], []⟩, by decide +kernel, by decide +kernel, .swap .., by decide, by decide, by decide +kernel, rfl⟩

/-- `c124_opened`: a project with two activities. -/
example [MapPol] (ex : PathBuf → Bool) (rnd : ResourceType → Nat → UInt32) : let _ : Floats := toyFloats.toFloats
    ∃ (raw : RawSketchwareProject) (p : Swrs.SketchwareProject) (P : SketchwareProject) (file : Str) (pre A A' post : List Str),
      Swrs.SketchwareProject.parseFrom ex raw = .ok p ∧ SketchwareProject.tryFrom rnd p = .ok P ∧ lines raw.file = pre ++ (A ++ post) ∧
      lines file = pre ++ (A' ++ post) ∧ A.Perm A' ∧ A ≠ A' ∧ (∀ l ∈ A, l ≠ [] ∧ l ≠ s% "@activity" ∧ l ≠ s% "@customview") ∧
      (p.file.activities.map fun f => viewNameToLogic f.filename).Nodup := by
  let _ : Floats := toyFloats.toFloats
  have h0 : Swrs.SketchwareProject.parseFrom ex (c120_raw [] []) = .ok (c120_read ⟨[], []⟩ ⟨[]⟩) := c120_parsed ex rfl rfl
  have h1 : Swrs.SketchwareProject.parseFrom ex { c120_raw [] [] with
        file := s% "@activity\n{\"fileName\":\"next\",\"fileType\":0,\"keyboardSetting\":0,\"options\":0,\"orientation\":0,\"theme\":-1}" ++ c114_fileText.drop 9 } =
      .ok { c120_read ⟨[], []⟩ ⟨[]⟩ with file := ⟨[c124_act (s% "next") false, c124_act (s% "main") false], []⟩ } := c123_opened h0 (by decide +kernel)
  exact ⟨_, _, _, c114_fileText ++ s% "\n{\"fileName\":\"next\",\"fileType\":0,\"keyboardSetting\":0,\"options\":0,\"orientation\":0,\"theme\":-1}", [s% "@activity"],
    [s% "{\"fileName\":\"next\",\"fileType\":0,\"keyboardSetting\":0,\"options\":0,\"orientation\":0,\"theme\":-1}", c114_fileText.drop 10],
    [c114_fileText.drop 10, s% "{\"fileName\":\"next\",\"fileType\":0,\"keyboardSetting\":0,\"options\":0,\"orientation\":0,\"theme\":-1}"], [],
    h1, rfl, by decide +kernel, by decide +kernel, .swap .., by decide +kernel, by decide +kernel, by decide⟩

end Swrs.Api
