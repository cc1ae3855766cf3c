import Verif.Model.ApiScreen
import Verif.Base.All2
/-!
# Lemmas about screens of the API
-/
namespace Swrs.Api
section
variable [MapPol] [Floats]

theorem tryFrom_empty : tryFrom (⟨[]⟩ : BlockContainer) = .ok [] := rfl

omit [MapPol] in
theorem toContainer_empty : toContainer ([] : List Block) = .ok ⟨[]⟩ := rfl

omit [MapPol] [Floats] in
theorem moreBlockId_inj {a b : Str} (h : moreBlockId a = moreBlockId b) : a = b := List.append_cancel_right h

/-- The code that a container gives. -/
def codeOf (cs : Containers) (id : Str) : Out BlockConversionError (List Block) := tryFrom ((cs.get id).getD ⟨[]⟩)

theorem takeCode_ok {id : Str} {cs cs' : Containers} {code : List Block} :
    takeCode id cs = .ok (code, cs') ↔ codeOf cs id = .ok code ∧ cs' = cs.erase id := by
  simp only [takeCode, codeOf, Out.bind_eq_ok, Out.mapErr_eq_ok, Out.pure_eq, Out.ok.injEq, Prod.mk.injEq]
  constructor
  · rintro ⟨x, h, rfl, rfl⟩
    exact ⟨h, rfl⟩
  · rintro ⟨h, rfl⟩
    exact ⟨code, h, rfl, rfl⟩

theorem codeOf_erase (cs : Containers) (a b : Str) : codeOf (cs.erase a) b = if b = a then .ok [] else codeOf cs b := by
  unfold codeOf
  rw [LMap.get_erase]
  split
  · rfl
  · rfl

theorem moreBlockOf_ok {id : Str} {mb : Swrs.MoreBlock} {m : MoreBlock} {cs cs' : Containers} :
    moreBlockOf id mb cs = .ok (m, cs') ↔ m.name = id ∧ BlockContent.parseWoParams mb.spec = .ok m.spec ∧
      codeOf cs (moreBlockId id) = .ok m.code ∧ cs' = cs.erase (moreBlockId id) := by
  obtain ⟨n, spec, code⟩ := m
  simp only [moreBlockOf, Out.bind_eq_ok, Out.mapErr_eq_ok, Out.pure_eq, Out.ok.injEq, Prod.mk.injEq, Prod.exists, takeCode_ok,
    MoreBlock.mk.injEq]
  constructor
  · rintro ⟨sp, h, c, cs2, ⟨h2, rfl⟩, ⟨rfl, rfl, rfl⟩, rfl⟩
    exact ⟨rfl, h, h2, rfl⟩
  · rintro ⟨rfl, h, h2, rfl⟩
    exact ⟨_, h, _, _, ⟨h2, rfl⟩, ⟨rfl, rfl, rfl⟩, rfl⟩

theorem eventOf_ok {p : Swrs.Event} {e : Event} {cs cs' : Containers} :
    eventOf p cs = .ok (e, cs') ↔ Event.tryFrom p = .ok { e with code := [] } ∧
      codeOf cs e.containerId = .ok e.code ∧ cs' = cs.erase e.containerId := by
  obtain ⟨n, t, code⟩ := e
  simp only [eventOf, Out.bind_eq_ok, Out.mapErr_eq_ok, Out.pure_eq, Out.ok.injEq, Prod.mk.injEq, Prod.exists, takeCode_ok]
  constructor
  · rintro ⟨⟨n', t', c'⟩, h, c, cs2, ⟨h2, rfl⟩, h3, rfl⟩
    have hc : c' = [] := by
      simp only [Event.tryFrom, Out.bind_eq_ok, Out.pure_eq, Out.ok.injEq, Event.mk.injEq] at h
      obtain ⟨_, _, _, _, h⟩ := h
      exact h.symm
    simp only [Event.mk.injEq] at h3
    obtain ⟨rfl, rfl, rfl⟩ := h3
    subst hc
    exact ⟨h, h2, rfl⟩
  · rintro ⟨h, h2, rfl⟩
    exact ⟨_, h, _, _, ⟨h2, rfl⟩, rfl, rfl⟩

/-- The containers left after the moreblocks took theirs. -/
def afterMoreBlocks {α : Type} (es : List (Str × α)) (cs : Containers) : Containers :=
  es.foldl (fun cs e => cs.erase (moreBlockId e.1)) cs

omit [MapPol] [Floats] in
theorem get_after {α : Type} (es : List (Str × α)) (cs : Containers) (k : Str) :
    (afterMoreBlocks es cs).get k = if k ∈ es.map (fun e => moreBlockId e.1) then none else cs.get k := by
  induction es generalizing cs with
  | nil => simp [afterMoreBlocks]
  | cons e es ih =>
    rw [show afterMoreBlocks (e :: es) cs = afterMoreBlocks es (cs.erase (moreBlockId e.1)) from rfl, ih, LMap.get_erase]
    simp only [List.map_cons, List.mem_cons]
    grind

theorem moreBlocksOf_ok {es : List (Str × Swrs.MoreBlock)} {ms : List (Str × MoreBlock)} {cs cs' : Containers}
    (hn : (LMap.keys es).Nodup) :
    moreBlocksOf es cs = .ok (ms, cs') ↔
      All₂ (fun e m => m.1 = e.1 ∧ m.2.name = e.1 ∧ BlockContent.parseWoParams e.2.spec = .ok m.2.spec ∧
        codeOf cs (moreBlockId e.1) = .ok m.2.code) es ms ∧ cs' = afterMoreBlocks es cs := by
  induction es generalizing ms cs cs' with
  | nil =>
    simp only [moreBlocksOf, Out.ok.injEq, Prod.mk.injEq]
    constructor
    · rintro ⟨rfl, rfl⟩
      exact ⟨.nil, rfl⟩
    · rintro ⟨h, rfl⟩
      cases h
      exact ⟨rfl, rfl⟩
  | cons e es ih =>
    obtain ⟨id, mb⟩ := e
    simp only [LMap.keys_cons, List.nodup_cons] at hn
    simp only [moreBlocksOf, Out.bind_eq_ok, Out.pure_eq, Out.ok.injEq, Prod.mk.injEq, Prod.exists, moreBlockOf_ok, ih hn.2]
    have key : ∀ ms, All₂ (fun (e : Str × Swrs.MoreBlock) (m : Str × MoreBlock) => m.1 = e.1 ∧ m.2.name = e.1 ∧
          BlockContent.parseWoParams e.2.spec = .ok m.2.spec ∧ codeOf (cs.erase (moreBlockId id)) (moreBlockId e.1) = .ok m.2.code) es ms ↔
        All₂ (fun (e : Str × Swrs.MoreBlock) (m : Str × MoreBlock) => m.1 = e.1 ∧ m.2.name = e.1 ∧
          BlockContent.parseWoParams e.2.spec = .ok m.2.spec ∧ codeOf cs (moreBlockId e.1) = .ok m.2.code) es ms := by
      intro ms
      have hne : ∀ e ∈ es, codeOf (cs.erase (moreBlockId id)) (moreBlockId e.1) = codeOf cs (moreBlockId e.1) := by
        intro e he
        rw [codeOf_erase, if_neg]
        intro h
        exact hn.1 (List.mem_map.mpr ⟨e, he, moreBlockId_inj h⟩)
      constructor <;> intro h <;> refine h.imp_mem fun a ha b _ => ?_
      · rw [hne a ha]; exact fun h => h
      · rw [hne a ha]; exact fun h => h
    constructor
    · rintro ⟨m, cs1, ⟨h1, h2, h3, rfl⟩, ms', cs2, ⟨h4, rfl⟩, rfl, rfl⟩
      exact ⟨.cons ⟨rfl, h1, h2, h3⟩ ((key _).mp h4), rfl⟩
    · rintro ⟨h, rfl⟩
      cases h with
      | @cons _ m _ ms h t =>
        obtain ⟨i, m⟩ := m
        obtain ⟨h1, h2, h3, h4⟩ := h
        simp only at h1
        subst h1
        exact ⟨m, _, ⟨h2, h3, h4, rfl⟩, ms, _, ⟨(key _).mpr t, rfl⟩, rfl, rfl⟩

omit [MapPol] [Floats] in
theorem componentsOf_back (cs : LMap Str ComponentKind) : componentsOf (cs.map fun e => e.2.intoParser e.1) = .ok cs := by
  induction cs with
  | nil => rfl
  | cons e cs ih =>
    obtain ⟨id, k⟩ := e
    have h : ComponentKind.fromParser (k.intoParser id) = .ok k ∧ (k.intoParser id).id = id := by cases k <;> exact ⟨rfl, rfl⟩
    simp only [List.map_cons, componentsOf, h.1, h.2, ih, Out.mapErr_ok, Out.ok_bind, Out.pure_eq]

/-- The events take back their code. -/
def ReadsBack : List Event → Containers → Prop
  | [], _ => True
  | e :: es, cs => codeOf cs e.containerId = .ok e.code ∧ ReadsBack es (cs.erase e.containerId)

omit [MapPol] in
theorem event_back (e : Event) : Event.tryFrom e.intoParser.1 = .ok { e with code := [] } := by
  obtain ⟨n, t, c⟩ := e
  cases t <;> rfl

theorem eventsOf_ok {ps : List Swrs.Event} {es : List Event} {cs : Containers} :
    (∃ cs', eventsOf ps cs = .ok (es, cs')) ↔
      All₂ (fun p e => Event.tryFrom p = .ok { e with code := [] }) ps es ∧ ReadsBack es cs := by
  induction ps generalizing es cs with
  | nil =>
    simp only [eventsOf, Out.ok.injEq, Prod.mk.injEq]
    constructor
    · rintro ⟨_, rfl, rfl⟩
      exact ⟨.nil, trivial⟩
    · rintro ⟨h, _⟩
      cases h
      exact ⟨_, rfl, rfl⟩
  | cons p ps ih =>
    simp only [eventsOf, Out.bind_eq_ok, Out.pure_eq, Out.ok.injEq, Prod.mk.injEq, Prod.exists, eventOf_ok]
    constructor
    · rintro ⟨cs', e, cs1, ⟨h1, h2, rfl⟩, es', cs2, h3, rfl, rfl⟩
      obtain ⟨h4, h5⟩ := ih.mp ⟨_, h3⟩
      exact ⟨.cons h1 h4, h2, h5⟩
    · rintro ⟨h, hr⟩
      cases h with
      | cons h t =>
        obtain ⟨cs', h'⟩ := ih.mpr ⟨t, hr.2⟩
        exact ⟨cs', _, _, ⟨h, hr.1, rfl⟩, _, _, h', rfl, rfl⟩

/-! ### Reading back -/

theorem readsBack_of {es : List Event} {cs : Containers} (h : ∀ e ∈ es, codeOf cs e.containerId = .ok e.code)
    (hp : es.Pairwise fun x y => x.containerId = y.containerId → y.code = []) : ReadsBack es cs := by
  induction es generalizing cs with
  | nil => trivial
  | cons e es ih =>
    rw [List.pairwise_cons] at hp
    refine ⟨h e (by simp), ih ?_ hp.2⟩
    intro y hy
    rw [codeOf_erase]
    split
    · rename_i he
      rw [hp.1 y hy he.symm]
    · exact h y (by simp [hy])

theorem readsBack_none {es : List Event} {cs : Containers} (h : ReadsBack es cs) {y : Event} (hy : y ∈ es)
    (hn : cs.get y.containerId = none) : y.code = [] := by
  induction es generalizing cs with
  | nil => cases hy
  | cons e es ih =>
    rcases List.mem_cons.mp hy with rfl | hy
    · have := h.1
      rw [codeOf, hn] at this
      exact (Out.ok.inj this).symm
    · refine ih h.2 hy ?_
      rw [LMap.get_erase]
      split
      · rfl
      · exact hn

theorem readsBack_pairwise {es : List Event} {cs : Containers} (h : ReadsBack es cs) :
    es.Pairwise fun x y => x.containerId = y.containerId → y.code = [] := by
  induction es generalizing cs with
  | nil => exact .nil
  | cons e es ih =>
    refine .cons ?_ (ih h.2)
    intro y hy he
    refine readsBack_none h.2 hy ?_
    rw [LMap.get_erase, if_pos he.symm]

/-- The first event with a container reads it. -/
theorem readsBack_first {pre post : List Event} {e : Event} {cs : Containers} (h : ReadsBack (pre ++ e :: post) cs)
    (hp : ∀ x ∈ pre, x.containerId ≠ e.containerId) : codeOf cs e.containerId = .ok e.code := by
  induction pre generalizing cs with
  | nil => exact h.1
  | cons x pre ih =>
    have := ih h.2 fun y hy => hp y (by simp [hy])
    rw [codeOf_erase, if_neg (Ne.symm (hp x (by simp)))] at this
    exact this

/-! ### Writing -/

theorem eventsBack_ok {es : List Event} {cs : Containers} {ps : List Swrs.Event} {cs' : Containers}
    (h : eventsBack es cs = .ok (ps, cs')) :
    ps = (es.filter fun e => e.name ≠ s% "onCreate").map (·.intoParser.1) ∧ (∀ e ∈ es, ∃ c, toContainer e.code = .ok c) ∧
    ∀ k, (∀ e ∈ es, e.containerId ≠ k) ∧ cs'.get k = cs.get k ∨
      ∃ pre e post, es = pre ++ e :: post ∧ e.containerId = k ∧ (∀ x ∈ post, x.containerId ≠ k) ∧
        ∃ c, toContainer e.code = .ok c ∧ cs'.get k = some c := by
  induction es generalizing cs ps with
  | nil =>
    cases h
    exact ⟨rfl, by simp, fun k => .inl ⟨by simp, rfl⟩⟩
  | cons e es ih =>
    simp only [eventsBack, eventBack, Out.bind_eq_ok, Out.pure_eq, Out.ok.injEq, Prod.exists, Prod.mk.injEq] at h
    obtain ⟨x, cs1, ⟨c, hc, rfl, rfl⟩, y, cs2, h, rfl, rfl⟩ := h
    obtain ⟨h1, h2, h3⟩ := ih h
    refine ⟨?_, ?_, ?_⟩
    · rw [h1, List.filter_cons]
      have : e.intoParser.1.eventName = e.name := by
        obtain ⟨n, t, c⟩ := e
        cases t <;> rfl
      rw [this]
      split <;> simp_all
    · intro x hx
      rcases List.mem_cons.mp hx with rfl | hx
      · exact ⟨c, hc⟩
      · exact h2 x hx
    · intro k
      rcases h3 k with ⟨h4, h5⟩ | ⟨pre, z, post, h4, h5, h6, h7⟩
      · by_cases hk : e.containerId = k
        · refine .inr ⟨[], e, es, rfl, hk, h4, c, hc, ?_⟩
          rw [h5, LMap.get_insert, if_pos hk.symm]
        · refine .inl ⟨?_, ?_⟩
          · intro x hx
            rcases List.mem_cons.mp hx with rfl | hx
            · exact hk
            · exact h4 x hx
          · rw [h5, LMap.get_insert, if_neg (Ne.symm hk)]
      · exact .inr ⟨e :: pre, z, post, by rw [h4]; rfl, h5, h6, h7⟩

theorem eventsBack_total {es : List Event} (h : ∀ e ∈ es, ∃ c, toContainer e.code = .ok c) (cs : Containers) :
    ∃ x, eventsBack es cs = .ok x := by
  induction es generalizing cs with
  | nil => exact ⟨_, rfl⟩
  | cons e es ih =>
    obtain ⟨c, hc⟩ := h e (by simp)
    obtain ⟨⟨ps, cs'⟩, h'⟩ := ih (fun e he => h e (by simp [he])) (cs.insert e.containerId c)
    exact ⟨_, by simp only [eventsBack, eventBack, hc, Out.ok_bind, Out.pure_eq, h']; rfl⟩

theorem moreBlocksBack_ok {ms : List (Str × MoreBlock)} {cs cs' : Containers} {ps : List (Str × Swrs.MoreBlock)}
    (hn : (LMap.keys ms).Nodup) (h : moreBlocksBack ms cs = .ok (ps, cs')) :
    ps = ms.map (fun m => (m.1, m.2.intoParser.1)) ∧
    (∀ m ∈ ms, ∃ c, toContainer m.2.code = .ok c ∧ cs'.get (moreBlockId m.1) = some c) ∧
    ∀ k, k ∉ ms.map (fun m => moreBlockId m.1) → cs'.get k = cs.get k := by
  induction ms generalizing cs ps with
  | nil =>
    cases h
    exact ⟨rfl, by simp, fun k _ => rfl⟩
  | cons m ms ih =>
    obtain ⟨id, m⟩ := m
    simp only [moreBlocksBack, Out.bind_eq_ok, Out.pure_eq, Out.ok.injEq, Prod.exists, Prod.mk.injEq] at h
    obtain ⟨c, hc, x, cs1, h, rfl, rfl⟩ := h
    simp only [LMap.keys_cons, List.nodup_cons] at hn
    obtain ⟨h1, h2, h3⟩ := ih hn.2 h
    refine ⟨by rw [h1]; rfl, ?_, ?_⟩
    · intro y hy
      rcases List.mem_cons.mp hy with rfl | hy
      · refine ⟨c, hc, ?_⟩
        rw [h3, LMap.get_insert, if_pos rfl]
        intro hm
        obtain ⟨z, hz, he⟩ := List.mem_map.mp hm
        exact hn.1 (List.mem_map.mpr ⟨z, hz, moreBlockId_inj he⟩)
      · exact h2 y hy
    · intro k hk
      simp only [List.map_cons, List.mem_cons, not_or] at hk
      rw [h3 k hk.2, LMap.get_insert, if_neg hk.1]

theorem moreBlocksBack_total {ms : List (Str × MoreBlock)} (h : ∀ m ∈ ms, ∃ c, toContainer m.2.code = .ok c) (cs : Containers) :
    ∃ x, moreBlocksBack ms cs = .ok x := by
  induction ms generalizing cs with
  | nil => exact ⟨_, rfl⟩
  | cons e ms ih =>
    obtain ⟨id, m⟩ := e
    obtain ⟨c, hc⟩ := h (id, m) (by simp)
    obtain ⟨⟨ps, cs'⟩, h'⟩ := ih (fun e he => h e (by simp [he])) (cs.insert (moreBlockId id) c)
    exact ⟨_, by simp only [moreBlocksBack, hc, Out.ok_bind, Out.pure_eq, h']; rfl⟩
end
end Swrs.Api
