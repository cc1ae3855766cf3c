import Verif.Model.ApiProject
import Verif.Base.StrLemmas
/-!
# C40, C41, C42: the resource store and the names of screens
-/
namespace Swrs.Api

/-! ## C40 — Resource store behaves like three maps -/
section Store
variable [MapPol]
open Resources

/-- Three maps: the file of an id in each section. -/
abbrev Tables := ResourceType → Str → Option ResourceFileWrapper

/-- The maps of a store. -/
def tables (r : Resources) : Tables
  | .image => r.images.get
  | .sound => r.sounds.get
  | .font => r.fonts.get
  | .customIcon => fun _ => none

/-- Looking in images, sounds and fonts, in this order. -/
def Tables.find (m : Tables) (id : Str) : Option (ResourceFileWrapper × ResourceType) :=
  [ResourceType.image, .sound, .font].findSome? fun t => (m t id).map fun f => (f, t)

/-- One entry of one map changed. -/
def Tables.update (m : Tables) (t : ResourceType) (id : Str) (f : Option ResourceFileWrapper) : Tables :=
  fun t' id' => if t' = t ∧ id' = id then f else m t' id'

/-- A file that is a path exists. -/
def FileThere (ex : PathBuf → Bool) (f : ResourceFileWrapper) : Prop := ∀ p, f = .path p → ex p = true

/-- A file with a declared type: a path has none. -/
def declared (t : ResourceType) : ResourceFileWrapper → ResourceFileWrapper
  | .path p => .path p
  | .stringId id n _ => .stringId id n t
  | .u32Id id n _ => .u32Id id n t

omit [MapPol] in
theorem retype_eq (t : ResourceType) (f : ResourceFileWrapper) : retype t f = declared t f := by
  cases f <;> rfl

omit [MapPol] in
theorem checkFile_ok {ex : PathBuf → Bool} {f : ResourceFileWrapper} : checkFile ex f = .ok () ↔ FileThere ex f := by
  cases f with
  | path p => simp [checkFile, FileThere]
  | stringId => simp [checkFile, FileThere]
  | u32Id => simp [checkFile, FileThere]

omit [MapPol] in
/-- C40: what is found is the first entry of the three maps. -/
theorem c40_get (r : Resources) (id : Str) : r.getResource id = (tables r).find id := by
  simp only [getResource, Tables.find, tables, List.findSome?]
  cases r.images.get id <;> cases r.sounds.get id <;> cases r.fonts.get id <;> rfl

omit [MapPol] in
/-- C40: the three listings and the search by id agree: an image is found under its id; a sound is found unless an image has the id, and a
font unless an image or a sound has it. -/
theorem c40_getters (r : Resources) (id : Str) (f : ResourceFileWrapper) :
    (r.getResource id = some (f, .image) ↔ r.getImages.get id = some f) ∧
    (r.getResource id = some (f, .sound) ↔ r.getImages.get id = none ∧ r.getSounds.get id = some f) ∧
    (r.getResource id = some (f, .font) ↔ r.getImages.get id = none ∧ r.getSounds.get id = none ∧ r.getFonts.get id = some f) ∧
    (r.getResource id = none ↔ r.getImages.get id = none ∧ r.getSounds.get id = none ∧ r.getFonts.get id = none) := by
  simp only [getResource, getImages, getSounds, getFonts]
  cases r.images.get id <;> cases r.sounds.get id <;> cases r.fonts.get id <;> simp

omit [MapPol] in
/-- C40: `remove` returns what `get` would have returned and removes that entry only. -/
theorem c40_remove (r : Resources) (id : Str) :
    (r.removeResource id).1 = r.getResource id ∧
    tables (r.removeResource id).2 = match r.getResource id with
      | some (_, t) => (tables r).update t id none
      | none => tables r := by
  simp only [getResource, removeResource]
  cases hi : r.images.get id with
  | some f =>
    refine ⟨rfl, ?_⟩
    funext t k
    cases t <;> simp [tables, Tables.update, LMap.get_erase]
  | none =>
    cases hs : r.sounds.get id with
    | some f =>
      refine ⟨rfl, ?_⟩
      funext t k
      cases t <;> simp [tables, Tables.update, LMap.get_erase]
    | none =>
      cases hf : r.fonts.get id with
      | some f =>
        refine ⟨rfl, ?_⟩
        funext t k
        cases t <;> simp [tables, Tables.update, LMap.get_erase]
      | none => exact ⟨rfl, rfl⟩

/-- C40, C41: when `put` succeeds and what it does. -/
theorem put_cases (ex : PathBuf → Bool) (r : Resources) (id : Str) (f : ResourceFileWrapper) (t : ResourceType) :
    (t = .customIcon ∧ r.putResource ex id f t = .panic) ∨
    (t ≠ .customIcon ∧ (∃ p, f = .path p ∧ ex p = false ∧ r.putResource ex id f t = .err (.fileDoesntExist p))) ∨
    (t ≠ .customIcon ∧ FileThere ex f ∧ (∃ g, r.images.get id = some g) ∧ r.putResource ex id f t = .err (.idTaken id)) ∨
    (t ≠ .customIcon ∧ FileThere ex f ∧ r.images.get id = none ∧ ∃ r', r.putResource ex id f t = .ok r' ∧
      tables r' = (tables r).update t id (some (declared t f))) := by
  rw [← retype_eq]
  by_cases ht : t = .customIcon
  · exact .inl ⟨ht, by simp [putResource, ht]⟩
  have hun : r.putResource ex id f t = (do
      let () ← checkFile ex f
      if id ∈ r.images.keys then .err (.idTaken id)
      else match t with
        | .image => pure { r with images := r.images.insert id (retype t f) }
        | .sound => pure { r with sounds := r.sounds.insert id (retype t f) }
        | .font => pure { r with fonts := r.fonts.insert id (retype t f) }
        | .customIcon => pure r) := by
    cases t <;> first | rfl | exact absurd rfl ht
  rw [hun]
  by_cases hf : FileThere ex f
  · rw [checkFile_ok.mpr hf, Out.ok_bind]
    by_cases hk : id ∈ r.images.keys
    · exact .inr (.inr (.inl ⟨ht, hf, LMap.get_isSome.mpr hk, by rw [if_pos hk]⟩))
    · refine .inr (.inr (.inr ⟨ht, hf, LMap.get_eq_none.mpr hk, ?_⟩))
      rw [if_neg hk]
      cases t with
      | customIcon => exact absurd rfl ht
      | image =>
        refine ⟨_, rfl, ?_⟩
        funext t k
        cases t <;> simp [tables, Tables.update, LMap.get_insert]
      | sound =>
        refine ⟨_, rfl, ?_⟩
        funext t k
        cases t <;> simp [tables, Tables.update, LMap.get_insert]
      | font =>
        refine ⟨_, rfl, ?_⟩
        funext t k
        cases t <;> simp [tables, Tables.update, LMap.get_insert]
  · refine .inr (.inl ⟨ht, ?_⟩)
    cases f with
    | path p =>
      have : ex p = false := by
        cases h : ex p with
        | false => rfl
        | true => exact absurd (fun q hq => by cases hq; exact h) hf
      exact ⟨p, rfl, this, by simp [checkFile, this]⟩
    | stringId => exact absurd (fun q hq => by cases hq) hf
    | u32Id => exact absurd (fun q hq => by cases hq) hf

/-- C40: a successful `put` changes one entry: the resource is in its section, with its declared type. -/
theorem c40_put (ex : PathBuf → Bool) (r r' : Resources) (id : Str) (f : ResourceFileWrapper) (t : ResourceType)
    (h : r.putResource ex id f t = .ok r') :
    t ≠ .customIcon ∧ tables r' = (tables r).update t id (some (declared t f)) := by
  rcases put_cases ex r id f t with ⟨_, h'⟩ | ⟨_, p, _, _, h'⟩ | ⟨_, _, _, h'⟩ | ⟨ht, _, _, r2, h', he⟩ <;> rw [h'] at h
  · cases h
  · cases h
  · cases h
  · cases h
    exact ⟨ht, he⟩

/-- An operation that changes a store. -/
inductive StoreOp where
  | put (id : Str) (file : ResourceFileWrapper) (t : ResourceType)
  | remove (id : Str)

/-- A store after an operation: unchanged if the operation fails. -/
def StoreOp.run (ex : PathBuf → Bool) (r : Resources) : StoreOp → Resources
  | .put id f t => match r.putResource ex id f t with
    | .ok r' => r'
    | _ => r
  | .remove id => (r.removeResource id).2

/-- The three maps after an operation: an image with the id prevents a `put`. -/
noncomputable def StoreOp.spec (ex : PathBuf → Bool) (m : Tables) : StoreOp → Tables
  | .put id f t =>
    open Classical in
    if t ≠ .customIcon ∧ FileThere ex f ∧ m .image id = none then m.update t id (some (declared t f)) else m
  | .remove id => match m.find id with
    | some (_, t) => m.update t id none
    | none => m

/-- C40: after any history of operations the store is the three maps after the same history. -/
theorem c40_history (ex : PathBuf → Bool) (r : Resources) (ops : List StoreOp) :
    tables (ops.foldl (StoreOp.run ex) r) = ops.foldl (StoreOp.spec ex) (tables r) := by
  induction ops generalizing r with
  | nil => rfl
  | cons o ops ih =>
    rw [List.foldl_cons, List.foldl_cons, ih]
    congr 1
    cases o with
    | put id f t =>
      simp only [StoreOp.run, StoreOp.spec]
      rcases put_cases ex r id f t with ⟨ht, h'⟩ | ⟨ht, p, hp, he, h'⟩ | ⟨ht, _, ⟨g, hg⟩, h'⟩ | ⟨ht, hf, hi, r2, h', he⟩ <;> rw [h']
      · simp [ht]
      · rw [if_neg]
        rintro ⟨_, hf, _⟩
        rw [hf p hp] at he
        cases he
      · rw [if_neg]
        rintro ⟨_, _, hi⟩
        have : r.images.get id = none := hi
        rw [hg] at this
        cases this
      · rw [if_pos ⟨ht, hf, hi⟩]
        exact he
    | remove id =>
      simp only [StoreOp.run, StoreOp.spec]
      rw [(c40_remove r id).2, c40_get]

/-- C40: in every history that starts empty no section has an id twice. -/
theorem c40_distinct (ex : PathBuf → Bool) (ops : List StoreOp) :
    let r := ops.foldl (StoreOp.run ex) Resources.newEmpty
    r.images.keys.Nodup ∧ r.sounds.keys.Nodup ∧ r.fonts.keys.Nodup := by
  suffices h : ∀ r : Resources, r.images.keys.Nodup ∧ r.sounds.keys.Nodup ∧ r.fonts.keys.Nodup →
      (ops.foldl (StoreOp.run ex) r).images.keys.Nodup ∧ (ops.foldl (StoreOp.run ex) r).sounds.keys.Nodup ∧
      (ops.foldl (StoreOp.run ex) r).fonts.keys.Nodup from h _ ⟨List.nodup_nil, List.nodup_nil, List.nodup_nil⟩
  induction ops with
  | nil => exact fun r h => h
  | cons o ops ih =>
    intro r h
    apply ih
    obtain ⟨h1, h2, h3⟩ := h
    cases o with
    | put id f t =>
      simp only [StoreOp.run]
      cases hp : r.putResource ex id f t with
      | panic => exact ⟨h1, h2, h3⟩
      | err e => exact ⟨h1, h2, h3⟩
      | ok r' =>
        simp only
        cases t with
        | customIcon => simp [putResource] at hp
        | image | sound | font =>
          simp only [putResource, Out.bind_eq_ok] at hp
          obtain ⟨_, _, hp⟩ := hp
          split at hp
          · cases hp
          · cases hp
            first
              | exact ⟨LMap.nodup_insert h1 _ _, h2, h3⟩
              | exact ⟨h1, LMap.nodup_insert h2 _ _, h3⟩
              | exact ⟨h1, h2, LMap.nodup_insert h3 _ _⟩
    | remove id =>
      simp only [StoreOp.run, removeResource]
      split
      · exact ⟨LMap.nodup_erase h1 _, h2, h3⟩
      · split
        · exact ⟨h1, LMap.nodup_erase h2 _, h3⟩
        · split
          · exact ⟨h1, h2, LMap.nodup_erase h3 _⟩
          · exact ⟨h1, h2, h3⟩

/-! ## C41 — A taken resource id is refused -/

/-- C41, what holds: an id is refused as taken exactly when an image has it. Missing: ids of sounds and fonts. -/
theorem c41_taken_partial (ex : PathBuf → Bool) (r : Resources) (id : Str) (f : ResourceFileWrapper) (t : ResourceType)
    (ht : t ≠ .customIcon) (hf : FileThere ex f) :
    r.putResource ex id f t = .err (.idTaken id) ↔ ∃ g, tables r .image id = some g := by
  rcases put_cases ex r id f t with ⟨h, _⟩ | ⟨_, p, hp, he, h'⟩ | ⟨_, _, h, h'⟩ | ⟨_, _, h, r2, h', _⟩
  · exact absurd h ht
  · rw [hf p hp] at he
    cases he
  · exact ⟨fun _ => h, fun _ => h'⟩
  · rw [h']
    refine ⟨fun h => (by cases h), ?_⟩
    rintro ⟨g, hg⟩
    have hg : r.images.get id = some g := hg
    rw [h] at hg
    cases hg

/-- C41: a `put` that fails leaves the store as it was. -/
theorem c41_unchanged (ex : PathBuf → Bool) (r : Resources) (id : Str) (f : ResourceFileWrapper) (t : ResourceType)
    (e : ResourceAdditionError) (h : r.putResource ex id f t = .err e) : (StoreOp.put id f t).run ex r = r := by
  simp only [StoreOp.run, h]

/-- A file that needs no path. -/
def someFile (n : UInt32) : ResourceFileWrapper := .u32Id n (s% "a.mp3") .sound

/-- C41 is false: a sound replaces another one with the same id. -/
theorem c41_taken_false : ∃ (r : Resources) (id : Str) (f : ResourceFileWrapper) (r' : Resources),
    (∃ g, r.getResource id = some (g, .sound)) ∧ r.putResource (fun _ => true) id f .sound = .ok r' ∧
    r'.getResource id ≠ r.getResource id :=
  ⟨⟨[], [(s% "a", someFile 1)], []⟩, s% "a", someFile 2, ⟨[], [(s% "a", someFile 2)], []⟩, ⟨_, rfl⟩, by
    cases h : (MapPol.insertToBack : Bool) <;>
      simp [putResource, checkFile, someFile, retype, LMap.insert, LMap.keys, h, LMap.erase, LMap.set], by
    simp [getResource, LMap.get, someFile]⟩

/-- An image is refused, a sound with another id is stored. -/
example : putResource (fun _ => true) ⟨[(s% "a", someFile 1)], [], []⟩ (s% "a") (someFile 2) .sound = .err (.idTaken (s% "a")) ∧
    putResource (fun _ => true) ⟨[(s% "a", someFile 1)], [], []⟩ (s% "b") (someFile 2) .sound =
      .ok ⟨[(s% "a", someFile 1)], [(s% "b", someFile 2)], []⟩ := by
  simp [putResource, checkFile, someFile, retype, LMap.insert, LMap.keys]

/-- `c40_put`, `c40_history` and `c40_distinct` on a history: an image and a sound with the same id, of which `remove` takes the image. -/
example : [StoreOp.put (s% "a") (someFile 1) .sound, .put (s% "a") (someFile 2) .image, .put (s% "b") (someFile 3) .customIcon,
      .remove (s% "a")].foldl (StoreOp.run fun _ => true) Resources.newEmpty = ⟨[], [(s% "a", someFile 1)], []⟩ := by
  simp [StoreOp.run, Resources.newEmpty, putResource, removeResource, checkFile, someFile, retype, LMap.insert, LMap.keys, LMap.get,
    LMap.erase]
end Store

/-! ## C42 — Layout names map to distinct activity names -/

/-- A word with its first letter in upper case. -/
def capWord : Str → Str
  | [] => []
  | c :: w => asciiUpper c :: w

theorem capitalised_word {w : Str} (h : '_' ∉ w) : capitalised false w = w := by
  induction w with
  | nil => rfl
  | cons c w ih =>
    simp only [List.mem_cons, not_or] at h
    simp only [capitalised, if_neg (Ne.symm h.1), Bool.false_eq_true, ↓reduceIte, ih h.2]

theorem capitalised_cap {w : Str} (h : '_' ∉ w) : capitalised true w = capWord w := by
  cases w with
  | nil => rfl
  | cons c w =>
    simp only [List.mem_cons, not_or] at h
    simp only [capitalised, if_neg (Ne.symm h.1), ↓reduceIte, capWord, capitalised_word h.2]

theorem capitalised_append {w s : Str} (b : Bool) : capitalised b (w ++ '_' :: s) = capitalised b w ++ capitalised true s := by
  induction w generalizing b with
  | nil => simp [capitalised]
  | cons c w ih =>
    simp only [List.cons_append, capitalised, ih]
    split
    · rfl
    · split <;> rfl

theorem capitalised_join (ws : List Str) (h : ∀ w ∈ ws, '_' ∉ w) : capitalised true (joinWith '_' ws) = ws.flatMap capWord := by
  induction ws with
  | nil => rfl
  | cons w ws ih =>
    cases ws with
    | nil => simp only [joinWith, List.flatMap_cons, List.flatMap_nil, List.append_nil]; exact capitalised_cap (h w (by simp))
    | cons v ws =>
      simp only [joinWith]
      rw [capitalised_append, ih fun w hw => h w (by simp [hw]), capitalised_cap (h w (by simp))]
      rfl

/-- C42: the name is the underscore-separated words, each with its first letter in upper case, and `Activity`. -/
theorem c42_words (s : Str) : viewNameToLogic s = (splitOn '_' s).flatMap capWord ++ s% "Activity" := by
  rw [viewNameToLogic]
  congr 1
  conv => lhs; rw [← joinWith_splitOn '_' s]
  exact capitalised_join _ fun w hw => splitOn_not_mem hw

theorem charToNat_ofNat {n : Nat} (h : n < 55296) : (Char.ofNat n).toNat = n := by
  have hv : n.isValidChar := .inl h
  simp only [Char.ofNat, hv, ↓reduceDIte]
  rfl

theorem asciiUpper_ne {c : Char} (h : c ≠ '_') : asciiUpper c ≠ '_' := by
  unfold asciiUpper
  split
  · rename_i hc
    intro he
    have h1 : 97 ≤ c.toNat := hc.1
    have h2 : c.toNat ≤ 122 := hc.2
    have he := congrArg Char.toNat he
    rw [charToNat_ofNat (by omega)] at he
    have : ('_' : Char).toNat = 95 := rfl
    omega
  · exact h

/-- C42: there is no underscore in the name, and it ends in `Activity`. -/
theorem c42_shape (s : Str) : '_' ∉ viewNameToLogic s ∧ ∃ t, viewNameToLogic s = t ++ s% "Activity" := by
  refine ⟨?_, _, rfl⟩
  rw [c42_words]
  simp only [List.mem_append, List.mem_flatMap, not_or, not_exists, not_and]
  refine ⟨?_, by decide⟩
  intro w hw
  have h := splitOn_not_mem hw
  cases w with
  | nil => simp [capWord]
  | cons c w =>
    simp only [List.mem_cons, not_or] at h
    simp only [capWord, List.mem_cons, not_or]
    exact ⟨Ne.symm (asciiUpper_ne (Ne.symm h.1)), h.2⟩

/-- A lower-case letter of ASCII. -/
def isLower (c : Char) : Prop := 'a' ≤ c ∧ c ≤ 'z'
/-- An upper-case letter of ASCII. -/
def isUpper (c : Char) : Prop := 'A' ≤ c ∧ c ≤ 'Z'

/-- A name of words that start with a lower-case letter and have no upper-case letter. -/
def PlainName (s : Str) : Prop := ∀ w ∈ splitOn '_' s, ∃ c t, w = c :: t ∧ isLower c ∧ ∀ d ∈ t, ¬ isUpper d

theorem upper_lower {c : Char} (h : isLower c) : isUpper (asciiUpper c) ∧ (asciiUpper c).toNat + 32 = c.toNat := by
  have h1 : 97 ≤ c.toNat := h.1
  have h2 : c.toNat ≤ 122 := h.2
  have he : (asciiUpper c).toNat = c.toNat - 32 := by
    rw [asciiUpper, if_pos (show 'a' ≤ c ∧ c ≤ 'z' from h), charToNat_ofNat (by omega)]
  refine ⟨⟨?_, ?_⟩, by omega⟩
  · show 65 ≤ (asciiUpper c).toNat
    omega
  · show (asciiUpper c).toNat ≤ 90
    omega

theorem upper_inj {c d : Char} (hc : isLower c) (hd : isLower d) (h : asciiUpper c = asciiUpper d) : c = d := by
  have h1 := (upper_lower hc).2
  have h2 := (upper_lower hd).2
  rw [h] at h1
  exact Char.toNat_inj.mp (by omega)

/-- Texts without upper-case letters before an upper-case letter or the end are the same. -/
theorem no_upper_split {a b x y : Str} (ha : ∀ d ∈ a, ¬ isUpper d) (hb : ∀ d ∈ b, ¬ isUpper d)
    (hx : x = [] ∨ ∃ c t, x = c :: t ∧ isUpper c) (hy : y = [] ∨ ∃ c t, y = c :: t ∧ isUpper c) (h : a ++ x = b ++ y) :
    a = b ∧ x = y := by
  induction a generalizing b with
  | nil =>
    cases b with
    | nil => exact ⟨rfl, h⟩
    | cons d b =>
      rcases hx with rfl | ⟨c, t, rfl, hc⟩
      · simp at h
      · simp only [List.nil_append, List.cons_append, List.cons.injEq] at h
        exact absurd (h.1 ▸ hc) (hb d (by simp))
  | cons e a ih =>
    cases b with
    | nil =>
      rcases hy with rfl | ⟨c, t, rfl, hc⟩
      · simp at h
      · simp only [List.nil_append, List.cons_append, List.cons.injEq] at h
        exact absurd (h.1 ▸ hc) (ha e (by simp))
    | cons d b =>
      simp only [List.cons_append, List.cons.injEq] at h
      obtain ⟨h1, h2⟩ := ih (fun d hd => ha d (by simp [hd])) (fun d hd => hb d (by simp [hd])) h.2
      exact ⟨by rw [h.1, h1], h2⟩

theorem words_start {ws : List Str} (h : ∀ w ∈ ws, ∃ c t, w = c :: t ∧ isLower c ∧ ∀ d ∈ t, ¬ isUpper d) :
    ws.flatMap capWord = [] ∨ ∃ c t, ws.flatMap capWord = c :: t ∧ isUpper c := by
  cases ws with
  | nil => exact .inl rfl
  | cons w ws =>
    obtain ⟨c, t, rfl, hc, _⟩ := h w (by simp)
    exact .inr ⟨asciiUpper c, t ++ ws.flatMap capWord, by simp [capWord], (upper_lower hc).1⟩

theorem words_inj {ws vs : List Str} (h : ∀ w ∈ ws, ∃ c t, w = c :: t ∧ isLower c ∧ ∀ d ∈ t, ¬ isUpper d)
    (h' : ∀ w ∈ vs, ∃ c t, w = c :: t ∧ isLower c ∧ ∀ d ∈ t, ¬ isUpper d) (he : ws.flatMap capWord = vs.flatMap capWord) : ws = vs := by
  induction ws generalizing vs with
  | nil =>
    cases vs with
    | nil => rfl
    | cons v vs =>
      obtain ⟨c, t, rfl, _⟩ := h' v (by simp)
      simp [capWord] at he
  | cons w ws ih =>
    obtain ⟨c, t, rfl, hc, ht⟩ := h w (by simp)
    cases vs with
    | nil => simp [capWord] at he
    | cons v vs =>
      obtain ⟨d, u, rfl, hd, hu⟩ := h' v (by simp)
      simp only [List.flatMap_cons, capWord, List.cons_append, List.cons.injEq] at he
      obtain ⟨h1, h2⟩ := no_upper_split ht hu (words_start fun w hw => h w (by simp [hw])) (words_start fun w hw => h' w (by simp [hw])) he.2
      rw [upper_inj hc hd he.1, h1, ih (fun w hw => h w (by simp [hw])) (fun w hw => h' w (by simp [hw])) h2]

/-- C42, what holds: the mapping is injective on names of words that start with a lower-case letter and have no
upper-case letter. Missing: other names, for which `c42_canonical` in Props/ActivityNames says when they are confused. -/
theorem c42_injective_partial (s t : Str) (hs : PlainName s) (ht : PlainName t) (h : viewNameToLogic s = viewNameToLogic t) : s = t := by
  rw [c42_words, c42_words] at h
  have := words_inj hs ht (List.append_cancel_right h)
  rw [← joinWith_splitOn '_' s, ← joinWith_splitOn '_' t, this]

/-- C42 is false: an upper-case letter, a digit and a repeated underscore make names equal. -/
theorem c42_injective_false : ∃ s t : Str, s ≠ t ∧ viewNameToLogic s = viewNameToLogic t := ⟨s% "a_1", s% "a1", by decide, by decide⟩

example : viewNameToLogic (s% "debug_screen") = s% "DebugScreenActivity" ∧ PlainName (s% "debug_screen") := by
  refine ⟨by decide, ?_⟩
  have : splitOn '_' (s% "debug_screen") = [s% "debug", s% "screen"] := by decide
  rw [PlainName, this]
  simp only [List.mem_cons, List.not_mem_nil, or_false, forall_eq_or_imp, forall_eq]
  exact ⟨⟨_, _, rfl, by simp [isLower], by simp [isUpper]⟩, ⟨_, _, rfl, by simp [isLower], by simp [isUpper]⟩⟩
end Swrs.Api
