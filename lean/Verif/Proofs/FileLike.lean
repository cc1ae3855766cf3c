import Verif.Proofs.Lines
import Verif.Model.Resource
import Verif.Model.File
import Verif.Model.Library
/-! Records and line-oriented files: resource, file and library. -/
namespace Swrs

/-! ### records -/
namespace ResourceItem

theorem dec_enc (i : ResourceItem) : dec i.enc = some i := by
  have h : Json.asStruct fields i.enc = some [(s% "resFullName", .str i.fullName), (s% "resName", .str i.name),
    (s% "resType", Json.encU8 i.type)] := Json.asStruct_sublist (by decide) (by simp [fields])
  simp [dec, h, Json.req, Json.get]

theorem valid_enc (i : ResourceItem) : i.enc.Valid := by
  simp [enc, Json.Valid, Json.ValidObj]
theorem parse_reconstruct (i : ResourceItem) : parse i.reconstruct = some i :=
  Json.fromStr_print i.valid_enc i.dec_enc
theorem jline (i : ResourceItem) : JLine i.reconstruct := jline_obj i.valid_enc

end ResourceItem

theorem decRepr_enc {α : Type} {lo hi : Int} {all : List α} {num : α → Int} {a : α}
    (h1 : lo ≤ num a) (h2 : num a ≤ hi) (h3 : all.find? (fun b => num b == num a) = some a) :
    decRepr lo hi all num (Json.encInt (num a)) = some a := by
  simp [decRepr, Json.decInt_encInt h1 h2, h3]

namespace ActivityOptions
theorem fromNum_asNum (o : ActivityOptions) : fromNum o.asNum = o := by
  obtain ⟨a, b, c, d⟩ := o
  revert a b c d; decide
end ActivityOptions

namespace FileItem

theorem dec_enc (i : FileItem) : dec i.enc = some i := by
  have h : Json.asStruct fields i.enc = some [(s% "fileName", .str i.filename),
    (s% "fileType", Json.encInt i.fileType.num),
    (s% "keyboardSetting", Json.encInt i.keyboardSetting.num),
    (s% "options", Json.encU8 i.options.asNum),
    (s% "orientation", Json.encInt i.orientation.num), (s% "theme", Json.encInt i.theme.num)] :=
    Json.asStruct_sublist (by decide) (by simp [fields])
  have h1 : decRepr 0 255 FileType.all FileType.num (Json.encInt i.fileType.num) = some i.fileType := by
    apply decRepr_enc <;> cases i.fileType <;> decide
  have h2 : decRepr 0 255 KeyboardSetting.all KeyboardSetting.num (Json.encInt i.keyboardSetting.num)
      = some i.keyboardSetting := by
    apply decRepr_enc <;> cases i.keyboardSetting <;> decide
  have h3 : decRepr 0 255 Orientation.all Orientation.num (Json.encInt i.orientation.num)
      = some i.orientation := by
    apply decRepr_enc <;> cases i.orientation <;> decide
  have h4 : decRepr (-128) 127 Theme.all Theme.num (Json.encInt i.theme.num) = some i.theme := by
    apply decRepr_enc <;> cases i.theme <;> decide
  simp [dec, h, Json.req, Json.get, h1, h2, h3, h4, ActivityOptions.fromNum_asNum]

theorem valid_enc (i : FileItem) : i.enc.Valid := by
  simp [enc, Json.Valid, Json.ValidObj]
theorem parse_reconstruct (i : FileItem) : parse i.reconstruct = some i :=
  Json.fromStr_print i.valid_enc i.dec_enc
theorem jline (i : FileItem) : JLine i.reconstruct := jline_obj i.valid_enc

end FileItem

namespace AdUnit
theorem dec_enc (u : AdUnit) : dec u.enc = some u := by
  have h : Json.asStruct fields u.enc = some [(s% "id", .str u.id), (s% "name", .str u.name)] :=
    Json.asStruct_sublist (by decide) (by simp [fields])
  simp [dec, h, Json.req, Json.get]
theorem valid_enc (u : AdUnit) : u.enc.Valid := by simp [enc, Json.Valid, Json.ValidObj]

end AdUnit

namespace LibraryItem
theorem dec_enc (i : LibraryItem) : dec i.enc = some i := by
  have h : Json.asStruct fields i.enc = some [(s% "adUnits", .arr (i.adUnits.map AdUnit.enc)),
    (s% "data", .str i.data),
    (s% "libType", Json.encU8 i.libType), (s% "reserved1", .str i.reserved1),
    (s% "reserved2", .str i.reserved2), (s% "reserved3", .str i.reserved3),
    (s% "testDevices", .arr (i.testDevices.map Json.str)), (s% "useYn", .str i.useYn)] :=
    Json.asStruct_sublist (by decide) (by simp [fields])
  have h1 : Json.decAll AdUnit.dec (i.adUnits.map AdUnit.enc) = some i.adUnits :=
    Json.decAll_map _ fun u _ => u.dec_enc
  have h2 : Json.decAll Json.decStr (i.testDevices.map Json.str) = some i.testDevices :=
    Json.decAll_map _ fun u _ => rfl
  simp [dec, h, Json.req, Json.get, Json.decVec, h1, h2]

theorem valid_enc (i : LibraryItem) : i.enc.Valid := by
  have h1 := Json.validArr_map (enc := AdUnit.enc) i.adUnits fun u _ => u.valid_enc
  have h2 := Json.validArr_map (enc := Json.str) i.testDevices fun u _ => Json.valid_str u
  simp [enc, Json.Valid, Json.ValidObj, h1, h2]
theorem parse_reconstruct (i : LibraryItem) : parse i.reconstruct = some i :=
  Json.fromStr_print i.valid_enc i.dec_enc
theorem jline (i : LibraryItem) : JLine i.reconstruct := jline_obj i.valid_enc
end LibraryItem

/-! ### Resource -/
namespace Resource

/-- Push several items. -/
def pushAll (r : Resource) (sec : ResourceSection) (is : List ResourceItem) : Resource :=
  is.foldl (fun r i => r.push sec i) r

theorem loop_items (is : List ResourceItem) (rest : List Str) (sec : ResourceSection) (hs : sec ≠ .none)
    (r : Resource) (n : Nat) :
    loop (is.map ResourceItem.reconstruct ++ rest) sec r n = loop rest sec (r.pushAll sec is) (n + is.length) := by
  induction is generalizing r n with
  | nil => simp [pushAll]
  | cons i is ih =>
    have j := i.jline
    have n1 : i.reconstruct ≠ s% "@images" := j.ne_of_head (c := '@') (by rfl) (by decide)
    have n2 : i.reconstruct ≠ s% "@sounds" := j.ne_of_head (c := '@') (by rfl) (by decide)
    have n3 : i.reconstruct ≠ s% "@fonts" := j.ne_of_head (c := '@') (by rfl) (by decide)
    simp only [List.map_cons, List.cons_append, loop, n1, n2, n3, if_false, if_pos hs, j.ne_nil,
      ResourceItem.parse_reconstruct]
    rw [ih]
    simp only [pushAll, List.foldl_cons, List.length_cons]
    congr 1; omega

theorem pushAll_images (r : Resource) (is : List ResourceItem) :
    r.pushAll .images is = { r with images := r.images ++ is } := by
  induction is generalizing r with
  | nil => simp [pushAll]
  | cons i is ih =>
    simp only [pushAll, List.foldl_cons] at ih ⊢
    rw [ih]; simp [push]
theorem pushAll_sounds (r : Resource) (is : List ResourceItem) :
    r.pushAll .sounds is = { r with sounds := r.sounds ++ is } := by
  induction is generalizing r with
  | nil => simp [pushAll]
  | cons i is ih =>
    simp only [pushAll, List.foldl_cons] at ih ⊢
    rw [ih]; simp [push]
theorem pushAll_fonts (r : Resource) (is : List ResourceItem) :
    r.pushAll .fonts is = { r with fonts := r.fonts ++ is } := by
  induction is generalizing r with
  | nil => simp [pushAll]
  | cons i is ih =>
    simp only [pushAll, List.foldl_cons] at ih ⊢
    rw [ih]; simp [push]

theorem section_eq (is : List ResourceItem) : section_ is = unlines (is.map ResourceItem.reconstruct) := by
  unfold section_; rw [foldl_unlines]; simp

theorem jlines (is : List ResourceItem) : ∀ p ∈ is.map ResourceItem.reconstruct, JLine p := by
  intro p hp
  obtain ⟨i, _, rfl⟩ := List.mem_map.mp hp
  exact i.jline

/-- Lines of a reconstructed resource list. -/
theorem lines_reconstruct (r : Resource) : lines r.reconstruct =
    [s% "@images"] ++ r.images.map ResourceItem.reconstruct ++ [s% "@sounds"] ++
      r.sounds.map ResourceItem.reconstruct ++ [s% "@fonts"] ++
      (if r.fonts = [] then [[]] else r.fonts.map ResourceItem.reconstruct) := by
  have e : r.reconstruct = unlines ([s% "@images"] ++ r.images.map ResourceItem.reconstruct ++
      [s% "@sounds"] ++ r.sounds.map ResourceItem.reconstruct ++ [s% "@fonts"]) ++
      joinWith '\n' (r.fonts.map ResourceItem.reconstruct) := by
    simp [reconstruct, section_eq, unlines_append, trim_unlines (jlines r.fonts)]
  rw [e, lines_unlines]
  · congr 1
    split
    next h => simp [h, joinWith, splitOn]
    next h =>
      exact splitOn_joinWith (by simpa using h) fun p hp => (jlines _ p hp).noNl
  · intro p hp
    simp only [List.mem_append, List.mem_singleton] at hp
    rcases hp with (((rfl | hp) | rfl) | hp) | rfl
    · decide
    · exact (jlines _ p hp).noNl
    · decide
    · exact (jlines _ p hp).noNl
    · decide
theorem parse_reconstruct (r : Resource) : parse r.reconstruct = .ok r := by
  unfold parse
  rw [lines_reconstruct]
  simp only [List.append_assoc, List.cons_append, List.nil_append, loop, if_true]
  rw [loop_items _ _ _ (by decide)]
  simp only [loop, if_true]
  rw [if_neg (by decide), loop_items _ _ _ (by decide)]
  simp only [loop, if_true]
  rw [if_neg (by decide), if_neg (by decide)]
  split
  next h =>
    rw [pushAll_images, pushAll_sounds]
    cases r; simp_all [loop]
  next h =>
    have := loop_items r.fonts [] .fonts (by decide)
    simp only [List.append_nil] at this
    rw [this, pushAll_images, pushAll_sounds, pushAll_fonts]
    cases r; simp [loop]

end Resource

/-! ### File -/
namespace File

/-- Push several items. -/
def pushAll (f : File) (sec : FileSection) (is : List FileItem) : File :=
  is.foldl (fun f i => f.push sec i) f

theorem loop_items (is : List FileItem) (rest : List Str) (sec : FileSection) (hs : sec ≠ .none)
    (f : File) (n : Nat) :
    loop (is.map FileItem.reconstruct ++ rest) sec f n = loop rest sec (f.pushAll sec is) (n + is.length) := by
  induction is generalizing f n with
  | nil => simp [pushAll]
  | cons i is ih =>
    have j := i.jline
    have n1 : i.reconstruct ≠ s% "@activity" := j.ne_of_head (c := '@') (by rfl) (by decide)
    have n2 : i.reconstruct ≠ s% "@customview" := j.ne_of_head (c := '@') (by rfl) (by decide)
    simp only [List.map_cons, List.cons_append, loop, n1, n2, if_false, if_pos hs, j.ne_nil,
      FileItem.parse_reconstruct]
    rw [ih]
    simp only [pushAll, List.foldl_cons, List.length_cons]
    congr 1; omega

theorem pushAll_activity (f : File) (is : List FileItem) :
    f.pushAll .activity is = { f with activities := f.activities ++ is } := by
  induction is generalizing f with
  | nil => simp [pushAll]
  | cons i is ih =>
    simp only [pushAll, List.foldl_cons] at ih ⊢
    rw [ih]; simp [push]
theorem pushAll_customView (f : File) (is : List FileItem) :
    f.pushAll .customView is = { f with customViews := f.customViews ++ is } := by
  induction is generalizing f with
  | nil => simp [pushAll]
  | cons i is ih =>
    simp only [pushAll, List.foldl_cons] at ih ⊢
    rw [ih]; simp [push]

theorem jlines (is : List FileItem) : ∀ p ∈ is.map FileItem.reconstruct, JLine p := by
  intro p hp
  obtain ⟨i, _, rfl⟩ := List.mem_map.mp hp
  exact i.jline

theorem section_eq (is : List FileItem) :
    trim (section_ is) = joinWith '\n' (is.map FileItem.reconstruct) := by
  unfold section_; rw [foldl_nl]; simpa using trim_flatMap_nl (jlines is)

/-- The lines of a section: one empty line when it has no item. -/
def sectionLines (is : List FileItem) : List Str :=
  if is = [] then [[]] else is.map FileItem.reconstruct

theorem lines_section (is : List FileItem) : lines (joinWith '\n' (is.map FileItem.reconstruct)) = sectionLines is := by
  unfold sectionLines
  split
  next h => simp [h, joinWith, splitOn]
  next h => exact splitOn_joinWith (by simpa using h) fun p hp => (jlines _ p hp).noNl

theorem lines_section_append (is : List FileItem) (rest : Str) :
    lines (joinWith '\n' (is.map FileItem.reconstruct) ++ '\n' :: rest) = sectionLines is ++ lines rest := by
  unfold sectionLines
  split
  next h => simp [h, joinWith, splitOn]
  next h => exact lines_joinWith_append (by simpa using h) (fun p hp => (jlines _ p hp).noNl) rest

theorem lines_reconstruct (f : File) : lines f.reconstruct =
    s% "@activity" :: (sectionLines f.activities ++ s% "@customview" :: sectionLines f.customViews) := by
  have e : f.reconstruct = s% "@activity" ++ '\n' :: (joinWith '\n' (f.activities.map FileItem.reconstruct) ++
      '\n' :: (s% "@customview" ++ '\n' :: joinWith '\n' (f.customViews.map FileItem.reconstruct))) := by
    simp [reconstruct, section_eq]
  rw [e, lines, splitOn_append_sep (by decide)]
  have h := lines_section_append f.activities
    (s% "@customview" ++ '\n' :: joinWith '\n' (f.customViews.map FileItem.reconstruct))
  simp only [lines] at h
  rw [h, splitOn_append_sep (by decide)]
  have h2 := lines_section f.customViews
  simp only [lines] at h2
  rw [h2]
theorem parse_reconstruct_nil (f : File) (h : f.activities = []) :
    parse f.reconstruct = .ok { activities := [], customViews := [] } := by
  unfold parse
  rw [lines_reconstruct]
  simp [sectionLines, h, loop]
theorem parse_reconstruct (f : File) (h : f.activities ≠ []) : parse f.reconstruct = .ok f := by
  unfold parse
  rw [lines_reconstruct]
  simp only [loop, if_true]
  rw [sectionLines, if_neg h, loop_items _ _ _ (by decide)]
  simp only [loop, if_true]
  rw [if_neg (by decide), pushAll_activity]
  unfold sectionLines
  split
  next h2 => cases f; simp_all [loop]
  next h2 =>
    have := loop_items f.customViews [] .customView (by decide)
    simp only [List.append_nil] at this
    rw [this, pushAll_customView]
    cases f; simp [loop]

end File
end Swrs
