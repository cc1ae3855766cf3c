import Verif.Model.File
import Verif.Model.Resource
import Verif.Model.Library
/-!
# The tests of the repository for file, resource and library lists, run on the model
-/
set_option maxRecDepth 100000
namespace Swrs.Conformance.Lists

/-! `parse_file_item` — tests/file_parser.rs:5 -/
example : FileItem.parse (s% "{\"fileName\":\"main\",\"fileType\":0,\"keyboardSetting\":0,\"options\":0,\"orientation\":2,\"theme\":-1}") = some ({ filename := s% "main", fileType := .activity, keyboardSetting := .unspecified, options := { toolbar := false, fullscreen := false, drawer := false, fab := false }, orientation := .both, theme := .none } : FileItem) := by decide +kernel

/-! `parse_file` — tests/file_parser.rs:30 -/
example : File.parse (s% "@activity\n{\"fileName\":\"main\",\"fileType\":0,\"keyboardSetting\":0,\"options\":0,\"orientation\":2,\"theme\":-1}\n{\"fileName\":\"deviceinfo\",\"fileType\":0,\"keyboardSetting\":0,\"options\":5,\"orientation\":2,\"theme\":-1}\n{\"fileName\":\"about\",\"fileType\":0,\"keyboardSetting\":0,\"options\":0,\"orientation\":2,\"theme\":-1}\n{\"fileName\":\"speaker_cleaner\",\"fileType\":0,\"keyboardSetting\":0,\"options\":0,\"orientation\":0,\"theme\":-1}\n{\"fileName\":\"tools\",\"fileType\":0,\"keyboardSetting\":0,\"options\":0,\"orientation\":2,\"theme\":-1}\n{\"fileName\":\"display_test\",\"fileType\":0,\"keyboardSetting\":2,\"options\":2,\"orientation\":2,\"theme\":-1}\n@customview\n{\"fileName\":\"_drawer_deviceinfo\",\"fileType\":2,\"keyboardSetting\":0,\"options\":0,\"orientation\":2,\"theme\":-1}\n{\"fileName\":\"design_3\",\"fileType\":1,\"keyboardSetting\":0,\"options\":0,\"orientation\":2,\"theme\":-1}") = .ok ({ activities := [{ filename := s% "main", fileType := .activity, keyboardSetting := .unspecified, options := { toolbar := false, fullscreen := false, drawer := false, fab := false }, orientation := .both, theme := .none }, { filename := s% "deviceinfo", fileType := .activity, keyboardSetting := .unspecified, options := { toolbar := true, fullscreen := false, drawer := true, fab := false }, orientation := .both, theme := .none }, { filename := s% "about", fileType := .activity, keyboardSetting := .unspecified, options := { toolbar := false, fullscreen := false, drawer := false, fab := false }, orientation := .both, theme := .none }, { filename := s% "speaker_cleaner", fileType := .activity, keyboardSetting := .unspecified, options := { toolbar := false, fullscreen := false, drawer := false, fab := false }, orientation := .portrait, theme := .none }, { filename := s% "tools", fileType := .activity, keyboardSetting := .unspecified, options := { toolbar := false, fullscreen := false, drawer := false, fab := false }, orientation := .both, theme := .none }, { filename := s% "display_test", fileType := .activity, keyboardSetting := .hidden, options := { toolbar := false, fullscreen := true, drawer := false, fab := false }, orientation := .both, theme := .none }], customViews := [{ filename := s% "_drawer_deviceinfo", fileType := .drawer, keyboardSetting := .unspecified, options := { toolbar := false, fullscreen := false, drawer := false, fab := false }, orientation := .both, theme := .none }, { filename := s% "design_3", fileType := .customView, keyboardSetting := .unspecified, options := { toolbar := false, fullscreen := false, drawer := false, fab := false }, orientation := .both, theme := .none }] } : File) := by decide +kernel

/-! `reconstruct_file_item` — tests/file_parser.rs:122 -/
example : FileItem.reconstruct ({ filename := s% "main", fileType := .activity, keyboardSetting := .unspecified, options := { toolbar := false, fullscreen := false, drawer := false, fab := false }, orientation := .both, theme := .none } : FileItem) = s% "{\"fileName\":\"main\",\"fileType\":0,\"keyboardSetting\":0,\"options\":0,\"orientation\":2,\"theme\":-1}" := by decide +kernel

/-! `reconstruct_file` — tests/file_parser.rs:148 -/
example : File.reconstruct ({ activities := [{ filename := s% "main", fileType := .activity, keyboardSetting := .unspecified, options := { toolbar := false, fullscreen := false, drawer := false, fab := false }, orientation := .both, theme := .none }, { filename := s% "deviceinfo", fileType := .activity, keyboardSetting := .unspecified, options := { toolbar := true, fullscreen := false, drawer := true, fab := false }, orientation := .both, theme := .none }, { filename := s% "about", fileType := .activity, keyboardSetting := .unspecified, options := { toolbar := false, fullscreen := false, drawer := false, fab := false }, orientation := .both, theme := .none }, { filename := s% "speaker_cleaner", fileType := .activity, keyboardSetting := .unspecified, options := { toolbar := false, fullscreen := false, drawer := false, fab := false }, orientation := .portrait, theme := .none }, { filename := s% "tools", fileType := .activity, keyboardSetting := .unspecified, options := { toolbar := false, fullscreen := false, drawer := false, fab := false }, orientation := .both, theme := .none }, { filename := s% "display_test", fileType := .activity, keyboardSetting := .hidden, options := { toolbar := false, fullscreen := true, drawer := false, fab := false }, orientation := .both, theme := .none }], customViews := [{ filename := s% "_drawer_deviceinfo", fileType := .drawer, keyboardSetting := .unspecified, options := { toolbar := false, fullscreen := false, drawer := false, fab := false }, orientation := .both, theme := .none }, { filename := s% "design_3", fileType := .customView, keyboardSetting := .unspecified, options := { toolbar := false, fullscreen := false, drawer := false, fab := false }, orientation := .both, theme := .none }] } : File) = s% "@activity\n{\"fileName\":\"main\",\"fileType\":0,\"keyboardSetting\":0,\"options\":0,\"orientation\":2,\"theme\":-1}\n{\"fileName\":\"deviceinfo\",\"fileType\":0,\"keyboardSetting\":0,\"options\":5,\"orientation\":2,\"theme\":-1}\n{\"fileName\":\"about\",\"fileType\":0,\"keyboardSetting\":0,\"options\":0,\"orientation\":2,\"theme\":-1}\n{\"fileName\":\"speaker_cleaner\",\"fileType\":0,\"keyboardSetting\":0,\"options\":0,\"orientation\":0,\"theme\":-1}\n{\"fileName\":\"tools\",\"fileType\":0,\"keyboardSetting\":0,\"options\":0,\"orientation\":2,\"theme\":-1}\n{\"fileName\":\"display_test\",\"fileType\":0,\"keyboardSetting\":2,\"options\":2,\"orientation\":2,\"theme\":-1}\n@customview\n{\"fileName\":\"_drawer_deviceinfo\",\"fileType\":2,\"keyboardSetting\":0,\"options\":0,\"orientation\":2,\"theme\":-1}\n{\"fileName\":\"design_3\",\"fileType\":1,\"keyboardSetting\":0,\"options\":0,\"orientation\":2,\"theme\":-1}" := by decide +kernel

/-! `parse_resource_item` — tests/resource_parser.rs:5 -/
example : ResourceItem.parse (s% "{\"resFullName\":\"my_img.png\",\"resName\":\"my_img\",\"resType\":1}") = some ({ fullName := s% "my_img.png", name := s% "my_img", type := 1 } : ResourceItem) := by decide +kernel

/-! `parse_resource` — tests/resource_parser.rs:22 -/
example : Resource.parse (s% "@images\n{\"resFullName\":\"ic_developer_mode_white.png\",\"resName\":\"ic_developer_mode_white\",\"resType\":1}\n{\"resFullName\":\"ic_info_outline_white.png\",\"resName\":\"ic_info_outline_white\",\"resType\":1}\n{\"resFullName\":\"ic_smartphone_white.png\",\"resName\":\"ic_smartphone_white\",\"resType\":1}\n@sounds\n{\"resFullName\":\"speaker_cleaner.mp3\",\"resName\":\"speaker_cleaner\",\"resType\":1}\n@fonts\n{\"resFullName\":\"font_regular.ttf\",\"resName\":\"font_regular\",\"resType\":1}\n{\"resFullName\":\"font_light.ttf\",\"resName\":\"font_light\",\"resType\":1}") = .ok ({ images := [{ fullName := s% "ic_developer_mode_white.png", name := s% "ic_developer_mode_white", type := 1 }, { fullName := s% "ic_info_outline_white.png", name := s% "ic_info_outline_white", type := 1 }, { fullName := s% "ic_smartphone_white.png", name := s% "ic_smartphone_white", type := 1 }], sounds := [{ fullName := s% "speaker_cleaner.mp3", name := s% "speaker_cleaner", type := 1 }], fonts := [{ fullName := s% "font_regular.ttf", name := s% "font_regular", type := 1 }, { fullName := s% "font_light.ttf", name := s% "font_light", type := 1 }] } : Resource) := by decide +kernel

/-! `reconstruct_resource_item` — tests/resource_parser.rs:82 -/
example : ResourceItem.reconstruct ({ fullName := s% "my_img.png", name := s% "my_img", type := 1 } : ResourceItem) = s% "{\"resFullName\":\"my_img.png\",\"resName\":\"my_img\",\"resType\":1}" := by decide +kernel

/-! `reconstruct_resource` — tests/resource_parser.rs:100 -/
example : Resource.reconstruct ({ images := [{ fullName := s% "ic_developer_mode_white.png", name := s% "ic_developer_mode_white", type := 1 }, { fullName := s% "ic_info_outline_white.png", name := s% "ic_info_outline_white", type := 1 }, { fullName := s% "ic_smartphone_white.png", name := s% "ic_smartphone_white", type := 1 }], sounds := [{ fullName := s% "speaker_cleaner.mp3", name := s% "speaker_cleaner", type := 1 }], fonts := [{ fullName := s% "font_regular.ttf", name := s% "font_regular", type := 1 }, { fullName := s% "font_light.ttf", name := s% "font_light", type := 1 }] } : Resource) = s% "@images\n{\"resFullName\":\"ic_developer_mode_white.png\",\"resName\":\"ic_developer_mode_white\",\"resType\":1}\n{\"resFullName\":\"ic_info_outline_white.png\",\"resName\":\"ic_info_outline_white\",\"resType\":1}\n{\"resFullName\":\"ic_smartphone_white.png\",\"resName\":\"ic_smartphone_white\",\"resType\":1}\n@sounds\n{\"resFullName\":\"speaker_cleaner.mp3\",\"resName\":\"speaker_cleaner\",\"resType\":1}\n@fonts\n{\"resFullName\":\"font_regular.ttf\",\"resName\":\"font_regular\",\"resType\":1}\n{\"resFullName\":\"font_light.ttf\",\"resName\":\"font_light\",\"resType\":1}" := by decide +kernel

/-! `parse_library_item` — tests/library_parser.rs:7 -/
example : LibraryItem.parse (s% "{\"adUnits\":[],\"data\":\"\",\"libType\":0,\"reserved1\":\"\",\"reserved2\":\"\",\"reserved3\":\"\",\"testDevices\":[],\"useYn\":\"N\"}") = some ({ adUnits := [], libType := 0, data := s% "", reserved1 := s% "", reserved2 := s% "", reserved3 := s% "", testDevices := [], useYn := s% "N" } : LibraryItem) := by decide +kernel

/-! `parse_library` — tests/library_parser.rs:29 -/
example : Library.parse (s% "@firebaseDB\n{\"adUnits\":[],\"data\":\"\",\"libType\":0,\"reserved1\":\"\",\"reserved2\":\"\",\"reserved3\":\"\",\"testDevices\":[],\"useYn\":\"N\"}\n@compat\n{\"adUnits\":[],\"data\":\"\",\"libType\":1,\"reserved1\":\"\",\"reserved2\":\"\",\"reserved3\":\"\",\"testDevices\":[],\"useYn\":\"Y\"}\n@admob\n{\"adUnits\":[],\"data\":\"\",\"libType\":2,\"reserved1\":\"\",\"reserved2\":\"\",\"reserved3\":\"\",\"testDevices\":[],\"useYn\":\"N\"}\n@googleMap\n{\"adUnits\":[],\"data\":\"\",\"libType\":3,\"reserved1\":\"\",\"reserved2\":\"\",\"reserved3\":\"\",\"testDevices\":[],\"useYn\":\"N\"}") = .ok ({ firebaseDb := { adUnits := [], libType := 0, data := s% "", reserved1 := s% "", reserved2 := s% "", reserved3 := s% "", testDevices := [], useYn := s% "N" }, compat := { adUnits := [], libType := 1, data := s% "", reserved1 := s% "", reserved2 := s% "", reserved3 := s% "", testDevices := [], useYn := s% "Y" }, admob := { adUnits := [], libType := 2, data := s% "", reserved1 := s% "", reserved2 := s% "", reserved3 := s% "", testDevices := [], useYn := s% "N" }, googleMap := { adUnits := [], libType := 3, data := s% "", reserved1 := s% "", reserved2 := s% "", reserved3 := s% "", testDevices := [], useYn := s% "N" } } : Library) := by decide +kernel

/-! `reconstruct_library_item` — tests/library_parser.rs:71 -/
example : LibraryItem.reconstruct ({ adUnits := [], libType := 0, data := s% "", reserved1 := s% "", reserved2 := s% "", reserved3 := s% "", testDevices := [], useYn := s% "N" } : LibraryItem) = s% "{\"adUnits\":[],\"data\":\"\",\"libType\":0,\"reserved1\":\"\",\"reserved2\":\"\",\"reserved3\":\"\",\"testDevices\":[],\"useYn\":\"N\"}" := by decide +kernel

/-! `reconstruct_library` — tests/library_parser.rs:94 -/
example : Library.reconstruct ({ firebaseDb := { adUnits := [], libType := 0, data := s% "", reserved1 := s% "", reserved2 := s% "", reserved3 := s% "", testDevices := [], useYn := s% "N" }, compat := { adUnits := [], libType := 1, data := s% "", reserved1 := s% "", reserved2 := s% "", reserved3 := s% "", testDevices := [], useYn := s% "Y" }, admob := { adUnits := [], libType := 2, data := s% "", reserved1 := s% "", reserved2 := s% "", reserved3 := s% "", testDevices := [], useYn := s% "N" }, googleMap := { adUnits := [], libType := 3, data := s% "", reserved1 := s% "", reserved2 := s% "", reserved3 := s% "", testDevices := [], useYn := s% "N" } } : Library) = s% "@firebaseDB\n{\"adUnits\":[],\"data\":\"\",\"libType\":0,\"reserved1\":\"\",\"reserved2\":\"\",\"reserved3\":\"\",\"testDevices\":[],\"useYn\":\"N\"}\n@compat\n{\"adUnits\":[],\"data\":\"\",\"libType\":1,\"reserved1\":\"\",\"reserved2\":\"\",\"reserved3\":\"\",\"testDevices\":[],\"useYn\":\"Y\"}\n@admob\n{\"adUnits\":[],\"data\":\"\",\"libType\":2,\"reserved1\":\"\",\"reserved2\":\"\",\"reserved3\":\"\",\"testDevices\":[],\"useYn\":\"N\"}\n@googleMap\n{\"adUnits\":[],\"data\":\"\",\"libType\":3,\"reserved1\":\"\",\"reserved2\":\"\",\"reserved3\":\"\",\"testDevices\":[],\"useYn\":\"N\"}" := by decide +kernel


end Swrs.Conformance.Lists
