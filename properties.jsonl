{"id": "C01", "title": "Encrypt then decrypt is the identity", "statement": "For every byte string d, decrypt_sw_encrypted(encrypt_sw(d)) returns Ok(d).", "quantifier": "all byte strings of every length", "why_tests_cant": "Ranges over unboundedly many inputs; a test fixes finitely many of them. Padding bugs typically show only at particular lengths or trailing bytes.", "anchors": ["src/lib.rs: encrypt_sw, decrypt_sw_encrypted"]}
{"id": "C02", "title": "Ciphertext length", "statement": "For every byte string d, encrypt_sw(d) has length 16*(len(d)/16 + 1): always a positive multiple of 16 and strictly longer than d.", "quantifier": "all byte strings", "why_tests_cant": "Ranges over unboundedly many inputs; a test fixes finitely many of them.", "anchors": ["src/lib.rs: encrypt_sw"]}
{"id": "C03", "title": "Decryption is total and rejects malformed lengths", "statement": "decrypt_sw_encrypted never panics; an input whose length is 0 or not a multiple of 16 yields a DecryptionError; a success returns strictly fewer bytes than the input (at least 1, at most 255 fewer).", "quantifier": "all byte strings", "why_tests_cant": "Ranges over unboundedly many inputs; a test fixes finitely many of them.", "anchors": ["src/lib.rs: decrypt_sw_encrypted, CryptoError"]}
{"id": "C04", "title": "Encryption loses no information", "statement": "Two different byte strings never encrypt to the same ciphertext.", "quantifier": "all pairs of byte strings", "why_tests_cant": "A statement about all pairs of inputs.", "anchors": ["src/lib.rs: encrypt_sw"]}
{"id": "C05", "title": "Encrypting a file", "statement": "If encrypt_sw_file_to_file(f, out) succeeds then decrypt_sw_file(target) returns the bytes f had before, where target is out, or f when out is None; every other file is unchanged. If f cannot be read the call reports an IO error and changes no file.", "quantifier": "all file-system states, all paths, both forms of out", "why_tests_cant": "Quantifies over every file-system state.", "anchors": ["src/lib.rs: encrypt_sw_file_to_file, decrypt_sw_file, encrypt_sw_file"]}
{"id": "C06", "title": "Encrypting a file never destroys the source on a crash", "statement": "If the process dies at any point during encrypt_sw_file_to_file, the bytes of the source file (as plaintext, or as their complete ciphertext when encrypting in place) can still be recovered from disk.", "quantifier": "all crash points between the file-system operations, all file contents", "why_tests_cant": "Crash points cannot be enumerated by unit tests.", "anchors": ["src/lib.rs: encrypt_sw_file_to_file"]}
{"id": "C07", "title": "Loading an encrypted project yields exactly the six texts", "statement": "RawSketchwareProject::from_encrypted(_wo_res) on the encryptions of six UTF-8 texts returns Ok with exactly those texts in the matching fields and the resource list passed; it fails iff some file fails to decrypt or is not UTF-8, reporting the first such file in the order project, file, library, resource, view, logic.", "quantifier": "all six-tuples of byte strings", "why_tests_cant": "Ranges over unboundedly many inputs; a test fixes finitely many of them.", "anchors": ["src/parser/mod.rs: RawSketchwareProject::from_encrypted, from_encrypted_wo_res"]}
{"id": "C08", "title": "Colour channels", "statement": "from_argb(a,r,g,b) and from_rgb(r,g,b) followed by alpha/red/green/blue/rgb give back exactly the channels (alpha 0xff for from_rgb), and every colour equals from_argb of its own channels.", "quantifier": "all channel values and all 32-bit colours", "why_tests_cant": "2^32 colours; the masks in the code are 9 bits wide so correctness is not evident.", "anchors": ["src/color.rs: Color"]}
{"id": "C09", "title": "Hex colours", "statement": "parse_hex of the 8 hex digits printed for a colour returns that colour; parse_hex of any 6 hex digits returns the opaque colour with these channels; parse_hex accepts a text iff (after prefixing ff to a 6-byte text) it is an optional '+' and hex digits of value below 2^32, otherwise it returns an error and never panics.", "quantifier": "all 32-bit colours and all strings", "why_tests_cant": "Ranges over unboundedly many inputs; a test fixes finitely many of them.", "anchors": ["src/color.rs: Color::parse_hex, Display"]}
{"id": "C10", "title": "Colours survive JSON", "statement": "Writing any colour as JSON and reading it back gives the same colour; reading any JSON integer n gives the colour whose bits are n clamped to the signed 32-bit range, so the unsigned form of an ARGB value is not accepted as the same colour.", "quantifier": "all 32-bit colours, all JSON integers", "why_tests_cant": "Ranges over unboundedly many inputs; a test fixes finitely many of them.", "anchors": ["src/color.rs: Serialize, Deserialize"]}
{"id": "C11", "title": "Block categories and colours", "statement": "category() of a block made with category c is c; a colour has a category iff its red, green, blue are one of the nine palette entries, whatever its alpha.", "quantifier": "all categories and all 32-bit colours", "why_tests_cant": "All 2^32 colours.", "anchors": ["src/api/block.rs: BlockCategory, Block::category"]}
{"id": "C12", "title": "Records survive text form and stay on one line", "statement": "For every resource item, file item, library item, component, event and logic block, with arbitrary Unicode strings in every text field, reconstruct succeeds, the text contains no line break, and parse of that text returns an equal record.", "quantifier": "all records, all Unicode strings in every field (quotes, backslashes, control characters, newlines)", "why_tests_cant": "Ranges over unboundedly many inputs; a test fixes finitely many of them. The file formats are line based, so a single unescaped line break would corrupt a whole project.", "anchors": ["src/parser/resource.rs: ResourceItem", "src/parser/file.rs: FileItem", "src/parser/library.rs: LibraryItem", "src/parser/logic.rs: Component, Event, Block"]}
{"id": "C13", "title": "Record parsing is insensitive to key order, unknown keys and whitespace, and rejects missing or repeated keys", "statement": "Parsing a JSON record depends only on the value of each declared key: permuting the keys, adding unknown keys or JSON whitespace does not change the result; a missing required key or a repeated declared key is an error.", "quantifier": "all JSON objects", "why_tests_cant": "Ranges over unboundedly many inputs; a test fixes finitely many of them.", "anchors": ["src/parser/resource.rs: ResourceItem::parse", "src/parser/logic.rs: Block::parse"]}
{"id": "C14", "title": "Creation date survives", "statement": "Writing the project creation time (seconds since the epoch) in Sketchware's date format and reading it back gives the same time.", "quantifier": "all timestamps", "why_tests_cant": "Unbounded calendar arithmetic; failures depend on the digits of month, day, hour, minute and second.", "anchors": ["src/parser/serde_util.rs: date_to_timestamp"]}
{"id": "C15", "title": "Project file round trip", "statement": "Project::parse(p.reconstruct()) returns p for every project p.", "quantifier": "all projects, all Unicode strings in every field, all timestamps", "why_tests_cant": "Ranges over unboundedly many inputs; a test fixes finitely many of them.", "anchors": ["src/parser/project.rs: Project"]}
{"id": "C16", "title": "Activity options bit mask", "statement": "from_num(o.as_num()) = o for every option set, and from_num(n).as_num() keeps exactly the low four bits of n.", "quantifier": "all option sets and all u8 values", "why_tests_cant": "Exhaustive statement over both directions.", "anchors": ["src/parser/file.rs: ActivityOptions"]}
{"id": "C17", "title": "File list round trip", "statement": "File::parse(f.reconstruct()) returns f: every activity and custom view comes back, in order.", "quantifier": "all lists of activities and custom views of every length", "why_tests_cant": "Ranges over unboundedly many inputs; a test fixes finitely many of them. The failing case depends on which list is empty.", "anchors": ["src/parser/file.rs: File"]}
{"id": "C18", "title": "Resource list round trip", "statement": "Resource::parse(r.reconstruct()) returns r: every image, sound and font comes back in its section, in order.", "quantifier": "all resource lists of every length", "why_tests_cant": "Ranges over unboundedly many inputs; a test fixes finitely many of them.", "anchors": ["src/parser/resource.rs: Resource"]}
{"id": "C19", "title": "Library round trip", "statement": "Library::parse(l.reconstruct()) returns l for every library configuration.", "quantifier": "all library configurations", "why_tests_cant": "Ranges over unboundedly many inputs; a test fixes finitely many of them.", "anchors": ["src/parser/library.rs: Library"]}
{"id": "C20", "title": "Library sections may come in any order and must all be present", "statement": "Library::parse finds the four sections in any order, ignores lines that are not one of the four headers, uses the last occurrence of a repeated section, and fails if and only if an item is malformed, a header is the last line, or one of the four is missing.", "quantifier": "all texts", "why_tests_cant": "Ranges over unboundedly many inputs; a test fixes finitely many of them.", "anchors": ["src/parser/library.rs: Library::parse"]}
{"id": "C21", "title": "View record round trip", "statement": "AndroidView::parse(v.reconstruct()) returns v, on one line, for every view whose float fields are finite; a view with a non-finite float reconstructs to a text that does not parse.", "quantifier": "all views, all Unicode strings and all numbers in every field", "why_tests_cant": "Ranges over unboundedly many inputs; a test fixes finitely many of them.", "anchors": ["src/parser/view.rs: AndroidView, models"]}
{"id": "C22", "title": "View file round trip", "statement": "View::parse(v.reconstruct()) returns v: every layout with all its views, in order, and every FAB comes back.", "quantifier": "all maps of layouts and FABs, of every size", "why_tests_cant": "Ranges over unboundedly many inputs; a test fixes finitely many of them. The failing cases need two layouts or an empty layout.", "anchors": ["src/parser/view.rs: View, Layout"]}
{"id": "C23", "title": "Variable record round trip", "statement": "Variable::parse(v.reconstruct()) returns v, and the same for list variables, whatever characters the name contains; parse accepts exactly the texts <number 0..3>:<name>.", "quantifier": "all variables with arbitrary names; all strings", "why_tests_cant": "Ranges over unboundedly many inputs; a test fixes finitely many of them.", "anchors": ["src/parser/logic.rs: Variable, ListVariable"]}
{"id": "C24", "title": "Variable pools round trip", "statement": "Parsing a reconstructed variable pool or list variable pool returns the same variables in the same order.", "quantifier": "all pools of every size", "why_tests_cant": "Ranges over unboundedly many inputs; a test fixes finitely many of them.", "anchors": ["src/parser/logic.rs: VariablePool, ListVariablePool"]}
{"id": "C25", "title": "Moreblock declarations round trip", "statement": "Parsing a reconstructed moreblock pool returns the same moreblock declarations in the same order.", "quantifier": "all pools of every size, arbitrary ids and specs", "why_tests_cant": "Ranges over unboundedly many inputs; a test fixes finitely many of them.", "anchors": ["src/parser/logic.rs: MoreBlock, MoreBlockPool"]}
{"id": "C26", "title": "Component, event and block pools round trip", "statement": "Parsing a reconstructed component pool, event pool or block container returns the same list, in order, whatever strings it contains.", "quantifier": "all pools of every length", "why_tests_cant": "Ranges over unboundedly many inputs; a test fixes finitely many of them.", "anchors": ["src/parser/logic.rs: ComponentPool, EventPool, BlockContainer"]}
{"id": "C27", "title": "Block container header round trip", "statement": "Parsing a reconstructed block container header returns the same screen and container name.", "quantifier": "all pairs of names", "why_tests_cant": "Ranges over unboundedly many inputs; a test fixes finitely many of them. Names containing the separator are the failing case.", "anchors": ["src/parser/logic.rs: BlockContainerHeader"]}
{"id": "C28", "title": "Logic file round trip", "statement": "Logic::parse(l.reconstruct()) returns l: each screen keeps its variables, lists, components, events, moreblocks and all block containers.", "quantifier": "all logics: any number of screens, each with any combination of pools and any number of containers", "why_tests_cant": "Ranges over unboundedly many inputs; a test fixes finitely many of them. The loss depends on the combination of several screens.", "anchors": ["src/parser/logic.rs: Logic"]}
{"id": "C29", "title": "Logic parsing never panics", "statement": "Logic::parse returns Ok or Err for every text.", "quantifier": "all strings", "why_tests_cant": "All strings, including truncated headers and multi-byte characters next to a slice boundary.", "anchors": ["src/parser/logic.rs: Logic::parse"]}
{"id": "C30", "title": "Pool parse errors point at the first bad line", "statement": "When parsing a variable, list variable, moreblock, component, event or block pool fails, the error carries the zero-based index (and, where recorded, the text) of the first line that does not parse; when every line before the first blank line parses, the pool parses.", "quantifier": "all line sequences", "why_tests_cant": "Ranges over unboundedly many inputs; a test fixes finitely many of them.", "anchors": ["src/parser/logic.rs: *::parse_iter, *PoolParseError"]}
{"id": "C31", "title": "Repeated declarations", "statement": "When a name is declared several times in a variable, list variable or moreblock pool, parsing keeps exactly one entry for it, the last declaration, and every declared name is present.", "quantifier": "all line sequences", "why_tests_cant": "Ranges over unboundedly many inputs; a test fixes finitely many of them.", "anchors": ["src/parser/logic.rs: VariablePool::parse_iter, ListVariablePool::parse_iter, MoreBlockPool::parse_iter"]}
{"id": "C32", "title": "Finding a view by id", "statement": "find_id(id) returns a view of the tree with that id whenever one exists (the first in depth-first order) and None otherwise; the mutable variant addresses the same view and an update through it changes only that view.", "quantifier": "all view trees of every shape and depth", "why_tests_cant": "Ranges over unboundedly many inputs; a test fixes finitely many of them.", "anchors": ["src/api/view.rs: View::find_id, View::find_id_mut"]}
{"id": "C33", "title": "Layout list to view tree", "statement": "parse_raw_layout places every view of the list exactly once: views with parent root at top level, every other as a child of a view with its parent's id, siblings in list order; it fails iff some view has no parent field or names a parent that does not occur earlier in the list.", "quantifier": "all lists of views", "why_tests_cant": "Ranges over unboundedly many inputs; a test fixes finitely many of them.", "anchors": ["src/api/view.rs: parse_raw_layout"]}
{"id": "C34", "title": "View tree to layout list and back", "statement": "For every view tree with distinct ids, none of them root, whose type-specific data is consistent with its raw view, parse_raw_layout(flatten_views(t)) returns the same tree, and flattening it again gives the same list.", "quantifier": "all view trees of every shape and depth", "why_tests_cant": "Ranges over unboundedly many inputs; a test fixes finitely many of them.", "anchors": ["src/api/view.rs: flatten_views, parse_raw_layout"]}
{"id": "C35", "title": "Flattening writes back edits and nothing else", "statement": "In the flattened list each view carries the edited id, sizes, padding, margin, weights, gravity, background and type-specific values, its actual parent's id, and every raw field not exposed by the API unchanged; the list has one entry per view, each after its parent.", "quantifier": "all view trees", "why_tests_cant": "Ranges over unboundedly many inputs; a test fixes finitely many of them.", "anchors": ["src/api/view.rs: flatten_views, ViewType::apply_values_to_view"]}
{"id": "C36", "title": "View type ids", "statement": "The type id of a reconstructed view is the one of its (possibly edited) view type, and get_type_id(from_view(v)) = v.type for every recognised view; children record that id as their parent type.", "quantifier": "all views", "why_tests_cant": "All view types times all raw views.", "anchors": ["src/api/view.rs: ViewType::from_view, ViewType::get_type_id, flatten_views"]}
{"id": "C37", "title": "Components survive the API", "statement": "Converting an API component to its file form and back gives the same component; converting a file component to the API and back gives the same record iff the parameters the kind does not use are empty; unknown types are rejected with their type and id.", "quantifier": "all component kinds, ids and parameters; all file components", "why_tests_cant": "Ranges over unboundedly many inputs; a test fixes finitely many of them.", "anchors": ["src/api/component.rs: ComponentKind"]}
{"id": "C38", "title": "Events survive the API", "statement": "Converting an API event to its file form and back gives the same event (without code); converting a file event to the API and back gives the same record; types other than 1, 2, 3 are rejected.", "quantifier": "all events", "why_tests_cant": "Ranges over unboundedly many inputs; a test fixes finitely many of them.", "anchors": ["src/api/screen.rs: Event, EventType"]}
{"id": "C39", "title": "Events own distinct block containers", "statement": "Two different events of a screen never refer to the same block container.", "quantifier": "all pairs of events", "why_tests_cant": "A statement about all pairs of names.", "anchors": ["src/api/screen.rs: Event::get_block_container_id"]}
{"id": "C40", "title": "Resource store behaves like three maps", "statement": "get_resource, remove_resource and put_resource behave like lookups, removals and insertions in three maps searched in the order images, sounds, fonts: remove returns what get would have returned, a failed put changes nothing, a successful put makes the resource available in its section with its declared type.", "quantifier": "all histories of put, get and remove operations", "why_tests_cant": "Quantifies over all operation sequences.", "anchors": ["src/api/mod.rs: Resources"]}
{"id": "C41", "title": "A taken resource id is refused", "statement": "put_resource fails with IdTaken, leaving the store unchanged, whenever some resource already has that id.", "quantifier": "all stores, ids, files and resource types", "why_tests_cant": "Ranges over unboundedly many inputs; a test fixes finitely many of them.", "anchors": ["src/api/mod.rs: Resources::put_resource"]}
{"id": "C42", "title": "Layout names map to distinct activity names", "statement": "Different screens (different layout names) use different logic entries: the layout-name to activity-name mapping never produces underscores, always ends in Activity, capitalises each underscore-separated word and is injective on screen names.", "quantifier": "all strings", "why_tests_cant": "Ranges over unboundedly many inputs; a test fixes finitely many of them.", "anchors": ["src/api/mod.rs: view_name_to_logic"]}
{"id": "C43", "title": "Converting blocks always terminates and uses each block at most once", "statement": "Blocks::try_from terminates on every block container, including cyclic and dangling pointers; on success every block of the container occurs at most once in the resulting tree, and the tree is made of blocks of the container only.", "quantifier": "all block containers, including cyclic graphs", "why_tests_cant": "Cyclic pointer graphs of any size.", "anchors": ["src/api/block.rs: TryFrom<BlockContainer> for Blocks"]}
{"id": "C44", "title": "Generated block ids are fresh and consecutive", "statement": "Converting Blocks to a BlockContainer numbers the emitted blocks 10, 11, 12, ... in order, without gaps or repetitions.", "quantifier": "all block trees: any nesting of arguments and substacks", "why_tests_cant": "Ranges over unboundedly many inputs; a test fixes finitely many of them.", "anchors": ["src/api/block.rs: Blocks::to_block_container, Into<BlockContainer>"]}
{"id": "C45", "title": "Generated next pointers chain the blocks", "statement": "In the generated container, following the next pointer from the first block visits exactly the top-level blocks, in order, and ends with -1.", "quantifier": "all block trees", "why_tests_cant": "Ranges over unboundedly many inputs; a test fixes finitely many of them.", "anchors": ["src/api/block.rs: Blocks::to_block_container"]}
{"id": "C46", "title": "Generated substack and argument pointers", "statement": "In the generated container, a block's substack pointers refer to the first block of the substack and its argument references refer to the argument block.", "quantifier": "all block trees", "why_tests_cant": "Ranges over unboundedly many inputs; a test fixes finitely many of them. The failing case needs a substack with two blocks or a nested argument.", "anchors": ["src/api/block.rs: Blocks::to_block_container"]}
{"id": "C47", "title": "Blocks round trip", "statement": "Blocks::try_from(BlockContainer::from(b)) returns b.", "quantifier": "all block trees", "why_tests_cant": "Ranges over unboundedly many inputs; a test fixes finitely many of them.", "anchors": ["src/api/block.rs: Blocks"]}
{"id": "C48", "title": "Block specs round trip", "statement": "Parsing the text of a block spec gives back its items (with empty arguments), and the text of a parsed spec is the original text.", "quantifier": "all specs and all strings", "why_tests_cant": "Ranges over unboundedly many inputs; a test fixes finitely many of them.", "anchors": ["src/api/block.rs: BlockContent::parse_wo_params, BlockContent::to_string"]}
{"id": "C49", "title": "Taking and applying arguments", "statement": "take_args returns the arguments in order and leaves the same spec with empty arguments; applying argument texts fills exactly the empty arguments, left to right, consuming one text each, and fails iff there are too few or one is malformed.", "quantifier": "all block contents and argument lists", "why_tests_cant": "Ranges over unboundedly many inputs; a test fixes finitely many of them.", "anchors": ["src/api/block.rs: BlockContent::take_args, apply_args, get_args"]}
{"id": "C50", "title": "Spec parsing never panics", "statement": "BlockContent::parse and parse_wo_params return Ok or Err for every spec text.", "quantifier": "all strings", "why_tests_cant": "Ranges over unboundedly many inputs; a test fixes finitely many of them.", "anchors": ["src/api/block.rs: BlockContent::parse, parse_wo_params"]}
{"id": "C51", "title": "Block types round trip", "statement": "BlockType::from(t.to_string(), typename of t) returns t for every block type, and the type letters accepted are exactly v p b s d l c e f and space.", "quantifier": "all block types and all strings", "why_tests_cant": "Ranges over unboundedly many inputs; a test fixes finitely many of them.", "anchors": ["src/api/block.rs: BlockType"]}
{"id": "C52", "title": "Project settings survive the API", "statement": "Converting an API project to the parser model and back preserves metadata, colours, and libraries.", "quantifier": "all API projects", "why_tests_cant": "Ranges over unboundedly many inputs; a test fixes finitely many of them.", "anchors": ["src/api/mod.rs: SketchwareProject"]}
{"id": "C53", "title": "Library switches are validated", "statement": "Converting to the API fails with InvalidUseYNValue if firebase, admob or google map has a use flag other than Y or N, and otherwise enables exactly the libraries flagged Y.", "quantifier": "all parsed projects", "why_tests_cant": "Ranges over unboundedly many inputs; a test fixes finitely many of them.", "anchors": ["src/api/mod.rs: TryFrom<ParsedSketchwareProject>"]}
{"id": "C54", "title": "Resource files survive the API", "statement": "Converting a project with resource files to the API and back keeps every resource file, and a project loaded without resource files can be converted to the parser model and back to the API.", "quantifier": "all projects", "why_tests_cant": "Ranges over unboundedly many inputs; a test fixes finitely many of them.", "anchors": ["src/api/mod.rs: TryFrom<ParsedSketchwareProject>, From<SketchwareProject>"]}
{"id": "C55", "title": "Screen logic is found again", "statement": "After converting a project to the API, editing, writing it out and reading it again, each screen still has its variables, components, events and code.", "quantifier": "all projects and all edits of variables", "why_tests_cant": "Ranges over unboundedly many inputs; a test fixes finitely many of them.", "anchors": ["src/api/mod.rs: TryFrom<ParsedSketchwareProject>, From<SketchwareProject>", "src/api/screen.rs: Screen::from_parsed"]}
{"id": "C56", "title": "No code is dropped", "statement": "Every block container of a screen is attached to an event or moreblock of the resulting API screen.", "quantifier": "all screen logics", "why_tests_cant": "Ranges over unboundedly many inputs; a test fixes finitely many of them.", "anchors": ["src/api/screen.rs: Screen::from_parsed"]}
{"id": "C57", "title": "Resource files are sorted by kind", "statement": "ResourceFiles::try_from puts every file in the map of its kind under its name (the last one winning), rejects missing files and paths outside images/sounds/fonts/icons; converting to a list and back gives the same maps whatever the map iteration order.", "quantifier": "all lists of resource files, all file-system states, all iteration orders", "why_tests_cant": "Hash map iteration order is not controllable by a test.", "anchors": ["src/parser/mod.rs: ResourceFiles"]}
{"id": "C58", "title": "Whole project parse and reconstruct", "statement": "Reconstructing a parsed project and parsing the result gives an equal project; encrypting and decrypting the six texts in between changes nothing.", "quantifier": "all parsed projects", "why_tests_cant": "Ranges over unboundedly many inputs; a test fixes finitely many of them.", "anchors": ["src/parser/mod.rs: SketchwareProject::parse_from, TryInto<RawSketchwareProject>"]}
{"id": "C59", "title": "Screens survive the API", "statement": "Converting an API screen to the parser model and back gives an equal screen.", "quantifier": "all API screens", "why_tests_cant": "Ranges over unboundedly many inputs; a test fixes finitely many of them.", "anchors": ["src/api/screen.rs: Screen::from_parsed", "src/api/mod.rs: From<SketchwareProject>"]}
{"id": "C60", "title": "View parse errors report the line", "statement": "A view file whose header has no dot is rejected with the one-based number of that line and its text; a FAB header at the end of the file is rejected with the number of lines plus one.", "quantifier": "all texts", "why_tests_cant": "Ranges over unboundedly many inputs; a test fixes finitely many of them.", "anchors": ["src/parser/view.rs: View::parse", "src/util.rs: CountingIterator"]}
{"id": "C61", "title": "Projects survive the API", "statement": "A project of the API whose screens and custom views survive on their own, and whose names are distinct and match, is written and read back with the same screens, custom views, libraries and settings and the same resource ids.", "quantifier": "all API projects", "why_tests_cant": "Ranges over unboundedly many inputs; a test fixes finitely many of them.", "anchors": ["src/api/mod.rs: TryFrom<ParsedSketchwareProject>, From<SketchwareProject>"]}
{"id": "C62", "title": "Text of records", "statement": "A resource, file, library, component, event, block, view or project record is written as a JSON object with exactly Sketchware's keys, in their order, with the documented number or word for every enum value, escaped strings, and signed decimal colours.", "quantifier": "all records", "why_tests_cant": "Ranges over unboundedly many inputs; a round-trip test does not fix the format because writer and reader may agree on a wrong one.", "anchors": ["src/parser/resource.rs: ResourceItem::reconstruct", "src/parser/file.rs: FileItem::reconstruct", "src/parser/library.rs: LibraryItem::reconstruct", "src/parser/logic.rs: Component, Event, Block", "src/parser/view.rs: AndroidView::reconstruct", "src/parser/project.rs: Project::reconstruct"]}
{"id": "C63", "title": "Text of files", "statement": "The files resource, file, library, view and logic are written with exactly the section headers of Sketchware, the sections in their order, one record per line, and blank lines between the sections of a logic file; a variable line is the number of its type, a colon and its name.", "quantifier": "all file contents (for logic: those with a block container per screen and without whitespace at the ends of names)", "why_tests_cant": "Ranges over unboundedly many inputs; a round-trip test does not fix the format because writer and reader may agree on a wrong one.", "anchors": ["src/parser/resource.rs: Resource::reconstruct", "src/parser/file.rs: File::reconstruct", "src/parser/library.rs: Library::reconstruct", "src/parser/view.rs: View::reconstruct", "src/parser/logic.rs: Logic::reconstruct"]}
{"id": "C64", "title": "The cipher is AES-128-CBC", "statement": "Encryption writes AES-128 (FIPS-197) in CBC mode with PKCS#7 padding, key and initialisation vector both the 16 bytes 'sketchwaresecure'; decryption accepts exactly the ciphertexts whose CBC decryption under that key ends in a valid padding.", "quantifier": "all byte strings", "why_tests_cant": "Ranges over unboundedly many inputs; a round-trip test does not fix the cipher because writer and reader may agree on a wrong one.", "anchors": ["src/lib.rs: encrypt_sw", "src/lib.rs: decrypt_sw_encrypted"]}
{"id": "C65", "title": "Gravity flags", "statement": "For a gravity composed of flags with 'or', each accessor (left, right, top, bottom, center, center_horizontal, center_vertical) is true iff that flag is one of the flags set.", "quantifier": "all lists of flags", "why_tests_cant": "Ranges over all combinations of flags, including those which overlap in bits.", "anchors": ["src/parser/view.rs: Gravity"]}
{"id": "C66", "title": "Counting lines", "statement": "After n calls of next the counting iterator reports n and has yielded what the inner iterator yields; reading a view file with it, call by call, gives the result and the line numbers of the reader of C60.", "quantifier": "all iterators, all files", "why_tests_cant": "Ranges over unboundedly many inputs and numbers of calls.", "anchors": ["src/util.rs: CountingIterator", "src/parser/view.rs: View::parse", "src/parser/view.rs: Layout::parse_iter"]}
{"id": "C67", "title": "Reading lists, for every text", "statement": "For every text, the readers of the file, resource and library lists skip the lines before the first header, give each line to the section of the last header before it, end at a blank line of a section (file, resource), and return either the records of each section in order or the first error: zero-based line number with text or section (file, resource); for a library the first bad item, else a header at the end, else the first missing section.", "quantifier": "all texts", "why_tests_cant": "Ranges over unboundedly many texts, including malformed ones, and fixes the whole outcome including the error.", "anchors": ["src/parser/file.rs: File::parse", "src/parser/resource.rs: Resource::parse", "src/parser/library.rs: Library::parse"]}
{"id": "C68", "title": "Line in a library error", "statement": "An item of a library file that does not parse is reported with the line of its header.", "quantifier": "all texts", "why_tests_cant": "Ranges over unboundedly many texts; the counter is right for the first section only.", "anchors": ["src/parser/library.rs: Library::parse"]}
{"id": "C69", "title": "Reading a logic file, for every text", "statement": "A logic file is split at blank lines into paragraphs; the leading paragraphs beginning with '@' are its sections, the rest is ignored. Reading succeeds iff every section reads, and then each screen is the empty screen to which the sections of its name are applied in order; otherwise the outcome (error or panic) is that of the first section which does not read.", "quantifier": "all texts", "why_tests_cant": "Ranges over unboundedly many texts, including malformed ones, and fixes the whole outcome including errors and panics.", "anchors": ["src/parser/logic.rs: Logic::parse"]}
{"id": "C70", "title": "Line in an error of the logic file", "statement": "The line in an error of the logic reader is the line of the header of the section at fault.", "quantifier": "all texts", "why_tests_cant": "Ranges over unboundedly many texts; the counter is right for the first section only.", "anchors": ["src/parser/logic.rs: Logic::parse"]}
{"id": "C71", "title": "Reading a spec with arguments agrees with applying them afterwards", "statement": "BlockContent::parse(spec, args) gives the same outcome as BlockContent::parse_wo_params(spec) followed by apply_args(args), for every spec that can be read alone and all argument texts.", "quantifier": "all specs, all lists of argument texts", "why_tests_cant": "Two independent pieces of code compared on all specs and all argument lists, including errors.", "anchors": ["src/api/block.rs: BlockContent::parse", "src/api/block.rs: BlockContent::parse_wo_params", "src/api/block.rs: BlockContent::apply_args"]}
{"id": "C72", "title": "Builder and in-place editing of arguments", "statement": "A content made by BlockContentBuilder has one item per call in the order of the calls. Writing through get_args_mut changes exactly the arguments written to and no text; what take_args removes can be written back and gives the original content.", "quantifier": "all sequences of builder calls, all contents, all edits", "why_tests_cant": "All sequences of calls and all edits.", "anchors": ["src/api/block.rs: BlockContentBuilder", "src/api/block.rs: BlockContent::builder", "src/api/block.rs: BlockContent::get_args_mut", "src/api/block.rs: BlockContent::take_args"]}
{"id": "C73", "title": "Kind and values of a view", "statement": "ViewType::from_view reads exactly the records whose type is one of the known numbers and, for images and floating buttons, which name an image; the view type has the kind of the number and the values of the record, other records give the error that says why. apply_values_to_view is its inverse: values written into a record with a number of the kind are read back, and reading and writing back changes nothing, with the exact exceptions for scroll views.", "quantifier": "all view records, all view types", "why_tests_cant": "All records (every field arbitrary) and all 256 types.", "anchors": ["src/api/view.rs: ViewType::from_view", "src/api/view.rs: ViewType::apply_values_to_view"]}
{"id": "C74", "title": "Errors of specs and their arguments", "statement": "Every error of parse_wo_params, parse and apply_args is that of the first word or parameter that cannot be read or filled, with the word or the argument text in it; and there is an error exactly then.", "quantifier": "all specs, contents and lists of argument texts", "why_tests_cant": "All specs and argument lists; says which of several possible errors is reported.", "anchors": ["src/api/block.rs: BlockContent::parse_wo_params", "src/api/block.rs: BlockContent::parse", "src/api/block.rs: BlockContent::apply_args", "src/api/block.rs: BlockContentParseError"]}
{"id": "C75", "title": "Constructors of blocks and written parameters", "statement": "Block::new, new_1substack and new_2substack make a block with exactly the given fields, the substacks in order, the opaque palette colour of the category and the matching type. When a block is written, its parameters are one text per argument in order: texts and menu values unchanged, numbers as they are shown, nothing as the empty text, booleans as a reference to a new green block called true or false whose every field is determined, and blocks as a reference to the last block written for them; the blocks of the arguments follow in order.", "quantifier": "all constructor arguments, all blocks and counters", "why_tests_cant": "All blocks with any number and kind of arguments.", "anchors": ["src/api/block.rs: Block::new", "src/api/block.rs: Block::new_1substack", "src/api/block.rs: Block::new_2substack", "src/api/block.rs: Blocks::to_block_container (process_content)"]}
{"id": "C76", "title": "Errors of converting a block container", "statement": "TryFrom<BlockContainer> for Blocks gives an error exactly when an id is not a number (it names the first such id) or following the pointers from the first block fails, and then the error is that of the first failure in the order first substack, second substack, spec, argument blocks, type, next block; it panics exactly when that first failure is a spec on which reading panics. What the error says is true of the container: ids, pointers, specs and types in it are those of blocks of the container.", "quantifier": "all block containers", "why_tests_cant": "All containers, including cyclic and shared pointers; says which of several possible errors is reported.", "anchors": ["src/api/block.rs: TryFrom<BlockContainer> for Blocks", "src/api/block.rs: BlockConversionError"]}
{"id": "C77", "title": "Everything that is written for a project", "statement": "Converting a project back gives, per screen, the logic with every kind of code in it under its name (and panics only as its code does); the FAB record is the FAB with no parent, parent type -1 and otherwise what its view says; file entries, layouts, FABs and logic are those of the screens, the later one winning when names are equal; resource entries are those of the resources in order, and no resource files are handed on except, when the ids are automatic, the icon; settings are unchanged; and the conversion panics exactly when the code of a screen panics or a resource path has no file name.", "quantifier": "all projects, screens and resources", "why_tests_cant": "All projects, with any screens, code and resources, including equal names.", "anchors": ["src/api/mod.rs: From<SketchwareProject> for ParsedSketchwareProject", "src/api/mod.rs: to_screen_logic", "src/api/mod.rs: resource_conv!"]}
{"id": "C78", "title": "Screens made from the files", "statement": "Screen::from_parsed succeeds exactly when each of its steps does, in the order layout, then spec and code of each moreblock, components, then type and code of each event (first onCreate if there is code for it); otherwise its error or panic is that of the first step that fails. A made screen has the settings, variables, components, moreblocks and events of the files, each moreblock and event with the code of the container of its name unless one before took the container.", "quantifier": "all file entries, layouts, logics and FABs", "why_tests_cant": "All screens; says which of several possible errors is reported and what happens when containers are shared.", "anchors": ["src/api/screen.rs: Screen::from_parsed", "src/api/screen.rs: ScreenConstructionError"]}
{"id": "C79", "title": "Projects made from the files", "statement": "TryFrom<ParsedSketchwareProject> succeeds exactly when each of its steps does, in the order activities, custom views, library switches, images, sounds, fonts; otherwise its error or panic is that of the first step that fails. A made project has one screen per activity and one custom view per entry in order, each from the layout, logic and FAB of its name unless an entry before took them; libraries by their switches; resources with the files of their full names, or random ids when no files are given; and the settings of the files.", "quantifier": "all parsed projects", "why_tests_cant": "All projects, including repeated names and missing parts; says which of several possible errors is reported.", "anchors": ["src/api/mod.rs: TryFrom<ParsedSketchwareProject> for SketchwareProject", "src/api/mod.rs: APISketchwareProjectConversionError"]}
{"id": "C80", "title": "Empty collections", "statement": "An empty pool (variables, lists, components, events, moreblocks, blocks) is written as the empty text and no other pool is. A text is read as an empty pool exactly when it is empty or begins with a line end. A logic file is written as nothing exactly when all its screens are empty, and read as one without screens exactly when the text does not begin with @. A view file is written as nothing exactly when it has no layout and no FAB. A list of blocks is converted to the empty container exactly when it is empty. The constructors of components leave out the last parameters.", "quantifier": "for all pools, logic files, view files, block lists and texts", "why_tests_cant": "Whether something other than the empty collection has the empty text, and which texts are read as nothing, ranges over all values and all texts.", "anchors": ["src/parser/logic.rs:359-377", "src/parser/logic.rs:410-414", "src/parser/logic.rs:567-571", "src/parser/logic.rs:703-741", "src/parser/logic.rs:833-837", "src/parser/logic.rs:946-950", "src/parser/logic.rs:1056-1078", "src/parser/logic.rs:165-251", "src/parser/view.rs:70-115", "src/api/block.rs:143-145", "src/api/block.rs:322-332"]}
{"id": "C81", "title": "Floating point numbers keep their values", "statement": "A text is taken for a number argument (f64) exactly if it is a decimal number (optional sign, digits, optional fraction and exponent) or inf, infinity or nan in any case; a decimal number is read as the nearest f64 value (infinite from half a step beyond the largest value). Every f64 is read back from its text. A f32 attribute of a view is read back from its JSON text exactly if it is finite, although the JSON library does not take the nearest value when reading; so with IEEE 754 attributes a view is read back from its line exactly if its attributes are finite and no fixed size is -1 or -2. The conversion of a whole number to f64 and then to i32, which the colour reader uses, clamps it to the range of i32 (which numbers get that far is C10).", "quantifier": "for all texts, all f64 values, all f32 values, all views, all whole numbers", "why_tests_cant": "There are 2^64 f64 values, 2^32 f32 values and unboundedly many number texts; the known failures of such conversions (double rounding) hit single values.", "anchors": ["src/parser/view.rs:260", "src/parser/view.rs:304-309", "src/api/block.rs:704", "src/api/block.rs:798", "src/api/block.rs:1084", "src/color.rs:76-93"]}
{"id": "C82", "title": "Which project texts are read, which are refused and which panic", "statement": "A project is read from a text exactly if the text is a JSON object in which each of the nine declared keys and the five colours occurs exactly once with a value of its type, and every other value is one that can be kept (no unpaired surrogate, no number beyond f64, not too deep): unlike the other records the project keeps all undeclared members for its flattened colours. The order of the members, white space and further members do not matter. The text panics exactly if the creation date panics (C83) while the members before it give no error, whatever comes after it, even if it is not JSON. Every other text is an error.", "quantifier": "for all texts", "why_tests_cant": "There are unboundedly many texts; panics in the middle of a broken text and values that are ignored in one record but not in another are corner cases that examples miss.", "anchors": ["src/parser/project.rs:6-47", "src/parser/project.rs:65-67", "src/parser/serde_util.rs:7-22"]}
{"id": "C83", "title": "Which creation dates are read, which panic and which are errors", "statement": "A creation date is cut at fixed byte positions: four bytes of year, then two each of month, day, hour, minute and second. It is read exactly if each part is a number (a sign is allowed) and they are a date and a time of the calendar, whatever follows. It panics exactly if, after parts that are numbers, the text ends before the next part or a character is cut in two, or if all parts are numbers but no date or no time. It is an error exactly if the first part that is no number is there.", "quantifier": "for all texts", "why_tests_cant": "There are unboundedly many texts; characters of several bytes at the cuts are corner cases that examples miss.", "anchors": ["src/parser/serde_util.rs:7-22"]}
{"id": "C84", "title": "Which texts are read as which record", "statement": "For each of the record kinds (resource, file, library, component, event, block, view) a text is read as a given record exactly if it is a text of a JSON object (any other members, any order) or array (all values in the declared order) in which every required key has exactly one value of its type: strings; whole numbers in the range of the field, without fraction, exponent or the form -0; the numbers and names of the variants of each enumeration and no others; flags as numbers of a byte, true unless 0; sizes; option bits; colours as numbers with their clamping and wrap-around; floats; nested records and lists of them. Optional keys may be missing or null.", "quantifier": "for all texts and all records", "why_tests_cant": "There are unboundedly many texts; examples do not show that nothing else is accepted, nor that each accepted text gives the right record.", "anchors": ["src/parser/resource.rs:132-153", "src/parser/file.rs:113-173", "src/parser/file.rs:222-229", "src/parser/library.rs:125-157", "src/parser/logic.rs:709-719", "src/parser/logic.rs:952-959", "src/parser/logic.rs:1099-1112", "src/parser/view.rs:255-311", "src/parser/view.rs:364-614", "src/parser/serde_util.rs:56-84", "src/color.rs:69-98"]}
{"id": "C85", "title": "Names of resource files", "statement": "The full name of a resource file is the last component of its path, or the name given with its id. Asking for it panics exactly for a path that ends in no name (the root, `.`, `..`) or in a name that is not UTF-8, and is never an error. Files that were sorted by kind never panic, and every image, sound and font is filed under its full name.", "quantifier": "for all resource files (paths, string ids, number ids), all lists of them and all file systems", "why_tests_cant": "The unwraps in get_full_name depend on paths that tests do not think of; that sorted files have a name is an invariant over all lists.", "anchors": ["src/parser/mod.rs:328-347", "src/parser/mod.rs:364-428"]}
{"id": "C86", "title": "Fresh values", "statement": "A view made by new_empty is written as the record with Sketchware's defaults (spelled out), with the given id, parent, type and parent type. The default colours of a project are written as spelled out, and the default colour is opaque black. A raw project made of six texts is the one loaded from their encrypted forms, with or without resource files.", "quantifier": "for all ids, parents, types and parent types; all six texts and lists of resource files", "why_tests_cant": "Tests that compare a fresh view with itself cannot notice swapped or wrong defaults.", "anchors": ["src/parser/view.rs:313-349", "src/parser/view.rs:389-397", "src/parser/view.rs:444-465", "src/parser/view.rs:561-577", "src/parser/project.rs:49-59", "src/parser/mod.rs:51-76", "src/color.rs:57-61"]}
{"id": "C87", "title": "Texts of floating point numbers", "statement": "The text of a finite f64 (number arguments of blocks) and of a finite f32 (attributes of views) has the digits of the shortest decimal that IEEE 754 rounds to the value, and of the shortest ones the nearest; at most 17 and 9 digits. f64 texts have no exponent; f32 texts have one exactly below 10^-6 and from 10^13 on. A JSON number of few digits (up to 33554500, exponent -54 to 39) or a whole number of 64 bits is read as the nearest f32; any one from 10^-37 to 3.4*10^38 with a relative error of at most 2^-24 + 2^-48; numbers up to 10^308 are read, from 10^309 on they are errors. Longer numbers are not always read as the nearest f32.", "quantifier": "for all f64 and f32 values and all JSON numbers of less than 2147480000 digits", "why_tests_cant": "There are 2^64 doubles and unboundedly many texts; the shortest digits and the rounding of decimal numbers are the classical places where printing and reading of floats went wrong.", "anchors": ["src/api/block.rs:186", "src/api/block.rs:704", "src/parser/view.rs:260", "src/parser/view.rs:304-309"]}
{"id": "C88", "title": "How texts are taken apart", "statement": "Lines are what stands between line feeds (a carriage return stays). Trimming takes off, at both ends, exactly the 25 characters with the Unicode property White_Space. split_once separates at the first occurrence, split(\".java_\") at the leftmost. A slice is the text of the bytes in its range, and a panic when the range is inverted, too long or cuts a character. A number is one or more digits of its base (either case of hex letters), after an optional plus, or minus if signed, with a value in the range of its type. Written numbers have no leading zeros.", "quantifier": "for all texts, bounds and integer types", "why_tests_cant": "Every parser of the crate is built from these operations; a wrong set of spaces, a byte taken for a character or a number out of range shows in all of them.", "anchors": ["src/parser/logic.rs:25-116", "src/parser/logic.rs:428-447", "src/parser/view.rs:22-32", "src/parser/file.rs:17", "src/color.rs:16-19", "src/api/block.rs:186"]}
{"id": "C89", "title": "What the messages of errors tell", "statement": "The message of an error tells its kind and what the error is about: two errors with the same message are of the same kind and have the same names, ids, lines and counts.", "quantifier": "for all pairs of errors of each error type, with any names and numbers", "why_tests_cant": "Names are put into messages without quotation, and a format argument may be forgotten or be something else than the field it should be; only a statement about all pairs of errors finds that.", "anchors": ["src/parser/logic.rs:254-304", "src/parser/view.rs:118-147", "src/api/mod.rs:227-234", "src/api/block.rs:103-139", "src/api/block.rs:971-1001", "src/api/screen.rs:285-307", "src/lib.rs:67-77"]}
{"id": "C90", "title": "Opening a project and saving it", "statement": "Opening a project (parsing its six texts and resource files) and saving it (reconstructing the texts) never fails, and opening the saved texts gives the same project.", "quantifier": "for all texts that can be opened, all orders in which the resource files are written, all file systems", "why_tests_cant": "This is what an editor built on the library does; the readers accept more than the writers write, so it does not follow from the round trips of values made by hand, and a loss may be silent.", "anchors": ["src/parser/mod.rs:153-178", "src/parser/mod.rs:214-240", "src/parser/logic.rs:23-251", "src/parser/view.rs:20-108", "src/parser/project.rs:65-71", "src/parser/file.rs:17-90"]}
{"id": "C91", "title": "An edit reaches only what it belongs to", "statement": "Editing, adding or removing a screen through the API changes nothing of the saved project but the file entry, layout and FAB of its layout name and the logic of its class name, and everything else keeps its order. An edit of a layout does not touch the logic, an edit of the logic does not touch the layouts, and editing the code of one event or moreblock changes only its own block container. The same holds for settings, libraries, resources and custom views, and for reading: a change of the layout, FAB or logic of one screen changes only that screen of the API project.", "quantifier": "for all projects, all edits, all orders of the maps", "why_tests_cant": "The main use of the library is to open a project, change something through the API and save it; the rest of the project must not be disturbed. It is about all edits of all projects; a test sees one edit of one project.", "anchors": ["src/api/mod.rs:496-775", "src/api/mod.rs:303-450", "src/api/mod.rs:556-611"]}
{"id": "C92", "title": "A project saved through the API can be opened again", "statement": "Converting an API project and writing its six texts gives texts that are read back as the same project; a project that survives the conversion of C61 is then the same API project after saving and opening.", "quantifier": "for all API projects without duplicate names and with a creation time that is a date, all file systems", "why_tests_cant": "Saving a project that was edited through the API is the purpose of the library; a project that can not be opened again, or that comes back without its code, is lost work. It is about all projects that can be built with the API; tests only save projects that were read from files.", "anchors": ["src/api/mod.rs:489-775", "src/parser/mod.rs:210-300", "src/parser/view.rs:180-245", "src/parser/logic.rs:170-320"]}
{"id": "C93", "title": "The encrypt and decrypt programs do what their names say, and say so when they can not", "statement": "`decrypt` prints the decrypted file or an error and exits accordingly; `encrypt` writes the encrypted file to a new file and never changes an existing one; a file encrypted by `encrypt` and given to `decrypt` is printed as it was.", "quantifier": "for all argument lists, all file systems and all file contents", "why_tests_cant": "These two programs are how a user gets at the content of a project file by hand; overwriting a file or reporting success for a failure loses work. It is about all file systems, argument lists and failures of reading and writing, which a test does not produce.", "anchors": ["examples/decrypt.rs:1-27", "examples/encrypt.rs:1-36"]}
{"id": "C94", "title": "The parsing programs print what the parsed file holds", "statement": "Each of the parse_* programs prints a listing from which the parsed data can be told, and fails with the error of the parser otherwise.", "quantifier": "for all file contents and all parsed files, libraries, resources, projects, views and logics", "why_tests_cant": "The programs are the documentation of the parser; a listing under which two different files look the same misleads a reader. It is about all pairs of files; a test compares one listing with one text.", "anchors": ["examples/parse_file.rs:1-25", "examples/parse_library.rs:1-17", "examples/parse_resource.rs:1-30", "examples/parse_project.rs:1-17", "examples/parse_view.rs:1-26", "examples/parse_logic.rs:1-29"]}
{"id": "C95", "title": "The API demo lists the whole project", "statement": "`api_demo1` prints every screen, every event and every block of a project in order, with each sub stack indented below its block; a project saved through the API and encrypted is listed by it.", "quantifier": "for all file systems and all projects", "why_tests_cant": "It is the one program that goes all the way from encrypted files to the API; what it can not show can not be used. It is about blocks nested to any depth and all projects; a test has one listing.", "anchors": ["examples/api_demo1.rs:1-76"]}
{"id": "C96", "title": "The chain of causes of an error tells where the error is", "statement": "The messages of an error and of all its causes (`source()`, followed to the end) tell everything the error value holds: two errors with the same chain are the same error.", "quantifier": "for all errors of opening, decrypting and converting a project, with block errors nested to any depth", "why_tests_cant": "A program that reports an error can print only this chain; a block deep in a container is found only if every step on the way to it is named. It is about all pairs of errors and blocks nested to any depth; a test looks at one error.", "anchors": ["src/parser/mod.rs:242-264", "src/parser/logic.rs:254-304", "src/parser/logic.rs:451-464", "src/parser/logic.rs:606-616", "src/parser/view.rs:118-147", "src/parser/library.rs:96-113", "src/api/block.rs:103-139", "src/api/screen.rs:285-307", "src/api/mod.rs:452-485", "src/lib.rs:67-77"]}
{"id": "C97", "title": "A text printed with {:?} can be read back", "statement": "A text can be told from its `{:?}` form, whatever is printed after it, and this form is a single line.", "quantifier": "for all texts and all tables of characters that are written as they are", "why_tests_cant": "Error messages and the listings of the example programs put texts of the project file between their own words with `{:?}`; they are of use only if it can be seen where the text ends, also when it has quotes, line breaks or characters that can not be seen. It is about all pairs of texts and everything that may follow them; tests use texts without quotes and line breaks.", "anchors": ["src/api/block.rs:135", "src/api/screen.rs:305", "src/parser/file.rs:113-128", "src/parser/library.rs:125-157", "src/parser/project.rs:6-47"]}
{"id": "C98", "title": "A project that is opened twice compares equal", "statement": "Opening the same texts twice gives two projects that are equal under `==`; `==` is reflexive, symmetric and transitive, and projects that are equal are the same.", "quantifier": "for all texts, all random numbers and all projects", "why_tests_cant": "The tests compare projects with `==`. Equality is derived, so it goes down to floating point numbers, and the file ids are random: only special texts and two runs together show that the comparison can fail.", "anchors": ["src/parser/mod.rs:137", "src/parser/view.rs:255-311", "src/api/mod.rs:237-248", "src/api/mod.rs:320-340", "src/api/block.rs:1099", "src/api/screen.rs:14"]}
{"id": "C99", "title": "Line numbers and block ids do not overflow", "statement": "The `u32` counters of lines and of block ids do not overflow, so they count right, for every text with at most 2^32 − 4 line ends and every code with less than 2^32 − 10 blocks; the limits are real: with overflow checks a file list of 2^32 empty lines and a code of 2^32 − 9 blocks panic.", "quantifier": "for all texts and all lists of blocks of that size, with and without overflow checks", "why_tests_cant": "An overflow needs billions of lines, or a nesting that skips ids; no test can reach it, and the number of increments per line differs from file to file (the counting iterator counts the end too).", "anchors": ["src/util.rs:26-29", "src/parser/file.rs:60", "src/parser/library.rs:57", "src/parser/resource.rs:65", "src/parser/logic.rs:159", "src/parser/logic.rs:368", "src/parser/view.rs:189", "src/api/block.rs:147-236"]}
{"id": "C100", "title": "The call stack that the conversions need is bounded", "statement": "The recursive conversions (blocks from and to a container, views from and to a layout, finding a view) need a call stack whose depth is bounded independently of the input; with that depth the results are the same as without a limit.", "quantifier": "for all containers, blocks, layouts, trees of views and depths", "why_tests_cant": "A deep project exhausts the stack of the process, which aborts it and is no error that can be handled. Tests use shallow projects; the depth of calls is not visible in a type or a result.", "anchors": ["src/api/block.rs:16-101", "src/api/block.rs:147-326", "src/api/view.rs:66-86", "src/api/view.rs:477-500", "src/api/view.rs:516-587"]}
{"id": "C101", "title": "Saving settles", "statement": "Opening a project and saving it may lose data (C90), but only once: when a saved project is opened and saved again, nothing changes any more, whatever was lost the first time.", "quantifier": "for all raw projects that are read, for every iteration order of the maps and both link-order policies of the linked maps", "why_tests_cant": "Editors save again and again. A loss that repeats or moves with every save destroys a project slowly; a test that saves once cannot see it.", "anchors": ["src/parser/logic.rs:23-251", "src/parser/view.rs:21-115", "src/parser/file.rs:16-91", "src/parser/project.rs:65-71", "src/parser/mod.rs:153-240"]}
{"id": "C102", "title": "An edit is still there after saving and opening", "statement": "When a project that is saved and opened without a change is edited with the API - a variable, a component, the code of an event, a view, a setting or the project details - then after saving and opening the edited project, the edit is there and nothing else has changed.", "quantifier": "for all projects that survive saving and opening, all edits of the listed kinds, all iteration orders of the maps and all generated resource ids", "why_tests_cant": "This is what the library is for: the README opens a project, adds a variable and a block, and saves. The library never rejects an edit, so one that cannot be stored is found only when the project is opened again.", "anchors": ["src/api/mod.rs:236-471", "src/api/screen.rs:96-283", "src/parser/logic.rs:23-251", "src/parser/view.rs:24-145", "README.md"]}
{"id": "C103", "title": "A saved project can be opened", "statement": "When a project has been opened without an error, saving it succeeds and what has been saved can be opened again without an error or panic.", "quantifier": "for all raw projects that can be opened, all orders in which the resource files are listed", "why_tests_cant": "Any finite set of projects misses the container names that collide with a pool header only after the header was shortened by saving; the weaker form of C58 and C90 (content may change, but the file opens) has to hold for every project a user may have, since a file that cannot be opened is a lost project.", "anchors": ["src/lib.rs:41-188", "src/parser/project.rs:21-137", "src/parser/view.rs:24-145", "src/parser/logic.rs:23-251"]}
{"id": "C104", "title": "The program of the README does what it says", "statement": "The program in the README (in the API as it is now) never panics, prints each screen with the number of its events, adds the boolean variable hello_world to every screen and the block with its source line to the end of the first onCreate event of every screen, changes nothing else, and both edits are still there after the project is saved and opened.", "quantifier": "for all projects that survive saving and opening without a change (C92) and have at most 2147483637 blocks in an event, whatever the order of the maps, the files present and the generated resource ids", "why_tests_cant": "The README shows one run on one project; whether the edit survives saving depends on the variables, screens, events and code that the project has, and on how the map orders a key that is there already.", "anchors": ["README.md:16-67", "src/api/block.rs:635-732", "src/api/screen.rs:96-283", "src/api/mod.rs:236-471"]}
{"id": "C105", "title": "The wording of error messages", "statement": "The message of every error is the template of its variant with each placeholder replaced by the text of the field it names, and nothing else; the `{:?}` form of the errors shown inside messages is the name of the variant with its fields.", "quantifier": "for all errors of all kinds that opening, decrypting, converting and editing a project can give, whatever the texts and numbers in their fields", "why_tests_cant": "There are more than fifty variants; no test looks at a message, and a field may hold any text, also one with braces, quotes or line ends.", "anchors": ["src/lib.rs:67-77", "src/parser/mod.rs:242-264", "src/parser/logic.rs:254-304", "src/api/block.rs:103-139", "src/api/mod.rs:452-485"]}
{"id": "C106", "title": "Damage to an encrypted file", "statement": "When bytes within one 16-byte block of an encrypted file are changed, and it is none of the last two blocks, decrypting still succeeds without a sign of the damage: the text has the right length, that block is wrong, the next block has exactly the same bits flipped, and every other byte is right. For the last two blocks the bytes elsewhere are right whenever decrypting succeeds. A file that has been cut off is rejected, or decrypted to a proper beginning of the text.", "quantifier": "for all texts, all blocks and all ways of changing their bytes; for all lengths at which the file is cut", "why_tests_cant": "There are 2^128 ways of damaging one block of one file; a test can try a few.", "anchors": ["src/lib.rs: decrypt_sw_encrypted, encrypt_sw"]}
{"id": "C107", "title": "What two encrypted files have in common", "statement": "Two encrypted files begin with the same n blocks exactly if their texts begin with the same 16 n bytes; text added at the end of a file leaves the encrypted blocks before it unchanged.", "quantifier": "for all pairs of texts and all n", "why_tests_cant": "A statement about all pairs of inputs of any length.", "anchors": ["src/lib.rs: KEY, encrypt_sw"]}
{"id": "C108", "title": "The order in which resource files are listed", "statement": "Whether a list of resource files is accepted does not depend on its order. The order of an accepted list does not matter at all exactly if no two different files in it have the same kind and the same name (two icons count as the same name); then the project opened with the list in any order converts to the same API project. A file that the project's resource list does not name changes nothing in the API project, wherever it is in the list.", "quantifier": "for all lists of resource files and all their orders, all file systems and all projects", "why_tests_cant": "Directory listings come in an order that a test does not control, and the number of orders grows with the factorial of the number of files.", "anchors": ["src/parser/mod.rs: TryFrom<Vec<ResourceFileWrapper>> for ResourceFiles", "src/api/mod.rs: TryFrom<ParsedSketchwareProject> for SketchwareProject"]}
{"id": "C109", "title": "Working on a project again and again", "statement": "A project that C102 tells to be kept is saved and opened, without a list of resource files, as the same project but for its icon and the numbers of its resource files; this holds whichever way it was opened before, nothing else can come of it, the opened project can again be edited, saved and opened in the same way, and so it stays the same however often this is repeated. Opened with the list of resource files it was saved with, a project that had been opened without one is the same, icon included, if it has no resources, and otherwise opening it is an error.", "quantifier": "for all projects that meet the conditions of C102, all random numbers and any number of rounds of saving and opening", "why_tests_cant": "The number of rounds has no bound, and the random numbers are new in every round.", "anchors": ["src/api/mod.rs: From<SketchwareProject> for ParsedSketchwareProject", "src/api/mod.rs: TryFrom<ParsedSketchwareProject> for SketchwareProject", "src/parser/mod.rs: SketchwareProject::parse_from"]}
{"id": "C110", "title": "What is read does not depend on the order that the linked maps keep", "statement": "The projects are kept in linked hash maps, and it is left open whether such a map moves an entry to the back when its key is inserted again. For any two kinds of maps, every logic file, every view file and every project is read as the same value up to the order of the entries, with the same error, or with a panic in both cases. The code of a container is the same or the same error if the number of its first block is not used by another block of it, and there is a container with a repeated first number for which the code differs. A project that can be opened through the API with one kind of maps can be opened with any other kind and is the same up to the order of the entries, if no container repeats the number of its first block.", "quantifier": "for all pairs of map policies, all texts, all containers, all raw projects, all outcomes of the file checks and all random numbers", "why_tests_cant": "A test runs with one version of the map crate, so it cannot show what another order of the entries would change; the crate is not part of the repository.", "anchors": ["src/parser/logic.rs: Logic::parse", "src/parser/view.rs: View::parse", "src/parser/mod.rs: SketchwareProject::parse_from", "src/api/block.rs: TryFrom<BlockContainer> for Blocks", "src/api/screen.rs: Screen::from_parsed", "src/api/mod.rs: TryFrom<ParsedSketchwareProject> for SketchwareProject"]}
{"id": "C111", "title": "A library as one JSON value", "statement": "Library also derives Serialize and Deserialize. For every library the derived JSON text is one line, an object with the members firebase_db, compat, admob and google_map in this order, each written as in its section; reading that text gives the library back. A text is read as a library exactly if it is a text of a JSON object (any other members, any order) or array in which each of the four keys has exactly one value and that value is a library record.", "quantifier": "for all libraries and all texts", "why_tests_cant": "a test reads and writes a few libraries; the statement is about every library with arbitrary strings and every text", "anchors": ["src/parser/library.rs:5-11", "src/parser/library.rs:125-136"]}
{"id": "C112", "title": "Different data are written as different texts", "statement": "Writing loses nothing: two libraries, resource lists, file lists, project files, view files, logics or whole projects that are written as the same text are equal. (This concerns writing alone, also for data that are not read back.) Full statement is false for dates, view file names with line breaks and logics with unusual names.", "quantifier": "for all pairs of libraries, resource lists, file lists, views, view files, project files, logics and whole projects", "why_tests_cant": "it compares every pair of values of unbounded size; a collision is a pair no test would guess", "anchors": ["src/parser/file.rs:66-91", "src/parser/library.rs:68-90", "src/parser/resource.rs:71-105", "src/parser/view.rs:70-115", "src/parser/project.rs:69-71", "src/parser/serde_util.rs:24-37", "src/parser/logic.rs:165-290"]}
{"id": "C113", "title": "What is read is no bigger than the files", "statement": "Opening a project makes no more of it than is in its files: the entries of the file list and of the resource list, the layouts, views and floating buttons, and the declarations, block containers and blocks are each no more than the lines of their file, and everything in the API project together (screens, custom views, views, variables, lists, components, events, moreblocks, blocks with those nested in substacks and arguments, resources) is no more than the lines of the four files together. No block, layout or logic is used twice.", "quantifier": "for all texts, all parsed projects and all choices of file ids", "why_tests_cant": "it bounds the memory used on hostile input for files of every size; shared or cyclic pointers could multiply what is made", "anchors": ["src/parser/file.rs:16-64", "src/parser/resource.rs:24-69", "src/parser/view.rs:21-68", "src/parser/logic.rs:23-163", "src/api/screen.rs:182-283", "src/api/mod.rs:303-450"]}
{"id": "C114", "title": "Windows line ends and byte order marks", "statement": "A project is not read as the same data when its decrypted texts have Windows line ends (a carriage return before each line break) or begin with a byte order mark. With Windows line ends the file list and the resource list are always read as empty, without an error; an accepted view file is read without any view or floating button; an accepted logic file of more than one line is read as at most one container of blocks and no declaration; the library is always refused, with a stated error; only the project file is read as before. So a project of which all texts have Windows line ends is never opened. After a byte order mark the first line of the file list, resource list and library is not seen; view and logic files are read as empty; the project file is refused.", "quantifier": "for all texts, floating point implementations and map policies", "why_tests_cant": "these texts are edited on other systems after decryption; loss without an error is the worst outcome", "anchors": ["src/parser/file.rs:16-64", "src/parser/resource.rs:24-69", "src/parser/library.rs:17-66", "src/parser/view.rs:21-68", "src/parser/logic.rs:23-163", "src/parser/project.rs:65-67"]}
{"id": "C115", "title": "The order of the sections", "statement": "The order of the sections of a logic file or view file does not matter if no two sections are for the same thing (the same pool or container of the same screen, the layout or floating button of the same name): with its sections in any other order an accepted file is accepted and holds the same data for every name, and the project is opened through the API as an equal project, with the same error, or with a panic in both cases. In general a logic file holds, for each pool and container of each screen, what its last section for it says.", "quantifier": "for all texts, all permutations of their sections, all projects, file ids, floating point implementations and map policies", "why_tests_cant": "the number of orders is the factorial of the number of sections", "anchors": ["src/parser/logic.rs:23-163", "src/parser/view.rs:21-68", "src/api/mod.rs:303-450", "src/api/screen.rs:182-283"]}
{"id": "C116", "title": "Texts that were cut off", "statement": "A file list or resource list that was cut off after any character is refused with an error or read as the first entries of each of its lists, and is read if the cut is at the end of a line. A project file that was cut off is refused with an error (never a panic) unless only white space was cut, then it is read as the same project. A library file with no section twice that was cut off is refused or read as the same libraries, and as it is written by the crate it is refused whatever part of its end is missing. A logic file cut off at the end of a line is read; a view file too, unless it then ends in the header of a floating button, which is refused; what is read consists of the first sections of the whole file, the last one perhaps with only its first lines, so without a section twice everything that is read is in the whole file: the same screens, floating buttons, and the first views of each layout.", "quantifier": "for all texts that are read and all positions of the cut", "why_tests_cant": "every position of every accepted text is a separate input", "anchors": ["src/parser/file.rs:16-64", "src/parser/resource.rs:24-70", "src/parser/library.rs:17-66", "src/parser/project.rs:65-67", "src/parser/logic.rs:23-163", "src/parser/view.rs:21-68"]}
{"id": "C117", "title": "Blank lines at the end", "statement": "Any number of line ends after the last line of the six texts of a project has no effect on what is read: the project is opened as without them. The outcome of each reader is the same, errors included, except that a floating button or a library that is missing after its header at the end of the text is reported as one that is not readable. After a project any white space may stand. In a view or logic file two blank lines end the file: whatever follows has no effect; in a list of files or resources with a section already one blank line does.", "quantifier": "for all texts, readable or not, any number of line ends and any text after the blank lines", "why_tests_cant": "every text with every end is a separate input", "anchors": ["src/parser/file.rs:16-64", "src/parser/resource.rs:24-70", "src/parser/library.rs:17-66", "src/parser/project.rs:65-67", "src/parser/logic.rs:23-163", "src/parser/view.rs:21-68"]}
{"id": "C118", "title": "The sections of the lists of files and resources", "statement": "A list of files or resources made of any number of sections, each a header and record lines, is read exactly when every record line is read, and holds for each kind the records of the sections of that kind in the order of the text. So with its sections in any other order a list that is read is read again, with the same records up to their order, and with exactly the same records if the sections of each kind keep their order, in particular if no two are of the same kind; and the records of one kind may be spread over any number of sections.", "quantifier": "for all lists of sections of every length, all record lines and all permutations", "why_tests_cant": "the number of orders is the factorial of the number of sections", "anchors": ["src/parser/file.rs:16-64", "src/parser/resource.rs:24-70"]}
{"id": "C119", "title": "A change of one line changes one record", "statement": "If two files of a project differ in one line, which in neither is blank or begins with '@', and both are read, then what is read differs in at most one record, and there it is what the two lines say: in a list of files or resources one entry of one of the lists; in a library file one of the four libraries; in a view file one view of one layout or the floating button of one screen; in a logic file one part of one screen, which differs in one component, event or block at the same place, or, for variables, list variables and more blocks, only in the entries of the names in the two lines. A project file of which the value of one key is changed differs at most in the field of that key.", "quantifier": "for all texts, all lines and all places of the changed line", "why_tests_cant": "texts and lines are unbounded, and a later section can overwrite an earlier one", "anchors": ["src/parser/file.rs:16-64", "src/parser/resource.rs:24-70", "src/parser/library.rs:21-110", "src/parser/view.rs:26-146", "src/parser/logic.rs:23-262", "src/parser/project.rs:16-60"]}
{"id": "C120", "title": "A change of one line changes one screen", "statement": "If two projects differ in one text only and both are opened and converted, then they differ only in what is made of that text: the settings and colours for the project file, the screens and custom views for the file list, the libraries for the library file, the resources for the resource list. If the view files differ in one line, which in neither is blank or begins with '@', then the projects differ in at most one custom view, or in at most one screen, and there only in the views or only in the floating button. If the logic files differ in one such line, then the projects differ in at most one screen, and there only in the variables, only in the list variables, only in the components, or only in the more blocks and events.", "quantifier": "for all texts, all lines, all places of the changed line, and all resource folders", "why_tests_cant": "texts are unbounded, and the conversion removes layouts and logics as it goes, so that one screen could take what belongs to another", "anchors": ["src/api/mod.rs:303-450", "src/api/screen.rs:182-283", "src/parser/mod.rs:152-180"]}
{"id": "C121", "title": "What is read from files that are joined", "statement": "Let two files be read, and let the second one be written after the first one. Lists of files and resources: if no blank line follows a header in the first list and the second list begins with a header, the entries of each kind are those of the first list and then those of the second; if a blank line follows a header in the first list, the second one has no effect. Libraries: those of the second file are read. Project files: a project file with anything but white space after it is not read. View files: if the first file consists of whole sections, or ends in an open layout and a blank line is put between, every layout and floating button of the second file is read, and those of the first file for the other names; if a line that is no header follows the sections of the first file, the second file has no effect; every view file that is read ends in one of these three ways. Logic files, with a blank line between: if every paragraph of the first file has a header, the screens are those of both files, and every part of a screen (variables, list variables, components, events, more blocks, blocks of each name) is that of the second file if it has it, and otherwise that of the first file; if a paragraph has no header, the second file has no effect.", "quantifier": "for all pairs of texts that are read", "why_tests_cant": "both texts are unbounded, and the readers keep state from line to line, so that the end of the first file decides what becomes of the second", "anchors": ["src/parser/file.rs:16-64", "src/parser/resource.rs:24-70", "src/parser/library.rs:21-110", "src/parser/view.rs:26-146", "src/parser/logic.rs:23-262", "src/parser/project.rs:16-60"]}
{"id": "C122", "title": "One line more is one record more", "statement": "Let a file be read, and let one line that is neither blank nor begins with `@` be put into it. Lists of files and resources: if the line comes under a header, the list of that section gets the record of the line after the records of the lines before, and nothing else changes, or the list is refused with the number of the line; elsewhere the line has no effect. Libraries: the line has no effect, or it comes right after a header: then it is read as the library of that header and no other library changes, or the file is refused with that header. View files: in a layout, the line is read as one view more at its place in that layout, unless a later layout has the same name, or the file is refused with the name of the layout, the line and its number. Logic files (after a line that is not blank): if every paragraph up to there has a header, the line belongs to the section of the last header, the file is read exactly if the line can stand in that section, and then the one record is the only difference; otherwise the line has no effect. Conversely a list of files or resources, a view file and a logic file are still read when such a line is taken away.", "quantifier": "for all texts, all places and all lines", "why_tests_cant": "the texts are unbounded, the line may stand anywhere, and what it does depends on all lines before and on the sections after it", "anchors": ["src/parser/file.rs:16-64", "src/parser/resource.rs:24-70", "src/parser/library.rs:21-110", "src/parser/view.rs:26-146", "src/parser/logic.rs:23-262"]}
{"id": "C123", "title": "One line more, in the project", "statement": "Let a raw project be opened and converted, and let one readable line be put into one of its texts. Activity: if the other files hold nothing of this name, the project is still opened and converted, and has one blank screen more, after the screens of the activities before. Custom view: the project is still opened, and is converted exactly if there is a layout of this name that is a tree and no other entry of the file list has this name; then it has this custom view more. Image, sound or font of a project with resource files: it is still opened, and is converted exactly if there is such a file and no other line names it; then it has this resource more. Variable or list: it is still opened and converted, and only the variables or lists of at most one screen, that of the activity of this name, change, by this declaration. Component: it is still opened; if its kind is known it is converted and only the components of at most one screen change, by this one; if not, it is not converted or is the same. Event of a known kind, without code: it is still opened and converted, and at most one screen has this event more, without code. View of a layout, with an id that no view of the layout has: if its parent is the root or a view before it, the project is still opened and converted, and only the views of at most one screen or custom view, of this name, change: they have this view more, as a leaf under its parent; if not, it is not converted or is the same.", "quantifier": "for all raw projects, all places and all such lines", "why_tests_cant": "the project is made from all files together by taking layouts, logics and resource files out of maps in order, so that one entry more could take away what another one needs; the texts, the number of screens and the place of the line are unbounded", "anchors": ["src/api/mod.rs:303-450", "src/api/screen.rs:182-283", "src/parser/mod.rs:152-180", "src/parser/file.rs:16-64", "src/parser/logic.rs:23-262", "src/api/view.rs:477-500"]}
{"id": "C124", "title": "The order of the entries", "statement": "The order in which entries are listed matters only as an order. Blocks: if the numbers of the blocks of a container are numbers and differ, then the code that is read, or the error, is the same in whatever order the blocks after the first are listed. File list: if no two activities have the same name for their logic, then a project that is converted is converted with the entries in any order, to the same screens and custom views in the order of their entries, and nothing else changes. Resource list, when the resource files are given: if no two resources of a kind have the same name, the same resources are found. Events and components of a screen: if no two events have the same container and no two components the same name, the same events and components are read. Views of a layout whose ids differ: another list of the same views gives the same tree exactly if in it every view comes after its parent and the views of each parent are in the same order. Texts: when lines that are neither blank nor headers are put in another order between two places of a file list or resource list, the same entries are read, section by section. Each of the conditions is needed.", "quantifier": "for all containers, projects, screens and texts, and all orders", "why_tests_cant": "the conversions take layouts, logics, code and files out of maps one entry after the other, and the code of a container is read from its first block on; that nothing depends on the order is a statement about all permutations of lists of any length", "anchors": ["src/api/block.rs:16-101", "src/api/mod.rs:303-450", "src/api/screen.rs:182-283", "src/parser/file.rs:16-64", "src/parser/resource.rs:24-75"]}
{"id": "C125", "title": "One entry less", "statement": "What is missing when one entry is taken out. Block: a block whose number no other block has is taken out of a container, not the first one, whose number is not used again either; then the same code is read as before, or the same error as before, or it is an error that a block was not found; no other code is ever read. So a block with a new number behind the first changes nothing of code that can be read. View, with an id that no other view has: taken out of a layout that is a tree, the result is the same tree without this leaf if no later view names it as its parent, and otherwise the error names the first later view that did, and the missing parent. Activity, if no two activities have the same name for their logic: the project is converted without its screen and nothing else changes. Custom view: the same with the custom view. Image, sound or font, when the files are given and the names of a kind differ: without this resource. Event, if the containers differ, and component, if the names differ: the screen is read without it. The conditions on the first block, the activities, the images and the events are needed.", "quantifier": "for all containers, layouts, projects and screens, and every entry of them", "why_tests_cant": "a tool that removes an entry relies on nothing else being affected; the conversions take parts out of shared maps, in which a removed entry could leave something for another one; this is a statement about entries at any place of lists of any length", "anchors": ["src/api/block.rs:16-101", "src/api/view.rs:477-500", "src/api/mod.rs:303-450", "src/api/screen.rs:182-283"]}
{"id": "C126", "title": "The numbers of the blocks are only names", "statement": "When the blocks of a container get other numbers, by a function that gives different numbers to different numbers, applied to the id of each block, to its next pointer, to its substack pointers and to each parameter that is a reference, then the same code is read from the container; if it is refused, the error is the same one with the other numbers. Every such function that keeps numbers below 2^31 below 2^31 can be applied to every container. If two numbers become the same, a block can be lost. When other containers are put in the place of the containers of a screen or a project, from which the same code is read, the same screen or project is read; so a project stays the same whatever the numbers of the blocks of each container are, in whatever order the blocks after the first one are listed (their numbers being different), and whatever blocks with new numbers are put behind the first one.", "quantifier": "for all containers, all functions on block numbers, and all screens and projects", "why_tests_cant": "the numbers occur as decimal texts, as signed pointers and as references inside parameters; that code does not depend on them is a relation between two runs of a recursive conversion over all inputs, which no set of examples covers", "anchors": ["src/api/block.rs:16-101", "src/api/block.rs:602-897", "src/api/screen.rs:182-283", "src/api/mod.rs:303-450"]}
{"id": "C127", "title": "The ids of the views are only names", "statement": "When the views of a layout get other ids, by a function that gives different ids to different ids and leaves the name `root` as it is, applied to the id and to the named parent of every view, then the same trees of views are read with the other ids; if the layout is refused, the error is the same one with the other ids. A view is found in the renamed tree under its new id exactly if it was found under the old one, and renamed trees are written as the same list with the other ids. So a screen, and a project with one such function for each layout, are read as before, with the other ids in the layouts of the screens and custom views, and nothing else changes. Both conditions on the function are needed.", "quantifier": "for all layouts, trees, projects and all functions on ids", "why_tests_cant": "the tree is built by searching for ids in the part that was built so far; independence of what the ids are is a relation between two runs over layouts of any size and all injective functions", "anchors": ["src/api/view.rs:64-116", "src/api/view.rs:223-321", "src/api/view.rs:477-587", "src/api/screen.rs:182-283", "src/api/mod.rs:303-450"]}
{"id": "C128", "title": "The names of the screens and custom views are only names", "statement": "When the layouts and FABs of a project get other names by one function and the logics by another one, in the file list, the view file and the logic file, where both functions give different names to different names and the logic that belongs to the new name of an activity is the logic that belonged to the old one under its new name, then the same project is read with the other names: nothing else in any screen, custom view, library or resource changes; and if the project is refused, it is refused with the same error with the other names. In the other direction, a project of the API whose screens, code and custom views get other names in this way is written as the same files with the other names, for any two such functions. It is needed that the logics go along with the layouts, and that different names stay different.", "quantifier": "for all projects and all pairs of functions on names", "why_tests_cant": "screens are put together by looking up names in four maps that shrink while they are read; independence of what the names are is a relation between two runs over any number of screens and all injective functions", "anchors": ["src/api/mod.rs:269-289", "src/api/mod.rs:303-450", "src/api/mod.rs:496-775", "src/api/screen.rs:182-283"]}
{"id": "C129", "title": "Code is joined, cut and shortened by changing one pointer", "statement": "Let the blocks of a container have different numbers, and let its code be read without an error. What is read has one block, of the same colour and operation, for each block of the row that begins with the first block and follows the pointers to the next block. When a block of the row gets a pointer to no block, the code up to it is read. When a block of the row is put first in the container, the code from it on is read. When a block of the row gets a pointer to a later block of the row, the code is read without the blocks between them. When the last block of the row gets a pointer to the first block of another container with other numbers, and the blocks of that one are put behind, the code of both is read, one after the other. Substacks and arguments of the blocks that stay are the same. The numbers must differ for this.", "quantifier": "for all containers of blocks and all places in the row", "why_tests_cant": "the blocks are taken out of one shared table while the code is read, and arguments and substacks are taken from the same table; that a changed pointer has only the local effect is a statement about all containers of any size and nesting", "anchors": ["src/api/block.rs:16-101"]}
{"id": "C130", "title": "A view is moved by naming another parent", "statement": "In a layout whose views have different ids and that is read, one view names another parent. If that is the root or a view listed before it, the layout is read: the view is shown in the new parent instead of the old one, between the views that are listed before and after it, with everything that is in it; all other views are shown in the same order in the same views as before; and a view that holds neither the old nor the new parent is the same tree as before. If the named parent is not listed before the view, which is so for every view that is in it, the layout is refused with an error that tells the view and the parent. The ids must differ for this.", "quantifier": "for all layouts and all views in them", "why_tests_cant": "the tree is built by searching for the id of the parent in what was built so far; that the change of one name has only the local effect is a statement about layouts of any size and depth", "anchors": ["src/api/view.rs:64-116", "src/api/view.rs:477-587"]}
{"id": "C131", "title": "Two projects can be put together", "statement": "Two projects are read, and no layout, floating button or logic of one has the name of a screen or custom view of the other. With the screens and custom views of the second, and their layouts, buttons and logics, added to the files of the first, the first project is read with the screens and custom views of both, its own first, and nothing else of it changes. The same holds for the texts: with the file list, view file and logic file of the second project written after those of the first, where a file can follow (C121), and with no name that stands for something in both, the first project is opened with the screens and custom views of both. Likewise for the resources and resource files, when no resource of one has the name or the file name of one of the other. Without these conditions a screen of the first project may get the logic of the second, and of two resources with the same name only one is kept.", "quantifier": "for all pairs of projects", "why_tests_cant": "layouts, buttons and logics are taken from maps that are shared by all screens and that change with every screen; that two projects do not disturb each other is a statement about any number of screens and resources", "anchors": ["src/api/mod.rs:303-450"]}
{"id": "C132", "title": "Code is put into the middle of code, into a block and in the place of a block", "statement": "Let a container whose blocks have different numbers be read without an error, and let another container, with other numbers, be put behind it. If a block of the row gets a pointer to the first block of the other container, and the last block of that one's row gets the pointer that the block had, the code of the other container is read in the middle, behind this block. If the pointer of the first or second substack of a block of the row is set to the first block of the other container, its code is read as this substack; if it is set to no block, there is no such substack. If a block of the row is replaced by another one with the same number and the same next pointer, and with blocks of its own behind, then what is read of this one and its blocks alone is read in the place of the old one. In all cases everything else is read as before, and what was in the old substack or block is left out. The numbers must differ for this.", "quantifier": "for all containers, all blocks of their rows and all containers that are put in", "why_tests_cant": "the reader takes every block out of a shared table by its number; that putting in one part does not disturb the others is a statement about code of any length and depth", "anchors": ["src/api/block.rs:16-101"]}
{"id": "C133", "title": "A layout as a text of its own", "statement": "A text is read as a layout exactly if each line before its first blank line is read as a view, and the layout holds these views in this order. Otherwise the error names the first line that is not a view, the number of lines before it, and the view in the line before it, if there is one. Reading a layout never panics. A layout that is written is read back exactly if each of its views is (C21). If a view file is not read because of a line of a layout, the error names the view read from the line before that one, or none if it is the first line behind the header.", "quantifier": "for all texts, layouts and view files", "why_tests_cant": "the reader stops at blank lines and collects views until the first error; which view is reported is a statement about any number of lines", "anchors": ["src/parser/view.rs:170-244"]}
{"id": "C134", "title": "A block at any depth of the code is edited", "statement": "Let a container whose blocks have different numbers be read without an error, and take one of its blocks. Either the block is not in the code: then it is not the first one, and the same code is read without it and with any other block of its number. Or it is in the code at some place, in the row, in a substack or in an argument, at any depth: it is read there as it is read alone with the other blocks, and the same code with a change in this place only is read when its colour and operation are changed, when one of its substacks is taken out, when the code of another container with other numbers is put into a substack, and when it is replaced by another block with the same number and next pointer that has blocks of its own.", "quantifier": "for all containers, all of their blocks and all edits of these kinds", "why_tests_cant": "a place in the code can be at any depth; that an edit there leaves everything around it as it is can not be tested for all trees", "anchors": ["src/api/block.rs:16-101", "src/api/block.rs:832-897"]}
{"id": "C135", "title": "The code of a project is changed container by container", "statement": "When other block containers are put in the place of the containers of a project that is converted, and code is read from each of them that is related to the code read before, then the project is converted too: it is the same project, and the code of each event and each more block is related to the code it had, by the relation of the container of that name in the logic of that screen. In particular, when one container is replaced, only the event or more block that has the code of that container has other code, namely that of the new container; and when one block of a container gets another colour and operation, the project is the same except that this block, at whatever depth of the code of that event or more block it is, has the new colour and operation; if it is not in the code, nothing changes.", "quantifier": "for all projects that are converted, all relations between codes that relate no code to no code, all containers and blocks", "why_tests_cant": "that an edit of one container reaches one event only, for every number of screens, events and containers, can not be tested for all projects", "anchors": ["src/api/screen.rs:182-283", "src/api/mod.rs:306-420", "src/api/block.rs:16-101"]}
{"id": "C136", "title": "Rows of blocks at any depth of the code are cut, joined and filled", "statement": "Let a container whose blocks have different numbers be read without an error, and take one of its blocks. Either its pointer to the next block does not matter: with any other pointer the same code is read. Or the block is in a row, at the top or in a substack at any depth: without the pointer the row ends with the block; when the block points to the first block of other code with other numbers that is put into the container, this code follows it in the place of the rest of the row; when the last block of this code points where the block did before, the rest of the row follows this code; and when the block points to the block after the next one, the next one is left out of the row. Everything around the row stays the same in all of these cases.", "quantifier": "for all containers, all of their blocks and all edits of these kinds", "why_tests_cant": "blocks are inserted and removed inside of loops and conditions; that the code around them is left as it is can not be tested for all trees", "anchors": ["src/api/block.rs:16-101", "src/api/block.rs:279-300"]}
{"id": "C137", "title": "Code is edited in the text of the logic file", "statement": "Let a raw project be opened and converted, and in its logic file let lines of one block container's section, each of which is read as a block, be replaced by other lines that are read as blocks. If code is read from that container with the new blocks, the project is still opened and converted, and only the code of that container, in the screen of that logic, is other code. In particular, for a container whose blocks have different numbers: when the line of one block is changed to one with another colour and operation, this block has them at whatever depth it is, and nothing else changes; when the line points to the first block of other code with other numbers, whose lines are put at the end of the section with the last block pointing where the line did before, that code is put behind the block in its row; when the line points to the block after the next one, the next one is left out of the row. When the lines of blocks after the first one, with different numbers, are put in another order, or the new lines only give the blocks of the container other numbers or are blocks with new numbers more, the same project is opened. If the block is not in the code, or the container has no screen, nothing changes.", "quantifier": "for all raw projects that are opened and converted, all sections of containers and all lines in them", "why_tests_cant": "the text, the number of screens, events and containers and the depth of the block are unbounded; that an edit of one line of the text reaches one place in the tree of the project only, can not be tested for all of them", "anchors": ["src/parser/logic.rs:23-262", "src/parser/mod.rs:152-180", "src/api/mod.rs:306-420", "src/api/screen.rs:182-283", "src/api/block.rs:16-101"]}
{"id": "C138", "title": "Views are edited in the text of the view file", "statement": "Let a raw project be opened and converted, and in one layout of its view file let lines that are read as views be replaced by other lines that are read as views. If the layout with the new views is a tree, the project is still opened and converted, and only the views of the screen or custom view of that name are other ones, namely that tree; if it is not, the project is not converted, or it does not show that layout and is the same. In particular: when the line of one view is changed, but neither its id nor its parent, the view, at whatever depth it is, is the new one, with the same views in it and around it; when it names another parent, which is the root or comes before it (the ids being different), it is shown there with all that is in it; when the line of a view is taken out that is the parent of no other, the view is missing; and when lines are put in another order, with every view after its parent and the views of each parent in the same order, the same project is opened. A view of a layout that is replaced by one with the same id and parent never changes the error of a layout that is refused.", "quantifier": "for all raw projects that are opened and converted, all layouts, and all lines in them", "why_tests_cant": "the text, the number of screens and the depth of the view are unbounded; that an edit of one line of the text reaches one place of one tree of views only can not be tested for all of them", "anchors": ["src/parser/view.rs:26-146", "src/parser/mod.rs:152-180", "src/api/mod.rs:306-420", "src/api/screen.rs:182-283", "src/api/view.rs:477-500"]}
{"id": "C139", "title": "Events, components and variables are edited in the text of the logic file", "statement": "Let a raw project be opened and converted, and in its logic file let lines in the section of the variables, the list variables, the components or the events of a screen, each of which is read, be replaced by other lines that are read. For variables and list variables the project is still opened and converted, and only that map of that screen changes: it is collected of the old entries, with the new ones in the place of the replaced ones. For components the same holds if the new components have known types. For events it holds if the new events have known types, no two events of the screen have the same container before or after, no new event has the container of a more block, and the containers of the new events are read (or missing): then in that screen the new events are in the place of the replaced ones, each with the code of its own container (no code if there is none), and all other events keep theirs. When the line of one more block, in a section where all names differ, is replaced by one with the same name and another spec that is read, only the spec of that more block changes. If the screen of that name is not used, or a later section replaces this one, nothing changes.", "quantifier": "for all raw projects that are opened and converted, all sections of pools and all lines in them", "why_tests_cant": "the text, the number of screens and entries is unbounded; that an edit of lines of one section reaches one list of one screen only, and that a changed event gets the code of its new container while all other events keep theirs, can not be tested for all of them", "anchors": ["src/parser/logic.rs:23-262", "src/parser/mod.rs:152-180", "src/api/mod.rs:306-420", "src/api/screen.rs:182-283"]}
{"id": "C140", "title": "An argument of a block is edited, at any depth of the code", "statement": "Let a container whose blocks have different numbers be read without an error, and take one of its blocks and one of its argument texts. If the block is in the code, at any depth, one of two things holds. Either its spec has not so many arguments: then the same code is read with any other text in this place. Or the text belongs to one argument: with another text that is a value of its kind (any text without @ in front for strings, a number, true or false, any text at all for menus) the same code is read with this value in this place only; with a reference to the first block of another container with other numbers that is put behind, the same code is read with this block in this place (the blocks true and false are values for boolean arguments); and with any other text that refers to no block of the container, the container is not read. If the block is not in the code, the same code is read with any other block of its number.", "quantifier": "for all containers with different numbers that are read, all their blocks and all texts", "why_tests_cant": "number and nesting of the blocks, the specs and the texts are unbounded; that an edited argument text reaches this one argument only, and which texts are refused, can not be tested for all of them", "anchors": ["src/api/block.rs:16-101", "src/api/block.rs:635-732", "src/api/block.rs:832-897"]}
{"id": "C141", "title": "Settings are edited in the texts of the project file, the library file and the lists", "statement": "Let a project be opened and converted. With another text of the project file it is still opened and converted if the text can be read, and has the metadata and the colours of the new text and nothing else changes; if the text can not be read, it is not opened. With another text of the library file that can be read it is still opened, and is converted exactly if each of the libraries firebase, admob and google map is marked with Y or N: then it has the libraries that are marked with Y, and nothing else changes. If the line of an activity in the file list is replaced by another one with the same name, the project is still opened and converted, and the screen of this activity has the settings of the new line (full screen, toolbar, drawer, fab, orientation, theme, keyboard), and nothing else changes; for the line of a custom view, nothing changes at all. If the line of an image, sound or font in the resource list is replaced by another one for the same file, the project is still opened and converted, and this resource has the new name at the same place, and nothing else changes.", "quantifier": "for all projects that are opened and converted, with or without resource files, and all texts and lines", "why_tests_cant": "the texts and lists are unbounded; that an edited setting reaches exactly one place of the project can not be tested for all of them", "anchors": ["src/api/mod.rs:303-450", "src/parser/mod.rs:152-180", "src/parser/file.rs:16-64", "src/parser/resource.rs:24-69"]}
{"id": "C142", "title": "An argument of a block is edited in the text of the logic file", "statement": "Let a project be opened and converted, and take the line of a block in a section of code of the text of its logic file, whose container has blocks with different numbers. If one argument text of the line is replaced by another text that is a value for the argument of this number in the spec (any text for menus; otherwise a text without @ in front, that for numbers is read as a number and for booleans is true or false), or if the spec has no such argument, the project is still opened and converted, and only this argument of this block, at whatever depth of the code it is, has the new value. If the text is replaced by a reference to the first one of blocks with other numbers whose lines are put at the end of the section, and the argument is no menu, the project is still opened and converted, and only this argument of this block has this block in its place.", "quantifier": "for all projects that are opened and converted, all lines of blocks, all arguments and all texts", "why_tests_cant": "the text of the logic file, the number and nesting of the blocks and the specs are unbounded; that the edit of one argument in the text reaches this one argument of the project and nothing else can not be tested for all of them", "anchors": ["src/api/block.rs:16-101", "src/api/block.rs:635-732", "src/api/block.rs:832-897", "src/parser/logic.rs:23-262", "src/api/mod.rs:303-450"]}
{"id": "C143", "title": "An edit of a project changes only its own line of the texts", "statement": "Let a project of the API model be saved, let one thing in it be edited, and let it be saved again. This always succeeds, all texts but one are the same, and this one is the same but for the line of the thing, which is replaced by its new line: the settings of a screen in the list of files; the firebase, appcompat, admob or google map settings in the list of libraries; the id of an image, sound or font in the list of resources; a view at any depth of the layout of a screen, whose id, type and children stay, in the text of the views; a variable, a list variable or a component of a screen, and a block of the code of an event or a moreblock, in the text of the logic. The names of the classes of the screens are different (and for a view the names of the layouts, for code those of the containers), and the lines of the variables have no white space at their ends.", "quantifier": "for all projects of the API model that can be saved, all screens, things and new values", "why_tests_cant": "the number of screens, views, blocks and entries is unbounded and the writers trim the texts that they put together; that an edit cannot disturb another line of any text can not be tested for all projects", "anchors": ["src/api/mod.rs:496-775", "src/parser/mod.rs:214-240", "src/parser/logic.rs:165-262", "src/parser/view.rs:70-101", "src/parser/file.rs:66-90", "src/parser/library.rs:68-90", "src/parser/resource.rs:71-100"]}
{"id": "C144", "title": "An edit of a block anywhere in the code changes only its own line of the text", "statement": "Let a project of the API model be saved, let one block of the code of an event or a moreblock be edited, at any depth of the substacks and arguments, and let it be saved again. The edit may change the operation, the colour, the type, the texts of the spec, and add, drop or change arguments that are texts, numbers or empty; it keeps the substacks and the blocks in the arguments. Saving always succeeds, all texts but the logic are the same, and the logic is the same but for the line of this block: its number, the number of the next block and those of the substacks stay, and the parameters and the spec are those of the new block. A boolean literal is written as a block and changes in the same way. The names of the classes of the screens and the names of the containers are different.", "quantifier": "for all projects of the API model that can be saved, all screens, events and moreblocks, all blocks at any depth and all edits of this kind", "why_tests_cant": "blocks are trees of unbounded depth that get their numbers from one counter while they are written, so that an edit could renumber everything after it; that it never does can not be tested for all trees", "anchors": ["src/api/block.rs:147-326", "src/api/mod.rs:496-775", "src/parser/logic.rs:165-262", "src/parser/logic.rs:1056-1073"]}
{"id": "C145", "title": "Blocks that are added at the end of code renumber nothing", "statement": "Let a project of the API model be saved, let blocks be added at the end of the code of an event or a moreblock that is not empty, such that the new code can be written, and let it be saved again. Saving succeeds, all texts but the logic are the same, and the logic is the same but for one place: the line of the block that was the last one has the number of the first new block as its next one instead of -1, the lines of the blocks in it are the same, and after them come the lines of the new blocks. All old blocks keep their numbers and references, the new ones get the numbers after them. The names of the classes of the screens and the names of the containers are different.", "quantifier": "for all projects of the API model that can be saved, all screens, events and moreblocks, all old and new blocks", "why_tests_cant": "blocks are trees of unbounded depth that get their numbers from one counter while they are written; that adding code never disturbs other code can not be tested for all trees", "anchors": ["src/api/block.rs:147-326", "src/api/mod.rs:496-775", "src/parser/logic.rs:165-262", "src/parser/logic.rs:1056-1073"]}
{"id": "C146", "title": "Variables and components that are added, removed or reordered replace only their own lines", "statement": "Let a project of the API model be saved, let some of the variables, list variables or components of a screen that stand one after the other be replaced by others, and let it be saved again. There is at least one of them before and after. Saving succeeds, all texts but the logic are the same, and the logic is the same but for the lines of the things that are replaced, which become the lines of the new ones, in their order. So a variable that is added after another adds one line, and one that is removed beside another removes one. The names of the classes of the screens are different, and the lines of the variables have no white space at their ends.", "quantifier": "for all projects of the API model that can be saved, all screens, all runs of variables or components and all new ones", "why_tests_cant": "the number of screens and entries is unbounded and the writers trim the texts that they put together; that added lines cannot disturb others can not be tested for all projects", "anchors": ["src/api/mod.rs:496-775", "src/parser/logic.rs:165-262", "src/parser/logic.rs:389-399", "src/parser/logic.rs:546-556", "src/parser/logic.rs:660-680"]}
{"id": "C147", "title": "An edit of the metadata or the colours changes only its own member of the project text", "statement": "Let a project of the API model be saved, let one of the values of its metadata (the id, the name, the name of the workspace, the name of the package, the code or the name of the version, the version of the editor) or one of its colours be edited, and let it be saved again. This always succeeds, all texts but that of the project are the same, and this one is the same but for the member of the value, which keeps its key and gets the new value. The same holds of the time of creation when the new time is a date; when it is none, the project cannot be saved.", "quantifier": "for all projects of the API model that can be saved and all new values", "why_tests_cant": "names are texts of any length with any characters, which are escaped in the text; that an edit of one value cannot disturb another can not be tested for all texts", "anchors": ["src/api/mod.rs:496-500", "src/api/mod.rs:640-677", "src/parser/project.rs:10-71", "src/parser/mod.rs:214-240"]}
{"id": "C148", "title": "Resources that are added, removed or reordered replace only their own lines", "statement": "Let a project of the API model be saved, let some of the images, sounds or fonts that stand one after the other be replaced by others whose files have names, and let it be saved again. Saving succeeds, all texts but the list of resources are the same, and this one is the same but for the lines of the resources that are replaced, which become those of the new ones, in their order: the name of the file, the id and the type 1. There may be no image or sound before or after, so that adding one adds one line and removing one removes it; of the fonts, whose section has no end of line at its end, there is at least one before and after.", "quantifier": "for all projects of the API model that can be saved, all runs of resources and all new ones", "why_tests_cant": "the number of resources is unbounded and the last section is trimmed; that added lines cannot disturb others can not be tested for all projects", "anchors": ["src/api/mod.rs:496-540", "src/parser/resource.rs:71-100", "src/parser/mod.rs:214-240"]}
{"id": "C149", "title": "A view that is added to a layout or removed from it adds or removes one line", "statement": "Let a project of the API model be saved, let a view without children be added to the layout of a screen that is not empty, at any place and any depth, or let one that is not the only one be removed, and let it be saved again. Saving succeeds, all texts but that of the views are the same, and this one has exactly one line more or less: the line of the view, with the id and the type of its parent. The names of the layouts and of the classes of the screens are different.", "quantifier": "for all projects of the API model that can be saved, all screens, all places in the tree of views and all views without children", "why_tests_cant": "views are trees of unbounded depth that are written level by level below each view; that adding one never moves the lines of others can not be tested for all trees", "anchors": ["src/api/view.rs:516-587", "src/api/mod.rs:496-775", "src/parser/view.rs:70-101", "src/parser/mod.rs:214-240"]}
{"id": "C150", "title": "Edits of custom views and of floating buttons change only their own lines", "statement": "Let a project of the API model be saved, let one view of the layout of a custom view, at any depth, be edited (it keeps its id, its type and its children), or one without children be added to it or removed from it, or let the floating button of a screen be edited, and let the project be saved again. Saving succeeds, all texts but that of the views are the same, and this one differs only in the line of the view, or has exactly this line more or less. The names of the layouts and of the classes of the screens are different.", "quantifier": "for all projects of the API model that can be saved, all custom views, all places in their trees, all views, and all screens that have a floating button", "why_tests_cant": "custom views take another way through the API than screens (they are put into the same map of layouts after them) and floating buttons have a section of their own; that an edit stays in its place can not be tested for all trees", "anchors": ["src/api/mod.rs:496-775", "src/api/view.rs:516-587", "src/parser/view.rs:70-101", "src/parser/mod.rs:214-240"]}
{"id": "C151", "title": "Floating buttons and custom views that are added or removed change only their own runs of lines", "statement": "Let a project of the API model be saved, let the floating button of a screen be added, removed or replaced, or let a run of custom views be replaced by another one, and let the project be saved again. Saving succeeds. In the first case all texts but that of the views are the same, and this one has the header and the line of the new button in place of those of the old one. In the second case all texts but those of the views and of the files are the same: the text of the views has the headers and lines of the new custom views in place of those of the old ones, and in the text of the files only the section of the custom views is another one. Line ends at the end of the text of the views do not count. The names of the layouts and of the classes of the screens are different.", "quantifier": "for all projects of the API model that can be saved, all screens, all views, and all runs of custom views", "why_tests_cant": "floating buttons and custom views are put into maps that are shared with the screens; that none of them moves or drops the lines of another one can not be tested for all projects", "anchors": ["src/api/mod.rs:496-775", "src/parser/view.rs:70-101", "src/parser/file.rs:66-91", "src/parser/mod.rs:214-240"]}
{"id": "C152", "title": "Screens that are added or removed change only their own runs of lines", "statement": "Let a project of the API model be saved, let a run of its screens be replaced by another one whose code can be written (so screens are added, removed or replaced at any place), and let the project be saved again. Saving succeeds, and the texts of the project, the libraries and the resources are the same. The text of the views has the lines of the layouts and of the floating buttons of the new screens in place of those of the old ones, the text of the files has their lines in place of the old ones, and the text of the logic is that of the same list of screens with the new ones in place of the old ones: in each of its six runs of sections (variables, lists, components, events, moreblocks, blocks) the sections of the new screens stand in place of those of the old ones, and all around them is the same. Line ends at the end of the text of the views do not count. The names of the layouts and of the classes are different, before and after.", "quantifier": "for all projects of the API model that can be saved and all runs of screens", "why_tests_cant": "screens are taken apart into five maps and lists; that another screen never moves, drops or changes what is written for the others can not be tested for all projects", "anchors": ["src/api/mod.rs:496-775", "src/parser/view.rs:70-101", "src/parser/file.rs:66-91", "src/parser/logic.rs:165-251", "src/parser/mod.rs:214-240"]}
{"id": "C153", "title": "Events that are added or removed change only their line and their section of code", "statement": "Let a project of the API model be saved, let a run of the events of a screen be replaced by another one whose code can be written (so events are added, removed or replaced at any place), and let the project be saved again. Saving succeeds and all texts but that of the logic are the same. This one differs in two places of the screen: the section of its events is that of the new list, in which the event onCreate has no line, and of the sections of its code only those of the replaced events are replaced by those of the new ones. The classes of the screens have different names, and so have the containers of the code of the screen, before and after, and its moreblocks.", "quantifier": "for all projects of the API model that can be saved, all screens and all runs of events", "why_tests_cant": "the code of events and moreblocks of a screen is put into one map of containers; that another event never moves or changes the code of the others can not be tested for all lists and codes", "anchors": ["src/api/mod.rs:556-611", "src/api/screen.rs:83-107", "src/parser/logic.rs:165-251"]}
{"id": "C154", "title": "Moreblocks that are added or removed change only their line and their section of code", "statement": "Let a project of the API model be saved, let a run of the moreblocks of a screen be replaced by another one whose code can be written (so moreblocks are added, removed or replaced at any place), and let the project be saved again. Saving succeeds and all texts but that of the logic are the same. This one differs in two places of the screen: the section of its moreblocks is that of the new list, with a line `name:spec` for each, and of the sections of its code only those of the replaced moreblocks are replaced by those of the new ones. The classes of the screens have different names, and so have the containers of the code of the screen and its moreblocks, before and after.", "quantifier": "for all projects of the API model that can be saved, all screens and all runs of moreblocks", "why_tests_cant": "the code of events and moreblocks of a screen is put into one map of containers; that another moreblock never moves or changes the code of the others can not be tested for all lists and codes", "anchors": ["src/api/mod.rs:556-611", "src/parser/logic.rs:165-251"]}
