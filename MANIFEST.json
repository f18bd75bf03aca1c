{
 "claims": [
  {
   "property": "C01",
   "status": "proved",
   "theorems": [
    "Verif.C01_parse_lossless"
   ],
   "note": ""
  },
  {
   "property": "C02",
   "status": "proved",
   "theorems": [
    "Verif.C02_parse_canonical"
   ],
   "note": ""
  },
  {
   "property": "C03",
   "status": "proved",
   "theorems": [
    "Verif.C03_target",
    "Verif.C03_kind",
    "Verif.C03_replaced"
   ],
   "note": ""
  },
  {
   "property": "C04",
   "status": "partial",
   "theorems": [
    "Verif.C04_builtin_violated",
    "Verif.C04_builtin_partial"
   ],
   "note": "The code violates the property for exactly two strings (src/kind.rs:32): C04_builtin_violated. C04_builtin_partial covers all others."
  },
  {
   "property": "C05",
   "status": "proved",
   "theorems": [
    "Verif.C05_no_dots",
    "Verif.C05_no_dots_text"
   ],
   "note": ""
  },
  {
   "property": "C06",
   "status": "proved",
   "theorems": [
    "Verif.C06_idempotent"
   ],
   "note": ""
  },
  {
   "property": "C07",
   "status": "proved",
   "theorems": [
    "Verif.C07_walk",
    "Verif.C07_tree",
    "Verif.C07_relative_counterexample"
   ],
   "note": ""
  },
  {
   "property": "C08",
   "status": "proved",
   "theorems": [
    "Verif.C08_success_is_file",
    "Verif.C08_success_is_file_system",
    "Verif.C08_success_is_file_tree"
   ],
   "note": ""
  },
  {
   "property": "C09",
   "status": "proved",
   "theorems": [
    "Verif.C09_target_consumed",
    "Verif.C09_assert_never_fires"
   ],
   "note": ""
  },
  {
   "property": "C10",
   "status": "proved",
   "theorems": [
    "Verif.C10_file_order",
    "Verif.C10_no_file",
    "Verif.C10_found",
    "Verif.C10_missing"
   ],
   "note": ""
  },
  {
   "property": "C11",
   "status": "proved",
   "theorems": [
    "Verif.C11_enforced"
   ],
   "note": ""
  },
  {
   "property": "C12",
   "status": "proved",
   "theorems": [
    "Verif.C12_new",
    "Verif.C12_default",
    "Verif.C12_unset",
    "Verif.C12_alike",
    "Verif.C12_empty_sharp"
   ],
   "note": ""
  },
  {
   "property": "C13",
   "status": "partial",
   "theorems": [
    "Verif.C13_dirs",
    "Verif.C13_nearest_partial",
    "Verif.C13_nearest_violated",
    "Verif.C13_name_violated",
    "Verif.C13_nearest"
   ],
   "note": "C13_nearest_partial lacks: if the target is a directory without main file on the way, the search goes wrong (`C13_nearest_violated`); a path in a package whose name has characters beyond ASCII (`C13_name_violated`). C13_nearest_violated (the code does not have the property): C13 does not hold if a nearer package is a directory without main file: the search goes on with an empty target. From `/a/b` the request `m` gives a file of the root directory's `node_modules` that is no candidate at all, although `/a/node_modules/m/index.js` exists. C13_name_violated (the code does not have the property): C13 does not hold for paths in packages whose names are not ASCII: `é/` would be cut in the middle of a character, and of `éa/d` the code takes `é` to be the package (src/resolve.rs:51-64: positions are counted in characters and used as bytes). So the request fails though there is a candidate. (The file itself is found: if there is no such package, the request may name a file.)"
  },
  {
   "property": "C14",
   "status": "partial",
   "theorems": [
    "Verif.C14_exhaustive_partial",
    "Verif.C14_exhaustive_violated",
    "Verif.C14_exhaustive"
   ],
   "note": "C14_exhaustive_partial lacks: as for `C13_nearest_partial` (`C14_exhaustive_violated`). C14_exhaustive_violated (the code does not have the property): C14 does not hold for the same reason: the request fails though a candidate exists."
  },
  {
   "property": "C15",
   "status": "partial",
   "theorems": [
    "Verif.C15_ignored_partial",
    "Verif.C15_tsconfig_partial",
    "Verif.C15_tsconfig_violated"
   ],
   "note": "C15_ignored_partial lacks: resolvers with a tsconfig (`C15_tsconfig_partial`, `C15_tsconfig_violated`). C15_tsconfig_partial: C15 with a tsconfig: the answer is `Ignored`, unless the tsconfig cannot be read or one of its `paths` entries resolves. C15_tsconfig_violated (the code does not have the property): C15 does not hold with a tsconfig: a `paths` entry wins over the ignored alias, and a tsconfig that is missing is an error."
  },
  {
   "property": "C16",
   "status": "partial",
   "theorems": [
    "Verif.C16_unrelated_violated",
    "Verif.C16_unrelated_partial"
   ],
   "note": "C16_unrelated_violated (the code does not have the property): C16 fails as stated with prefer_relative: the key `./a` is no prefix of the request `a`, yet the request is ignored, because `./a` is what prefer_relative asks for. C16_unrelated_partial lacks: with prefer_relative the keys must not apply to `./` and the target either (`C16_unrelated_violated`)."
  },
  {
   "property": "C17",
   "status": "partial",
   "theorems": [
    "Verif.C17_in_order_violated",
    "Verif.C17_in_order_partial",
    "Verif.C17_prefer_partial",
    "Verif.C17_tsconfig_partial"
   ],
   "note": "C17_in_order_violated (the code does not have the property): C17 fails as stated with prefer_relative: no alias applies to `a`, yet the result is not that of the resolver without aliases. C17_in_order_partial lacks: prefer_relative (`C17_in_order_violated`); for resolvers with a tsconfig see `C17_tsconfig_partial`. C17_prefer_partial lacks: this is what the code does instead of C17 and C18, which do not hold with both options (`C17_in_order_violated`, `C18_prefer_violated`). C17_tsconfig_partial lacks: prefer_relative (`C17_in_order_violated`)."
  },
  {
   "property": "C18",
   "status": "partial",
   "theorems": [
    "Verif.C18_hash_violated",
    "Verif.C18_prefer_violated",
    "Verif.C18_prefer_partial",
    "Verif.C18_tsconfig_partial"
   ],
   "note": "C18_hash_violated (the code does not have the property): C18 does not hold for a `#` request: `./` in front of it makes it a request for the directory, with a fragment, and that request resolves; but `prefer_relative` looks for a file of the name `#a`. C18_prefer_violated (the code does not have the property): C18 fails as stated with aliases: `./a` resolves, but the alias for `a` comes first. C18_prefer_partial lacks: aliases (`C18_prefer_violated`), and requests starting with `#`, where `./` in front of the request is read as target `./` with a fragment (`C18_hash_violated`); for resolvers with a tsconfig see `C18_tsconfig_partial`. C18_tsconfig_partial lacks: aliases (`C18_prefer_violated`), and requests starting with `#`."
  },
  {
   "property": "C19",
   "status": "partial",
   "theorems": [
    "Verif.C19_read",
    "Verif.C19_written_partial",
    "Verif.C19_main_written",
    "Verif.C19_imports_written_partial",
    "Verif.C19_exports_partial",
    "Verif.C19_exports_main",
    "Verif.C19_imports_partial",
    "Verif.C19_order",
    "Verif.C19_selection_violated"
   ],
   "note": "C19_written_partial is partial: as for `C19_exports_partial`. C19_imports_written_partial is partial: as for `C19_imports_partial`. C19_exports_partial is partial: the `*` keys that match are ASCII (`C19_selection_violated`). C19_imports_partial is partial: the `*` keys that match are ASCII. C19_selection_violated (the code does not have the property): C19 does not hold for all requests: positions are compared as bytes in one place and as characters in another, so `./éé*` beats the longer `./éé/*`, and the text put in is wrong."
  },
  {
   "property": "C20",
   "status": "proved",
   "theorems": [
    "Verif.C20_written",
    "Verif.C20_depth_first",
    "Verif.C20_scan_unique",
    "Verif.C20_order_irrelevant"
   ],
   "note": ""
  },
  {
   "property": "C21",
   "status": "proved",
   "theorems": [
    "Verif.C21_written",
    "Verif.C21_bad_default",
    "Verif.C21_only_error"
   ],
   "note": ""
  },
  {
   "property": "C22",
   "status": "partial",
   "theorems": [
    "Verif.C22_written_partial",
    "Verif.C22_imports_written_partial",
    "Verif.C22_folder",
    "Verif.C22_star_partial",
    "Verif.C22_dollar",
    "Verif.C22_exports_partial",
    "Verif.C22_imports_partial",
    "Verif.C22_star_violated",
    "Verif.C22_exact_violated"
   ],
   "note": "C22_written_partial is partial: as for `C22_exports_partial`. C22_imports_written_partial is partial: as for `C22_exports_partial`. C22_star_partial is partial: for texts without `$`. C22_exports_partial is partial: for requests without `$`, ASCII `*` keys, and no equal key with a `*` in a target. C22_imports_partial is partial: as for `C22_exports_partial`. C22_star_violated (the code does not have the property): C22 does not hold for texts with `$`: it is doubled. C22_exact_violated (the code does not have the property): Nor is an equal key always exact: in a nested directory, a `*` in its target is replaced by a part of the request."
  },
  {
   "property": "C23",
   "status": "partial",
   "theorems": [
    "Verif.C23_absolute_violated",
    "Verif.C23_browser_violated",
    "Verif.C23_imports_resolve_partial",
    "Verif.C23_exports_partial",
    "Verif.C23_imports_partial",
    "Verif.C23_escape_violated",
    "Verif.C23_resolve_partial"
   ],
   "note": "C23_absolute_violated (the code does not have the property): C23 does not hold for a target that starts with `*`: the request says what it stands for, and that may be an absolute path. So a request to a package, or a `#` request in it, leads to a file anywhere on the disk. C23_browser_violated (the code does not have the property): C23 does not hold with a `browser` map: it can lead from a target of exports out of the package. C23_imports_resolve_partial lacks: as for `C65_path_partial`; targets with empty segments (`C23_escape_violated`). C23_exports_partial is partial: targets without empty segments; `isFile` never holds for a path that ends in `..`. C23_imports_partial: C23 for a relative target of imports. Partial as above. C23_escape_violated (the code does not have the property): C23 does not hold with empty segments: they count as a step down. C23_resolve_partial lacks: as for `C26_exports_partial`; targets with empty segments (`C23_escape_violated`); absolute targets, which a `*` at the beginning of a target can make (`C23_absolute_violated`); `browser` entries for the target (`C23_browser_violated`)."
  },
  {
   "property": "C24",
   "status": "partial",
   "theorems": [
    "Verif.C24_written",
    "Verif.C24_keys",
    "Verif.C24_only_map_partial",
    "Verif.C24_hash_violated"
   ],
   "note": "C24_only_map_partial is partial: only for packages with an imports map. C24_hash_violated (the code does not have the property): C24 does not hold in a package without imports: a `#` request is looked up in `node_modules`."
  },
  {
   "property": "C25",
   "status": "partial",
   "theorems": [
    "Verif.C25_key_violated",
    "Verif.C25_order_partial"
   ],
   "note": "C25_key_violated (the code does not have the property): C25 does not hold for `*` keys beyond ASCII: the key `./éé/*` is the longest that matches, but the request gets the target of another one (as in `C19_selection_violated`). C25_order_partial is partial: for ASCII `*` keys and package names (if a path follows the name), and not for targets that start with `#` (`C26_hash_violated`). With enforced extensions the first is given an extension (`C26_extension_violated`)."
  },
  {
   "property": "C26",
   "status": "partial",
   "theorems": [
    "Verif.C26_exports_partial",
    "Verif.C26_enforced_partial",
    "Verif.C26_extension_violated",
    "Verif.C26_outer_violated",
    "Verif.C26_hash_violated"
   ],
   "note": "C26_exports_partial is partial: for ASCII `*` keys and package names (if a path follows the name), not for targets that start with `#`, and not with enforced extensions (`C26_extension_violated`, `C26_hash_violated`). C26_enforced_partial lacks: as for `C26_exports_partial`; targets for which there is no file with an extension, where the search goes on in the directories further up (`C26_outer_violated`). C26_extension_violated (the code does not have the property): C26 does not hold with enforced extensions: a target that exists is given an extension. C26_outer_violated (the code does not have the property): C26 does not hold with enforced extensions in a further way: if the target exists and has no sibling with an extension, a package of the same name further up is taken, which the exports say nothing about. C26_hash_violated (the code does not have the property): C26 does not hold for a target that starts with `#`: it is looked up in imports."
  },
  {
   "property": "C27",
   "status": "partial",
   "theorems": [
    "Verif.C27_off_partial",
    "Verif.C27_panic_violated",
    "Verif.C27_main_violated"
   ],
   "note": "C27_off_partial lacks: `browser` maps with the value `true` (`C27_panic_violated`), and `browser` as a main field (`C27_main_violated`). C27_panic_violated (the code does not have the property): C27 does not hold in general: a `browser` map with the value `true` makes calls panic, also when `browser_field` is off. C27_main_violated (the code does not have the property): C27 does not hold in general: the `browser` field counts if it is listed as a main field."
  },
  {
   "property": "C28",
   "status": "partial",
   "theorems": [
    "Verif.C28_ignored_partial",
    "Verif.C28_replaced",
    "Verif.C28_bare_violated"
   ],
   "note": "C28_ignored_partial lacks: for a bare request the package below `node_modules` is asked and not the one that the request comes from (`C28_bare_violated`); maps in which two keys cover the same path (part of `Static`). C28_bare_violated (the code does not have the property): C28 does not hold for bare requests: the `browser` map of the package from which the request comes is not asked if the package requested has a description file."
  },
  {
   "property": "C29",
   "status": "partial",
   "theorems": [
    "Verif.C29_bare",
    "Verif.C29_chosen_partial",
    "Verif.C29_unchanged",
    "Verif.C29_order_violated"
   ],
   "note": "C29_chosen_partial lacks: two keys that cover the same path (`C29_order_violated`). C29_order_violated (the code does not have the property): C29 does not hold for paths in general: with `./a` and `./a.js` in the map, the order decides."
  },
  {
   "property": "C30",
   "status": "partial",
   "theorems": [
    "Verif.C30_order_partial",
    "Verif.C30_order_violated"
   ],
   "note": "C30_order_partial is partial: not if an earlier main field names a directory that does not resolve (`C30_order_violated`), or the directory itself. C30_order_violated (the code does not have the property): C30 does not hold: after a main field that names a directory which does not resolve, the others are seen from that directory."
  },
  {
   "property": "C31",
   "status": "partial",
   "theorems": [
    "Verif.C31_browser_violated",
    "Verif.C31_order_partial",
    "Verif.C31_order_violated"
   ],
   "note": "C31_browser_violated (the code does not have the property): C31 does not hold in general: after a main file that the `browser` map of another directory's package replaces by something that is not there, the next main file is looked for in that other directory. C31_order_partial is partial: not if a main field but the last names a directory that does not resolve (`C31_order_violated`), and not after a main file that the `browser` map of another directory's package replaces by something that is not there (`C31_browser_violated`). C31_order_violated (the code does not have the property): C31 does not hold: no main field leads to a file, but the main file of the directory is not returned."
  },
  {
   "property": "C32",
   "status": "partial",
   "theorems": [
    "Verif.C32_lookup_partial",
    "Verif.C32_contents_partial",
    "Verif.C32_mixed_violated"
   ],
   "note": "C32_lookup_partial lacks: an exports value that equals an imports value (`C38_mixed_violated`); debug builds (`C33_debug_violated`); resolvers that share a cache but name their description files differently (`C37_description_violated`). C32_contents_partial lacks: resolvers that share a cache but name their description files differently. C32_mixed_violated (the code does not have the property): C32 does not hold in general: what is cached for the package `/p/node_modules/b` depends on the calls made before."
  },
  {
   "property": "C33",
   "status": "partial",
   "theorems": [
    "Verif.C33_transparent_partial",
    "Verif.C33_mixed_violated",
    "Verif.C33_debug_violated"
   ],
   "note": "C33_transparent_partial lacks: as for `C32_lookup_partial`; `browser` maps with keys that cover the same path (`C49_order_violated`). C33_mixed_violated (the code does not have the property): C33 does not hold in general: a request fails on a fresh resolver, and succeeds after another call. C33_debug_violated (the code does not have the property): C33 does not hold in debug builds: the second call panics where the first returned an error."
  },
  {
   "property": "C34",
   "status": "partial",
   "theorems": [
    "Verif.C34_interleaved_partial",
    "Verif.C34_mixed_violated"
   ],
   "note": "C34_interleaved_partial lacks: as for `C33_transparent_partial`; two entries of the `paths` of a tsconfig that match the request (there the order differs between runs, with or without other calls: `C49_tsconfig_violated`). C34_mixed_violated (the code does not have the property): C34 does not hold in general: the result depends on how two calls interleave."
  },
  {
   "property": "C35",
   "status": "partial",
   "theorems": [
    "Verif.C35_changes_partial",
    "Verif.C35_lookup_partial",
    "Verif.C35_soon_sharp",
    "Verif.C35_backwards_fails",
    "Verif.C35_malformed_violated",
    "Verif.C35_race_violated",
    "Verif.C35_overtaken_violated"
   ],
   "note": "C35_changes_partial lacks: malformed contents (`C35_malformed_violated`); calls in progress while files change, or while another call reads them (`C35_race_violated`, `C35_overtaken_violated`); deletion and creation (see C36). C35_lookup_partial lacks: as for `C35_changes_partial`. C35_malformed_violated (the code does not have the property): C35 does not hold for malformed contents: the error is reported once, then the old contents are used, though nothing changed in between. C35_race_violated (the code does not have the property): C35 does not hold when calls are in progress during the change: call 0 overwrites the package that call 1 stored, and the old contents are used from then on. C35_overtaken_violated (the code does not have the property): C35 does not hold for calls that run at the same time after the change: call 2 starts after the change and uses the old contents."
  },
  {
   "property": "C36",
   "status": "partial",
   "theorems": [
    "Verif.C36_below_partial",
    "Verif.C36_new_partial",
    "Verif.C36_deleted_violated",
    "Verif.C36_above_violated"
   ],
   "note": "C36_below_partial lacks: description files with none above them (`C36_above_violated`; but see `C36_new_partial`); deleted files (`C36_deleted_violated`); and what is missing for C35. C36_new_partial lacks: lookups in directories below it (`C36_above_violated`, `C36_below_partial`); an exports value that equals an imports value; debug builds. C36_deleted_violated (the code does not have the property): C36 does not hold for deleted files: the deleted description file is still used. (A fresh resolver finds `/p/index.js`.) C36_above_violated (the code does not have the property): C36 does not hold for created files: for a directory that was looked at before, a description file created above it is not noticed. (A fresh resolver finds it.)"
  },
  {
   "property": "C37",
   "status": "partial",
   "theorems": [
    "Verif.C37_sharing_partial",
    "Verif.C37_description_violated"
   ],
   "note": "C37_sharing_partial lacks: as for `C34_interleaved_partial`; different names for the description file (`C37_description_violated`). C37_description_violated (the code does not have the property): C37 does not hold in general: a resolver for `other.json` uses what a resolver for `package.json` put into the shared cache."
  },
  {
   "property": "C38",
   "status": "partial",
   "theorems": [
    "Verif.C38_trees_partial",
    "Verif.C38_mixed_violated",
    "Verif.C38_history_partial"
   ],
   "note": "C38_trees_partial lacks: an exports value that equals an imports value of another package (`C38_mixed_violated`). C38_mixed_violated (the code does not have the property): C38 does not hold in general: the tree of the imports of `a` is used as the exports tree of `b`. With its own tree `b` has no target for `./x`. C38_history_partial lacks: an exports value that is also the imports value of some file, for which the tree may be that of imports (`C38_mixed_violated`); see `Live.C55_torn_violated` for packages that are out of date as a whole."
  },
  {
   "property": "C39",
   "status": "proved",
   "theorems": [
    "Verif.C39_merge",
    "Verif.C39_extends"
   ],
   "note": ""
  },
  {
   "property": "C40",
   "status": "partial",
   "theorems": [
    "Verif.C40_star_violated",
    "Verif.C40_star_partial",
    "Verif.C40_panics"
   ],
   "note": "C40_star_violated (the code does not have the property): C40 fails as stated: the star does not match the empty text (although the request starts with the part before it and ends with the part after it), and a request with a character that straddles the byte length of the part before the star makes `resolve` panic. C40_star_partial lacks: empty captures and requests where the code panics (`C40_star_violated`, `C40_panics`)."
  },
  {
   "property": "C41",
   "status": "proved",
   "theorems": [
    "Verif.C41_paths",
    "Verif.C41_no_base"
   ],
   "note": ""
  },
  {
   "property": "C42",
   "status": "proved",
   "theorems": [
    "Verif.C42_errors",
    "Verif.C42_plain"
   ],
   "note": ""
  },
  {
   "property": "C43",
   "status": "partial",
   "theorems": [
    "Verif.C43_sources_partial",
    "Verif.C43_sources_live_partial",
    "Verif.C43_plain_partial",
    "Verif.C43_query_violated",
    "Verif.C43_query_partial"
   ],
   "note": "C43_sources_partial lacks: that they are those of the request (`C43_query_violated`). C43_sources_live_partial lacks: that they are those of the request (`C43_query_violated`). C43_plain_partial lacks: that it is the first (`C43_query_violated`); other targets (`C43_sources_partial`). C43_query_violated (the code does not have the property): C43 fails as stated: the query is lost through an imports mapping and through tsconfig paths, and changed (and the wrong file returned) through an exports pattern. C43_query_partial lacks: mappings, where the code loses the query (`C43_query_violated`). For any history, sharing and interleaving."
  },
  {
   "property": "C44",
   "status": "partial",
   "theorems": [
    "Verif.C44_directory_violated",
    "Verif.C44_sites_partial",
    "Verif.C44_history_partial",
    "Verif.C44_returns_partial",
    "Verif.C44_side_effects_partial",
    "Verif.C44_side_effects_sites",
    "Verif.C44_exports_violated",
    "Verif.C44_nested_violated",
    "Verif.C44_imports_violated",
    "Verif.C44_side_effects_violated",
    "Verif.C44_scope_violated",
    "Verif.C44_slice_violated",
    "Verif.C44_ts_empty_violated",
    "Verif.C44_ts_shape_violated",
    "Verif.C44_star_violated"
   ],
   "note": "C44_directory_violated (the code does not have the property): C44 does not hold: a path to a directory that has no main file always panics, in every state of the caches. C44_sites_partial lacks: the items themselves, which do lead to panics (`C44_*_violated`), and debug builds and files that change during the run, for which see `C44_history_partial`. C44_history_partial lacks: the items themselves, and that check (`C33_debug_violated`). C44_returns_partial lacks: as for `C44_sites_partial` and `C45_terminates_partial`. C44_side_effects_partial lacks: those (`C44_side_effects_violated`). C44_exports_violated (the code does not have the property): C44 does not hold: exports `null` make every request to the package panic, also that for a file. C44_nested_violated (the code does not have the property): C44 does not hold: so do exports with a list in a list. C44_imports_violated (the code does not have the property): C44 does not hold: so do imports that are no object. C44_side_effects_violated (the code does not have the property): C44 does not hold: `load_side_effects` panics too. C44_scope_violated (the code does not have the property): C44 does not hold: a scope without name panics. C44_slice_violated (the code does not have the property): C44 does not hold: a module name outside ASCII panics, though the file is there. C44_ts_empty_violated (the code does not have the property): C44 does not hold: an empty tsconfig panics. C44_ts_shape_violated (the code does not have the property): C44 does not hold: a tsconfig whose `baseUrl` is `null` panics. C44_star_violated (the code does not have the property): C44 does not hold: a request outside ASCII panics with the patterns of a tsconfig."
  },
  {
   "property": "C45",
   "status": "partial",
   "theorems": [
    "Verif.Live.C45_changes_partial",
    "Verif.C45_side_effects_always",
    "Verif.Live.C45_stale_violated",
    "Verif.C45_progress",
    "Verif.C45_terminates_partial",
    "Verif.C45_side_effects",
    "Verif.C45_alias_violated",
    "Verif.C45_imports_violated",
    "Verif.C45_browser_violated",
    "Verif.C45_main_violated",
    "Verif.C45_tsconfig_violated",
    "Verif.C45_hang_violated"
   ],
   "note": "C45_changes_partial lacks: versions that go round in circles (`C45_*_violated`), relative paths (`C45_hang_violated`), and directories that come and go during the call (`C54_*_violated`). C45_stale_violated (the code does not have the property): C45 does not hold, even where no version of the files goes round in circles: at first `/a` leads to `/b`, and later `/b` to `/a`. The caches know the old file of `/a`, and the call, which starts when the files no longer change, never ends. C45_terminates_partial lacks: aliases, `browser` entries, imports, main fields and tsconfig files that go round in circles (`C45_*_violated`), and relative paths (`C45_hang_violated`). For files that change during the run see `Live.C45_changes_partial`. C45_alias_violated (the code does not have the property): Two aliases for each other, neither of which is the beginning of the other, and a request that starts with one of them: the call never ends, on any file system. C45_imports_violated (the code does not have the property): Imports that lead to each other. C45_browser_violated (the code does not have the property): `browser` entries that lead to each other. C45_main_violated (the code does not have the property): A main field that leads back to its directory: the call never ends. C45_tsconfig_violated (the code does not have the property): A tsconfig file that extends itself: no call of the resolver ever ends. C45_hang_violated (the code does not have the property): A relative path: above it there is no directory with that text, and the loop that notes that there is no description file stands still."
  },
  {
   "property": "C46",
   "status": "partial",
   "theorems": [
    "Verif.C46_closest_partial",
    "Verif.C46_deleted_violated",
    "Verif.C46_found_partial",
    "Verif.C46_shared_violated"
   ],
   "note": "C46_closest_partial lacks: as for `C32_lookup_partial` (see `C46_found_partial` for what holds without `Static`). C46_deleted_violated (the code does not have the property): C46 does not hold when files change: after the description file was deleted, `load_side_effects` still returns it. (A new resolver returns nothing.) C46_found_partial lacks: resolvers that share a cache but name their description files differently (`C46_shared_violated`). That it returns (and not an error or a panic) if the file is fine is `C46_closest_partial`. C46_shared_violated (the code does not have the property): C46 does not hold if resolvers share a cache and name their description files differently: the file returned does not exist, and the entry is that of another file."
  },
  {
   "property": "C47",
   "status": "proved",
   "theorems": [
    "Verif.C47_entry",
    "Verif.C47_names_file",
    "Verif.C47_rejected",
    "Verif.C47_error",
    "Verif.C47_history"
   ],
   "note": ""
  },
  {
   "property": "C48",
   "status": "proved",
   "theorems": [
    "Verif.C48_symlinks"
   ],
   "note": ""
  },
  {
   "property": "C49",
   "status": "partial",
   "theorems": [
    "Verif.C49_order_partial",
    "Verif.C49_order_violated",
    "Verif.C49_tsconfig_violated"
   ],
   "note": "C49_order_partial lacks: `browser` maps with keys that cover the same path (`C49_order_violated`); two entries of the `paths` of a tsconfig that match the request (`C49_tsconfig_violated`). C49_order_violated (the code does not have the property): C49 does not hold in general: the result depends on the iteration order of the `browser` map. C49_tsconfig_violated (the code does not have the property): C49 does not hold in general: if two entries of the `paths` of a tsconfig match, the result depends on their iteration order."
  },
  {
   "property": "C50",
   "status": "proved",
   "theorems": [
    "Verif.C50_no_influence",
    "Verif.C50_no_cache"
   ],
   "note": ""
  },
  {
   "property": "C51",
   "status": "proved",
   "theorems": [
    "Verif.Live.C51_was_file",
    "Verif.Live.C51_was_file_tree"
   ],
   "note": ""
  },
  {
   "property": "C52",
   "status": "proved",
   "theorems": [
    "Verif.Live.C52_success",
    "Verif.Live.C52_errors",
    "Verif.Live.C52_sites"
   ],
   "note": ""
  },
  {
   "property": "C53",
   "status": "proved",
   "theorems": [
    "Verif.Live.C53_unnoticed",
    "Verif.Live.C53_quiet",
    "Verif.Live.C53_still"
   ],
   "note": ""
  },
  {
   "property": "C54",
   "status": "partial",
   "theorems": [
    "Verif.Live.C54_dirs_stay_partial",
    "Verif.Live.C54_loader_partial",
    "Verif.Live.C54_spin_violated"
   ],
   "note": "C54_dirs_stay_partial lacks: directories that come and go (`C54_spin_violated`); relative base paths. C54_loader_partial lacks: description files and directories that come and go; `resolve`, which repeats itself without end on some files that stand still (C45). C54_spin_violated (the code does not have the property): C54 does not hold: a directory that is removed at the wrong moment sends the call into an endless loop. However many steps `k` it makes, it is still in progress if the fuel suffices, and it never ends in any other way than by a lack of fuel in that loop."
  },
  {
   "property": "C55",
   "status": "partial",
   "theorems": [
    "Verif.Live.C55_turns_partial",
    "Verif.Live.C55_torn_violated"
   ],
   "note": "C55_turns_partial lacks: changes while a call is in progress (`C55_torn_violated`), and what is missing in C35. C55_torn_violated (the code does not have the property): C55 does not hold: the old contents are stored with the new time (src/fs.rs:56-67), so that calls made after the change use the old contents for as long as the file is not changed again. (A fresh resolver finds `/p/b.js`.)"
  },
  {
   "property": "C56",
   "status": "partial",
   "theorems": [
    "Verif.Live.C56_snapshot_partial",
    "Verif.Live.C56_mixed_violated"
   ],
   "note": "C56_snapshot_partial lacks: calls to which no file system gives all the answers (`C56_mixed_violated`). C56_mixed_violated (the code does not have the property): C56 does not hold: before the change the answer is `/p/a.js`, after it `/p/b.js`, and the call during which the change happens finds neither and answers `/p/index.js`."
  },
  {
   "property": "C57",
   "status": "partial",
   "theorems": [
    "Verif.C57_spelling_partial",
    "Verif.C57_end_violated"
   ],
   "note": "C57_spelling_partial lacks: a path with and one without a separator at the end, if the request is empty or `.` (`C57_end_violated`); and what is missing in C33. C57_end_violated (the code does not have the property): C57 does not hold for the request `.`: a separator at the end of the base path decides whether an extension may be added to its name."
  },
  {
   "property": "C58",
   "status": "partial",
   "theorems": [
    "Verif.C58_absolute_partial",
    "Verif.C58_prefer_violated",
    "Verif.C58_alias_violated"
   ],
   "note": "C58_absolute_partial lacks: `prefer_relative` (`C58_prefer_violated`) and aliases that apply (`C58_alias_violated`). C58_prefer_violated (the code does not have the property): C58 does not hold with `prefer_relative`: the absolute request is first looked up below the directory it comes from. C58_alias_violated (the code does not have the property): Nor does it hold with an alias that makes a relative request of it."
  },
  {
   "property": "C59",
   "status": "partial",
   "theorems": [
    "Verif.C59_again_partial",
    "Verif.C59_mark_violated",
    "Verif.C59_broken_violated",
    "Verif.C59_enforced_violated",
    "Verif.C59_browser_violated",
    "Verif.C59_options_violated"
   ],
   "note": "C59_again_partial lacks: paths with `?` or `#` in them (`C59_mark_violated`); enforced extensions (`C59_enforced_violated`); a description file above the path that is broken or whose `browser` map covers it (`C59_broken_violated`, `C59_browser_violated`); aliases that apply to it, `prefer_relative` and tsconfig (`C59_options_violated`). C59_mark_violated (the code does not have the property): C59 does not hold for names with `?`: the path returned is read as a path with a query. C59_broken_violated (the code does not have the property): C59 does not hold if there is a broken description file between the file and the package it was found through. C59_enforced_violated (the code does not have the property): C59 does not hold with enforced extensions: the extension is asked for again. C59_browser_violated (the code does not have the property): C59 does not hold if the `browser` map nearest to the file covers it: on the way through the package above, it is not asked. C59_options_violated (the code does not have the property): C59 does not hold with `prefer_relative`, aliases that apply to the path, or a tsconfig that maps it: `/a.js` is returned, but `/a.js` resolves to `/p/a.js`."
  },
  {
   "property": "C60",
   "status": "partial",
   "theorems": [
    "Verif.C60_real",
    "Verif.C60_lexical_partial",
    "Verif.C60_link_violated"
   ],
   "note": "C60_lexical_partial lacks: `..`, which may come after a symbolic link (`C60_link_violated`). Without links it does not matter (`C08_success_is_file_tree`). C60_link_violated (the code does not have the property): C60 does not hold with symlinks off: the file found is `/q/x.js`, but the path returned is `/p/x.js`, which does not exist; so C59 does not hold either."
  },
  {
   "property": "C61",
   "status": "proved",
   "theorems": [
    "Verif.C61_said",
    "Verif.C61_said_live",
    "Verif.C61_old_sharp"
   ],
   "note": ""
  },
  {
   "property": "C62",
   "status": "proved",
   "theorems": [
    "Verif.C62_unused"
   ],
   "note": ""
  },
  {
   "property": "C63",
   "status": "partial",
   "theorems": [
    "Verif.C63_once_partial",
    "Verif.C63_release_partial",
    "Verif.C63_race_violated",
    "Verif.C63_absolute_violated"
   ],
   "note": "C63_once_partial lacks: description files that are not well-formed (`C33_debug_violated`); calls at the same time (`C63_race_violated`); description files with an absolute name (`C63_absolute_violated`). C63_release_partial lacks: as for `C63_once_partial`. C63_race_violated (the code does not have the property): C63 does not hold for calls at the same time: both parse the description file, and the second panics. C63_absolute_violated (the code does not have the property): C63 does not hold for a description file with an absolute name: it belongs to every directory, and is parsed again for each."
  },
  {
   "property": "C64",
   "status": "partial",
   "theorems": [
    "Verif.C64_state_partial",
    "Verif.C64_history_partial",
    "Verif.C64_options_violated",
    "Verif.C64_end_violated"
   ],
   "note": "C64_state_partial lacks: tsconfig, `prefer_relative` with a request that does not begin with `./` or `../`, and aliases that apply to either request (`C64_options_violated`). C64_history_partial lacks: as for `C64_state_partial`; a separator at the end of one spelling of the path only (`C64_end_violated`; see `C89_same_partial`); and what is missing in C33. C64_options_violated (the code does not have the property): C64 does not hold with `prefer_relative`, an alias that applies to one spelling of the path, or a tsconfig that maps it: `./a.js` from `/` is `/a.js`, but `/a.js` is `/p/a.js`. C64_end_violated (the code does not have the property): C64 does not hold for a separator at the end: it decides whether an extension may be added."
  },
  {
   "property": "C65",
   "status": "partial",
   "theorems": [
    "Verif.C65_options_violated",
    "Verif.C65_first_partial",
    "Verif.C65_path_partial",
    "Verif.C65_refused_partial",
    "Verif.C65_main_violated"
   ],
   "note": "C65_options_violated (the code does not have the property): C65 does not hold with aliases, `prefer_relative`, a tsconfig or a `browser` map: they come before imports, or after. C65_first_partial lacks: aliases, `prefer_relative` and tsconfig (`Plain`); `*` keys that match and are not ASCII; targets that are replaced by a bare one in a `browser` map, and bare targets for which such a map has an entry; packages without imports, where the request is searched for. C65_path_partial lacks: as for `C65_first_partial`, `browser` maps, and enforced extensions. C65_refused_partial lacks: aliases, `prefer_relative` and tsconfig (`Plain`). C65_main_violated (the code does not have the property): C65 is not what one expects for a bare target: the request `m` resolves, while `#m`, for which imports give `m`, does not. A bare target of imports must be a file, or in a package with exports."
  },
  {
   "property": "C66",
   "status": "proved",
   "theorems": [
    "Verif.Live.C66_no_deadlock",
    "Verif.Live.C66_all_end",
    "Verif.Live.C66_exclusive",
    "Verif.Live.C66_entry_stays",
    "Verif.Live.C66_all_given_back",
    "Verif.Live.C66_as_without_locks"
   ],
   "note": ""
  },
  {
   "property": "C67",
   "status": "partial",
   "theorems": [
    "Verif.C67_split_partial",
    "Verif.C67_split_live_partial",
    "Verif.C67_again_partial",
    "Verif.C67_mark_violated",
    "Verif.C67_same_violated"
   ],
   "note": "C67_split_partial lacks: paths with `?` or `#` (`C67_mark_violated`, `C67_same_violated`). C67_split_live_partial lacks: paths with `?` or `#` (`C67_mark_violated`, `C67_same_violated`). C67_again_partial lacks: as for `C59_again_partial`: paths with `?` or `#` in them (`C67_mark_violated`), and where the path of the result does not resolve to itself (`C59_enforced_violated`, `C59_broken_violated`, `C59_browser_violated`, `C59_options_violated`). C67_mark_violated (the code does not have the property): C67 does not hold for names with `?`: the joined form leads to another file, with another query. C67_same_violated (the code does not have the property): Nor can the results for two files be told apart by their joined forms."
  },
  {
   "property": "C68",
   "status": "partial",
   "theorems": [
    "Verif.C68_exports_partial",
    "Verif.C68_imports_partial",
    "Verif.C68_resolve_partial",
    "Verif.C68_hash_partial",
    "Verif.C68_trailer_violated",
    "Verif.C68_empty_violated",
    "Verif.C68_folder_violated",
    "Verif.C68_slash_violated",
    "Verif.C68_values_violated",
    "Verif.C68_targets_violated",
    "Verif.C68_text_violated",
    "Verif.C68_array_violated"
   ],
   "note": "C68_exports_partial is partial: for the maps and requests of `CommonExports` and `CommonRequest`; see the theorems `C68_…_violated` for the others. Node.js stops at the first target, the code goes on to those after it in an array. C68_imports_partial is partial: as for `C68_exports_partial`. C68_resolve_partial is partial: as for `C68_exports_partial`; targets that do not pass the containment check or that a `browser` map has an entry for; enforced extensions. C68_hash_partial is partial: as for `C68_imports_partial` and `C65_path_partial`. C68_trailer_violated (the code does not have the property): C68 does not hold for keys with text after the `*`: the code does not find them. C68_empty_violated (the code does not have the property): Nor for a `*` that stands for nothing: to Node.js such a path is not exported. C68_folder_violated (the code does not have the property): Nor for keys that end in `/`: Node.js no longer knows them. C68_slash_violated (the code does not have the property): The key `/` is taken for `.`, which Node.js does not do. C68_values_violated (the code does not have the property): `default` before another condition, `null` for a path, and conditions inside of an array that do not hold, are allowed by Node.js. The code gives an error for the first, panics for the second, and finds nothing for the third. C68_targets_violated (the code does not have the property): Targets without `./` or into `node_modules`, and texts for `*` with `..`, are refused by Node.js and used by the code. C68_text_violated (the code does not have the property): A `$` in the text for `*` is doubled, and a `*` in the target of a key without one is replaced. C68_array_violated (the code does not have the property): Whole calls differ for arrays: Node.js takes the first target, whether it is a file or not; the code takes the first that is a file."
  },
  {
   "property": "C69",
   "status": "proved",
   "theorems": [
    "Verif.C69_text",
    "Verif.C69_cached",
    "Verif.C69_imports_unused"
   ],
   "note": ""
  },
  {
   "property": "C70",
   "status": "partial",
   "theorems": [
    "Verif.C70_appended_partial",
    "Verif.C70_browser_violated",
    "Verif.C70_tsconfig_violated"
   ],
   "note": "C70_appended_partial lacks: `browser_field` is off, and there is no tsconfig. C70_browser_violated (the code does not have the property): C70 does not hold with `browser` maps: the request for `./a`, which names the file `a.js`, is ignored once `.ts` is an extension, though there is no file `a.ts`. C70_tsconfig_violated (the code does not have the property): C70 does not hold with a tsconfig: the new extension decides which file the tsconfig extends, and so which file a request is for."
  },
  {
   "property": "C71",
   "status": "proved",
   "theorems": [
    "Verif.Live.C71_read",
    "Verif.Live.C71_mtime",
    "Verif.Live.C71_canon",
    "Verif.Live.C71_nothing"
   ],
   "note": ""
  },
  {
   "property": "C72",
   "status": "proved",
   "theorems": [
    "Verif.Live.C72_once",
    "Verif.Live.C72_static",
    "Verif.Live.C72_default_rereads",
    "Verif.Live.C72_malformed_rereads"
   ],
   "note": ""
  },
  {
   "property": "C73",
   "status": "proved",
   "theorems": [
    "Verif.Live.C73_absolute",
    "Verif.Live.C73_directory",
    "Verif.Live.C73_links",
    "Verif.Live.C73_relative_base",
    "Verif.Live.C73_relative_tsconfig"
   ],
   "note": ""
  },
  {
   "property": "C74",
   "status": "partial",
   "theorems": [
    "Verif.C74_self_partial",
    "Verif.C74_modules_violated",
    "Verif.C74_prefix_violated"
   ],
   "note": "C74_self_partial lacks: there has to be a directory `dir/node_modules` (`C74_modules_violated`); as for `C25_order_partial`. C74_modules_violated (the code does not have the property): C74 does not hold for a package without a `node_modules` directory: the request is not found. C74_prefix_violated (the code does not have the property): C74 does not hold for names that start in the same way: a request for the package `lib-extra` (which is not there) from the package `lib` comes to a file of `lib`."
  },
  {
   "property": "C75",
   "status": "proved",
   "theorems": [
    "Verif.Live.C75_fields",
    "Verif.Live.C75_stripped",
    "Verif.Live.C75_needed",
    "Verif.Live.C75_needed_tsconfig"
   ],
   "note": ""
  },
  {
   "property": "C76",
   "status": "proved",
   "theorems": [
    "Verif.Live.C76_linear",
    "Verif.Live.C76_stored"
   ],
   "note": ""
  },
  {
   "property": "C77",
   "status": "partial",
   "theorems": [
    "Verif.C77_again_partial",
    "Verif.C77_new_partial",
    "Verif.C77_deleted_violated",
    "Verif.C77_shared_violated"
   ],
   "note": "C77_again_partial lacks: description files that are not well-formed (`C35_malformed_violated`); description files deleted after they were read (`C77_deleted_violated`); several resolvers with one cache (`C77_shared_violated`); with a tsconfig the hash seeds have to be the same (`C49_tsconfig_violated`). C77_new_partial: C77 for a new resolver: whatever calls come before, in between and after. C77_deleted_violated (the code does not have the property): C77 does not hold after a description file was deleted: the call for `/p` still answers from it, until a call for another directory comes along. C77_shared_violated (the code does not have the property): C77 does not hold if another resolver uses the same cache: the answer of resolver 0 changes with calls of resolver 1."
  },
  {
   "property": "C78",
   "status": "partial",
   "theorems": [
    "Verif.C78_paths_partial",
    "Verif.C78_relative_violated",
    "Verif.C78_inherited_violated",
    "Verif.C78_alone_violated",
    "Verif.C78_merged_violated",
    "Verif.C78_longest_violated",
    "Verif.C78_base_violated",
    "Verif.C78_lost_violated",
    "Verif.C78_star_violated"
   ],
   "note": "C78_paths_partial lacks: tsconfig files whose options have wrong types; an `extends` that is not found (`C78_lost_violated`); and what is not in `TsCommon` (`C78_relative_violated`, `C78_inherited_violated`, `C78_alone_violated`, `C78_merged_violated`, `C78_longest_violated`, `C78_star_violated`, `C40_star_violated`). C78_relative_violated (the code does not have the property): C78 does not hold for relative requests: they are mapped as well. C78_inherited_violated (the code does not have the property): C78 does not hold for an inherited `baseUrl`: it is taken to be relative to the directory of the tsconfig that inherits it. C78_alone_violated (the code does not have the property): C78 does not hold for `paths` without `baseUrl`: they are not looked at. C78_merged_violated (the code does not have the property): C78 does not hold if two files of the chain have `paths`: those of the extended file stay in force. C78_longest_violated (the code does not have the property): C78 does not hold if two patterns fit: which of them is tried first is left to chance. C78_base_violated (the code does not have the property): C78 does not hold for the lookup of a name below `baseUrl`, which TypeScript does before the usual one: there is none. C78_lost_violated (the code does not have the property): C78 does not hold if an `extends` is not found, or is a list: it is passed over. C78_star_violated (the code does not have the property): C78 does not hold if the directory of the tsconfig has a `*` in its name: the text goes there, too."
  },
  {
   "property": "C79",
   "status": "partial",
   "theorems": [
    "Verif.C79_true",
    "Verif.C79_sideEffects_partial",
    "Verif.C79_marker_violated",
    "Verif.C79_old_sharp"
   ],
   "note": "C79_sideEffects_partial lacks: the error may be the marker. C79_marker_violated (the code does not have the property): The marker gets out of `load_side_effects`: for a relative path that does not exist the error is `T0`."
  },
  {
   "property": "C80",
   "status": "partial",
   "theorems": [
    "Verif.C80_packages",
    "Verif.C80_maps",
    "Verif.C80_times",
    "Verif.C80_kept",
    "Verif.C80_spelling_violated"
   ],
   "note": "C80_spelling_violated (the code does not have the property): Partial: a directory may have several entries, under different spellings, so the number of entries is not bounded by the number of directories."
  },
  {
   "property": "C81",
   "status": "partial",
   "theorems": [
    "Verif.C81_links",
    "Verif.C81_tree_partial",
    "Verif.C81_off_violated"
   ],
   "note": "C81_tree_partial lacks: links with symlinks off (`C81_off_violated`). C81_off_violated (the code does not have the property): C81 does not hold with symlinks off: three paths for one file."
  },
  {
   "property": "C82",
   "status": "partial",
   "theorems": [
    "Verif.C82_new_partial",
    "Verif.C82_tree_partial",
    "Verif.C82_browser_violated",
    "Verif.C82_enforced_violated",
    "Verif.C82_imports_violated",
    "Verif.C82_place_violated",
    "Verif.C82_description_violated",
    "Verif.C82_tsconfig_violated"
   ],
   "note": "C82_new_partial lacks: `browser_field` is off, no extension is enforced, there is no tsconfig and there are no `imports`, and no new file is a description file or is at a place of a package in `node_modules`; the witnesses below show that all this is needed. C82_tree_partial: C82 on trees: `u'` is the tree `u` with a new file at `loc`. Here the assumptions on the new file are about its place: it is not named like the description file, and it is not `…/node_modules/m` or `…/node_modules/@s/m`. C82_browser_violated (the code does not have the property): C82 does not hold with `browser` maps: with the new file `a.js` the request is resolved to the old file `b.js`. C82_enforced_violated (the code does not have the property): C82 does not hold with enforced extensions: with the new file `a.js` the request is resolved to the old file `a.js.js`. C82_imports_violated (the code does not have the property): C82 does not hold with imports: exports lead to the new file `#a`, and then imports lead to the old file `b.js`; the old answer was the old file `c.js`. C82_place_violated (the code does not have the property): C82 does not hold for a new file in `node_modules`: with the new file `node_modules/mm` the request `mm` is resolved to the old file `a.js` of the package `m`. C82_description_violated (the code does not have the property): C82 does not hold for a new description file: it says that `b.js` is the main file. C82_tsconfig_violated (the code does not have the property): C82 does not hold with a tsconfig: the new file `base.json` is what it extends."
  },
  {
   "property": "C83",
   "status": "partial",
   "theorems": [
    "Verif.C83_path_partial",
    "Verif.C83_bare_partial",
    "Verif.C83_dead_violated",
    "Verif.C83_index_violated",
    "Verif.C83_main_violated",
    "Verif.C83_query_violated",
    "Verif.C83_nested_violated",
    "Verif.C83_self_violated",
    "Verif.C83_name_violated",
    "Verif.C83_inner_violated",
    "Verif.C83_bare_violated",
    "Verif.C83_core_violated",
    "Verif.C83_hash_partial",
    "Verif.C83_hash_main_violated",
    "Verif.C83_hash_hoisted_violated",
    "Verif.C83_hash_again_violated",
    "Verif.C83_self_partial",
    "Verif.C83_self_installed_violated"
   ],
   "note": "C83_path_partial is partial: for the options of `NodeOpts`, requests without `?` and `#`, description files that can be loaded, and directories as in `CommonDir`; see the theorems `C83_…_violated`. C83_bare_partial is partial: for the options of `NodeOpts` and requests and projects as in `CommonBare`; see the theorems `C83_…_violated`. C83_dead_violated (the code does not have the property): C83 does not hold for a directory in which nothing is found: Node.js has an error, the code panics. C83_index_violated (the code does not have the property): C83 does not hold for a directory with a file `index`: the code takes it, Node.js wants an extension. C83_main_violated (the code does not have the property): C83 does not hold for a `main` that names a directory with a `main` of its own: Node.js looks for an index file only. C83_query_violated (the code does not have the property): C83 does not hold for a file with a `?` in its name. C83_nested_violated (the code does not have the property): C83 does not hold in a `node_modules` directory: the code looks for a `node_modules` there. C83_self_violated (the code does not have the property): C83 does not hold for a package that asks for itself where there is no `node_modules`. C83_name_violated (the code does not have the property): C83 does not hold if the name of the package above is the beginning of the name asked for: the code takes the exports of the package above. C83_inner_violated (the code does not have the property): C83 does not hold for a package with a description file further down: the code does not see the exports, and gives a file that is not exported. C83_bare_violated (the code does not have the property): C83 does not hold for a package without a description file that is in a package with exports: the code takes these exports. C83_core_violated (the code does not have the property): C83 does not hold for core modules, of which the code has a list: a package of that name is found. C83_hash_partial is partial: for the options of `NodeOpts` and requests and packages as in `CommonHash`; see `C83_hash_main_violated`, `C83_hash_hoisted_violated` and `C83_hash_again_violated`. C83_hash_main_violated (the code does not have the property): C83 does not hold for imports that give a package without exports: the code does not look at its `main`. C83_hash_hoisted_violated (the code does not have the property): C83 does not hold for imports of an installed package that give a package next to it: the code looks for it only in the `node_modules` of the installed package. C83_hash_again_violated (the code does not have the property): C83 does not hold for imports that give another `#` request: to Node.js that is the name of a package. C83_self_partial is partial: for the options of `NodeOpts` and requests and packages as in `CommonSelf`; see `C83_self_violated` for a package without `node_modules`. C83_self_installed_violated (the code does not have the property): C83 does not hold for a package that asks for itself and has a package with its name installed: the code takes the installed one, and Node.js the package itself."
  },
  {
   "property": "C84",
   "status": "partial",
   "theorems": [
    "Verif.C84_moved_partial",
    "Verif.C84_tree_partial",
    "Verif.C84_modules_violated",
    "Verif.C84_out_violated",
    "Verif.C84_alias_violated",
    "Verif.C84_main_violated",
    "Verif.C84_next_violated",
    "Verif.C84_above_violated"
   ],
   "note": "C84_moved_partial lacks: this is for projects on their own, that do not refer to their place or lead out of it, see `TwoPlaces`, and both or none of the places have `node_modules` in their text; the witnesses below show that this is needed. C84_tree_partial: C84 on trees: nothing but the directory `u` is there, once at the place `a` and once at the place `b`. C84_modules_violated (the code does not have the property): C84 does not hold if only one place has `node_modules` in its text, even in the middle of a name: in `/node_modules_old` the request for the dependency is answered by the exports of the project. C84_out_violated (the code does not have the property): C84 does not hold for requests that lead out of the project and back by its name. C84_alias_violated (the code does not have the property): C84 does not hold with an alias to an absolute path, though it is in the project. C84_main_violated (the code does not have the property): C84 does not hold if the main file is given by the name of the project. C84_next_violated (the code does not have the property): C84 does not hold if a file next to the project has its name, with an extension. C84_above_violated (the code does not have the property): C84 does not hold if there are dependencies above the project."
  },
  {
   "property": "C85",
   "status": "partial",
   "theorems": [
    "Verif.C85_elsewhere_partial",
    "Verif.C85_inside_partial",
    "Verif.C85_tree_partial",
    "Verif.C85_next_violated",
    "Verif.C85_above_violated",
    "Verif.C85_escape_violated"
   ],
   "note": "C85_elsewhere_partial lacks: this is for projects on their own, that do not refer to their place or lead out of it, see `Enclosed`; the witnesses below show that this is needed. C85_inside_partial lacks: as for `C85_elsewhere_partial`. C85_tree_partial: C85 on trees: the same directory `u` at the place `a` of two trees, and anything else next to it. C85_next_violated (the code does not have the property): C85 does not hold if a file next to the project has its name, with an extension: it is taken for the project itself. C85_above_violated (the code does not have the property): C85 does not hold if there is a description file above the project, which counts for files in a directory without one: here it replaces a file of the project. C85_escape_violated (the code does not have the property): C85 does not hold for exports targets with empty segments, which the containment check counts as steps down: they lead out of the project."
  },
  {
   "property": "C86",
   "status": "proved",
   "theorems": [
    "Verif.Live.C86_main",
    "Verif.Live.C86_file",
    "Verif.Live.C86_directory"
   ],
   "note": ""
  },
  {
   "property": "C87",
   "status": "partial",
   "theorems": [
    "Verif.C87_order",
    "Verif.C87_live",
    "Verif.C87_swap",
    "Verif.C87_aliases",
    "Verif.C87_extensions",
    "Verif.C87_fields_violated",
    "Verif.C87_files_violated"
   ],
   "note": "C87_fields_violated (the code does not have the property): C87 does not hold for main fields: if `main` is repeated, the second time it is seen from the directory that the first time led to. C87_files_violated (the code does not have the property): C87 does not hold for main files with a `browser` map: if `index` is repeated, the second time it is looked for in the directory of the map."
  },
  {
   "property": "C88",
   "status": "proved",
   "theorems": [
    "Verif.C88_watched",
    "Verif.C88_side_effects"
   ],
   "note": ""
  },
  {
   "property": "C89",
   "status": "partial",
   "theorems": [
    "Verif.C89_directory_partial",
    "Verif.C89_system_partial",
    "Verif.C89_same_partial",
    "Verif.C89_hidden_violated"
   ],
   "note": "C89_directory_partial lacks: options that send the request elsewhere. C89_system_partial: C89 for systems: any resolvers, shared caches, threads, histories, changes of files. `t.fs` is the file system the call ran on. C89_same_partial lacks: options that send the request elsewhere; a file next to the directory, or in it, whose name is completed by an extension (`C89_hidden_violated`, `C64_end_violated`); and what is missing in C33. C89_hidden_violated (the code does not have the property): A request that ends in a separator may still get a file that an extension is completed to: `./q/` is `/q/.js`, not `/q/index.js` as for `./q`."
  },
  {
   "property": "C90",
   "status": "proved",
   "theorems": [
    "Verif.Live.C90_unseen",
    "Verif.Live.C90_goes_on",
    "Verif.Live.C90_recorded",
    "Verif.Live.C90_own_fails"
   ],
   "note": ""
  },
  {
   "property": "C91",
   "status": "partial",
   "theorems": [
    "Verif.Live.C91_marks_partial",
    "Verif.Live.C91_looks_partial",
    "Verif.Live.C91_exports_violated"
   ],
   "note": "C91_marks_partial lacks: other requests where a description file has exports (`C91_exports_violated`). C91_looks_partial lacks: other requests where a description file has exports (`C91_exports_violated`). C91_exports_violated (the code does not have the property): C91 fails as stated: query and fragment take part in the lookup in the exports of a package. With `{\".\": \"./b.js\"}` the request `m` leads to a file, and neither `m?x` nor `m#x` does. With `{\"./?x\": \"./c.js\"}` it is the other way round. With both, `m` and `m?x` lead to different files."
  },
  {
   "property": "C92",
   "status": "proved",
   "theorems": [
    "Verif.Live.C92_bare"
   ],
   "note": ""
  },
  {
   "property": "C93",
   "status": "proved",
   "theorems": [
    "Verif.Live.C93_current",
    "Verif.Live.C93_after",
    "Verif.Live.C93_delay_sharp",
    "Verif.Live.C93_deleted_sharp",
    "Verif.Live.C93_backwards_sharp"
   ],
   "note": ""
  },
  {
   "property": "C94",
   "status": "proved",
   "theorems": [
    "Verif.Live.C94_heal",
    "Verif.Live.C94_touch_sharp"
   ],
   "note": ""
  },
  {
   "property": "C95",
   "status": "proved",
   "theorems": [
    "Verif.Live.C95_calls",
    "Verif.Live.C95_answers",
    "Verif.Live.C95_panics",
    "Verif.Live.C95_healed",
    "Verif.Live.C95_require"
   ],
   "note": ""
  },
  {
   "property": "C96",
   "status": "proved",
   "theorems": [
    "Verif.Live.C96_kept",
    "Verif.Live.C96_after",
    "Verif.Live.C96_answers"
   ],
   "note": ""
  },
  {
   "property": "C97",
   "status": "proved",
   "theorems": [
    "Verif.Live.C97_amid",
    "Verif.C97_watched",
    "Verif.C97_hash_fails"
   ],
   "note": ""
  },
  {
   "property": "C98",
   "status": "proved",
   "theorems": [
    "Verif.Live.C98_amid",
    "Verif.C98_others",
    "Verif.C98_install",
    "Verif.C98_main_fails",
    "Verif.C98_beside_fails"
   ],
   "note": ""
  },
  {
   "property": "C99",
   "status": "proved",
   "theorems": [
    "Verif.C99_by_path",
    "Verif.C99_side_effects",
    "Verif.C99_amid",
    "Verif.C99_main_fails",
    "Verif.C99_beside_fails"
   ],
   "note": ""
  },
  {
   "property": "C100",
   "status": "proved",
   "theorems": [
    "Verif.C100_below",
    "Verif.C100_load_fails",
    "Verif.Live.C100_amid"
   ],
   "note": ""
  }
 ]
}
