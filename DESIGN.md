# Formal model of nodejs_resolver: design

The code under study is the Rust crate in `/repo` (bvanjoi/nodejs_resolver, 0.0.33).
The model and the proofs are Lean 4, in `/verif/lean`. Nothing here runs the Rust code;
the tie between the two is the line citation on every model definition.

## 1. How the code is modelled

* **Strings** are lists of Unicode scalar values (`Str := List Char`). Where Rust counts
  or slices bytes, the model uses `utf8Len` and byte slicing that fails (panics) off a
  character boundary.
* **Paths** are raw strings, Unix rules. `comps` is `Path::components`; `pjoin`, `pparent`,
  `ppop` are `join`, `parent`, `pop`. Path equality and map keys use components, as in std.
* **The file system** is an arbitrary record of functions (`is_file`, `is_dir`, `exists`,
  contents, modification time, canonical path). In the main model it does not change during
  one call and may change arbitrarily between calls. A second model (`Live`) makes every
  single look at a file a step of its own, so that files may change at any moment; it is
  proved to agree with the first wherever no change is noticed (C53). Laws of a real file system (a file is not a directory,
  spelling does not matter, the parent of a directory is a directory) are named predicates
  and appear as hypotheses exactly where a theorem needs them. A concrete tree file system
  is shown to satisfy them.
* **JSON / JSONC parsing** is external: a file's contents are the parse results. Objects
  keep document order (serde_json `preserve_order`). `serde_json::to_string`, used as cache
  key, is a function of the value over which theorems quantify; its compact form is modelled by `serJson`
  (Model/Ser.lean: escapes, separators; the digits of numbers are a given text), proved injective (C69).
* **Shared state** (the `DashMap`s) is accessed only through an interaction tree `Prog`:
  a call is a tree whose nodes are single atomic map operations (`get`, `insert`). One tree
  serves for sequential histories and for every interleaving of threads.
* **Locks** of the `DashMap` shards are in a third model (`Locks`), on top of `Live`: an
  operation waits for the lock of its shard, and a guard that the code keeps (src/description.rs:180-192)
  is given back by a step of its own. Which entries share a shard is arbitrary. It is proved that locks
  change no answers and that no deadlock is possible (C66).
* **Hash-map iteration order** is a nondeterministic choice: a `seed` node of the tree
  selects a permutation.
* **Panics** are explicit: `Prog.crash (.panic site)`. `loop {}` without progress is
  `.crash .hang`. Recursion that Rust does not bound takes fuel, and running out is
  `.crash .fuel`; results do not depend on fuel once it suffices (proved), and
  non-termination is "out of fuel for every fuel".
* **Errors** are structured values with a `render` to the Rust message.

### Not modelled
Windows path rules and `\\?\` prefixes; non-UTF-8 path names (`display()` is lossy);
integers beyond `i32` (request lengths); tracing spans and `Debug` output (with a subscriber
that asks for them, they read all shards of the maps they print); memory, time and
stack depth (a stack overflow is non-termination); the JSON and JSONC parsers; the perfect-hash set and the Aho-Corasick
automaton (modelled by membership and leftmost match).

## 2. Trusted base
* Lean 4.33.0 kernel. Every theorem depends on at most the axioms `propext`,
  `Classical.choice` and `Quot.sound` (audited by the gate for every theorem). No axioms of
  our own, no `sorry`, no compiled evaluation (`decide +kernel` reduces in the kernel).
* The reading of the Rust code recorded in the model (`Verif/Model/*.lean`, every definition
  cites file and lines).
* std semantics of `Path`, `HashMap`, `DashMap`, `str` as modelled.

## 3. Files
* `Verif/Model/*` the model: `Basic`, `Path`, `Json`, `Parse` (src/parse.rs, kind.rs), `Map`
  (src/map.rs), `Types` (src/options.rs, lib.rs), `Prog` (interaction trees and the operations
  on the caches), `Load` (src/description.rs, fs.rs), `Resolve` (src/lib.rs, resolve.rs,
  plugin/*.rs), `Tsconfig` (src/tsconfig.rs, tsconfig_path.rs, normalize.rs), `Ser`, `Machine`
  (src/cache.rs; several resolvers, threads, changing files), `Live` and `LiveMachine` (the
  same functions, with looks at files as steps between which files may change), `Locks` (the same
  with the locks of the caches).
* `Verif/Spec/*` independent specifications.
* `Verif/Proofs/*` lemmas. The main instruments:
  * `Sat`: rely/guarantee postconditions of trees; `Machine.system_inv` lifts an invariant of
    the shared state to every history and interleaving, with file changes and shared caches;
  * `Rel`, `Faithful`, `System`: a cached call simulates the cache-less one (`pureCtx`), so
    what is proved of a pure function holds in every history on an unchanging file system
    (`yields_of_pure`, `panics_of_pure`);
  * `Fuel`, `Yields`: more fuel never changes an outcome;
  * `Changes`: calls and changes of files that take turns;
  * `Panics`, `Blame`, `History`: where each crash comes from;
  * `Termination`, `NoCycle`: measures for the recursion;
  * `Live*`: the functions of `Live` with the looks answered by one file system are those of
    the main model (`freeze`); postconditions of live trees; lifting to all histories.
* `Verif/Props/*` the property theorems with their non-vacuity examples.
* `Verif/Test/*` ports of the repo's own tests (tests/cases.rs with its fixtures, and the unit
  tests of src/map.rs) run against the model. These are tests of the reading, not proofs.
* `seeded/LOG.jsonl` wrong programs tried against the theorems, and what failed.
* `tools/` scripts that write `Verif.lean`, `MANIFEST.json` and the log.

## 4. How theorems are stated
* *Histories*: `Sys.after cfg ser l` runs any list of events (start a call on some resolver,
  change the files, let call `i` make its next cache operation). `cfg` gives every resolver
  its options and the number of its cache, so sharing is arbitrary. `t.prog.outcome` is what
  a call came to.
* *`Static cfg ser fs`* collects what the cache theorems need on an unchanging file system:
  laws of the file system, release build, distinct texts for distinct JSON values, an absolute
  tsconfig path, no exports value that is also an imports value and means something else as
  such (C38), no two `browser` keys of one package that cover the same path (C29), one
  description-file name per cache (C37). For the last three and for release builds the
  absence of the condition is a proved violation; the others describe the environment (`serde_json::to_string` is injective on values, which is proved for `serJson`; file systems obey the laws).
* *`Yields`, `Panics`*: with enough fuel, in every such history, every such call that is over
  came to this.
* *`Live`*: `Live.Sys.after` is the same with looks at files as steps; `During l i P` says
  that some state of the files while call `i` was in progress satisfies `P`, `Looked` that the
  call made a look with this answer, `Quiet` that files changed only while no call was in
  progress, `Unnoticed` that no look was answered differently than at the start of its call.
* *`linkFs`* is a concrete file system with symbolic links; `linkFs_lawful` and `static_links`
  show that the laws assumed of file systems hold of it. `treeFs` is one without links.
* Conditions on `paths` of a tsconfig: `TsClear`, at most one entry matches (C49).
* `X_partial` proves the part of a property that the code has; `X_violated` proves with a
  concrete witness that the code does not have the property as stated; other names are
  further exact statements (`_sharp`, `_fails`: bounds that cannot be improved).

## 5. Plan per property
| id | modelled | how proved |
|---|---|---|
| C01, C02 | `parse_identifier` state machine | induction over the characters; uniqueness of the decomposition |
| C03 | `get_target_kind`, leftmost pattern search | case analysis against a prefix specification; `C03_target` says for every text how its target is read, `C03_replaced` the same for a target put in by `with_target` |
| C04 | the built-in set | membership against the list of Node names; the table is finite |
| C05-C07 | `normalize_path_without_link` on components | induction; agreement with a walk semantics |
| C08, C09, C11 | whole resolver as `Prog` | postcondition of every tree, for any answers of the cache |
| C10 | `resolve_as_file`, extensions plugin | refinement to "first candidate that is a file" |
| C12 | `Resolver::new`; `Resolver::default()` is a `Config` with `Opts.default` and duration 0. `C12_unset`: with options that did not go through `new`, and no empty extension where `enforce_extension` is unset, all states are the same in every history, in both models. `C12_alike`: while files stay, `default()` and `new` with default options answer alike. `C12_empty_sharp`: with an empty extension they do not. | direct; `C12_default`: when extensions are enforced without being asked for. The comparisons are cases of `C87_order`, `C87_live` and `C87_aliases`. |
| C13, C14 | `resolve_as_modules` | induction over ancestors; what each step gives is a relation (Spec/Packages) that covers exports, directories and `browser` maps; `C13_dirs` says which directories are searched |
| C15-C17 | alias plugin, `_resolve`, also with a tsconfig | independence and order theorems; `C17_prefer_partial` for aliases and prefer_relative together (`Course`); C41 for the requests that `paths` leave over |
| C18 | prefer_relative plugin, also with a tsconfig | relation of two runs |
| C19, C22 | trie build and lookup; for C22 also whole maps: `C22_exports_partial`, `C22_imports_partial` say that every target selected is written in the value of a key of the map with what the `*` of that key stands for put in (`Substituted`). The theorems `C19_…written…` to `C24_written` (Props/MapRead.lean) say the same from the JSON value: `MapRead` (Spec/MapRead.lean) is what it means that a map is written there, and by `C19_read` that is what `Field::from_json` reads, if no object has a key twice (serde_json keeps one) | refinement to a longest-prefix specification; induction over the scan of a conditional value |
| C20, C21 | `conditional_mapping` stack machine | simulation of a recursive specification |
| C23 | `check_target`, plugins | depth invariant on path walks, also for whole calls (through C26); violated in general |
| C24 | imports tree, imports plugin | induction over the keys |
| C25, C26 | exports plugin, module resolution | postconditions of trees; `C26_enforced_partial` for enforced extensions |
| C27, C50 | browser / description switches | relation of two runs |
| C28, C29 | alias-field plugin | chain induction; what is used in place of a path is a relation (Spec/BrowserMap); violated for C29 in general |
| C30, C31 | main field / main file plugins | loop invariants; drift is a violation |
| C32-C34, C37, C38 | caches, loader | rely/guarantee invariant on trees, lifted to histories and interleavings |
| C35, C36 | mtime cache | history invariants; C36 is violated |
| C39 | `merge` | laws by structural induction on JSON |
| C40, C41 | tsconfig paths | byte-slice reasoning, with an exact description of the cuts that panic; relation of two runs |
| C42, C43 | errors, query/fragment; for C43 also where the marks of a result come from, with any maps, tsconfig and history (Spec/Marks) | postconditions of trees; origin of cached packages (Proofs/History), items of a map (Proofs/TreeVals) |
| C44, C45 | panics, termination | violated in general; conditional theorems and witnesses. `Live.C45_changes_partial` (Spec/Halts.lean): live model, files change without end; families of programs, one for each amount of fuel, that come to the same end (`Halting`, Proofs/Halts.lean), by a walk through the resolver with the well-founded steps of all versions together, then over the schedule |
| C46, C47 | loader, `load_side_effects` | refinement to a cache-less loader; C47 also says which value the error names (`BadPart`) |
| C48 | normalize_result | relation of two runs |
| C49 | seeds | relation of two runs; violated in general |
| C51, C52 | live trees | postconditions of live trees, lifted to all histories |
| C53 | live and main model | step-by-step refinement |
| C54 | live loader | the loop ends if directories stay; violated in general |
| C55, C56 | live machine | transfer of C35 and C53; violated in general |
| C57 | whole resolver without caches | relation of two runs, transferred to all pairs of histories |
| C58 | whole resolver with caches | lock-step relation of two runs from the same state |
| C59 | `FinalFiles` of a file system, C08, C10 | the returned path is the first candidate for itself |
| C60 | `Links`: trees with symbolic links, `lookup` (Spec/LinkFs.lean) | real paths are fixed points of `lookup`; transfer from C08 |
| C61 | `SaysIgnored` (Spec/Ignored.lean) | invariant of caches and results in both machines: packages come from files that were there |
| C62 | `Alike` options (Spec/Unused.lean) | lock-step of two systems: same operations and ends as long as packages come from files of the history |
| C63 | `OneAtATime` histories, `SoundFiles` (Spec/Debug.lean) | the two builds run the same program around different loaders (Proofs/Paired.lean); invariant: files in the debug map have a package in the cache; refinement of histories |
| C64 | `namedPath`, `ByPath`, `Direct`, `SameRequest`, `SameReply` (Spec/Base.lean) | programs with the same operations (`Prog.Twin`) take both requests to the request for the path itself; the relation of C57 joins the spellings (Proofs/Named.lean) |
| C65 | `ImportsOut`, `ImportsMapped`, `BareTarget`, `Refused` (Spec/Imports.lean), `Selected` (Spec/Maps.lean) | induction on the chain of `#` requests gives what the stages come to with enough fuel; then as for C13 (Proofs/Imports.lean) |
| C66 | `Workshop.sys`, `Worker.over`, `FairFor` (Spec/Locks.lean) | no tree keeps a guard across an operation on the same kind of map (`Disc`, by a walk through the resolver); invariants of the system with locks; well-founded trees for the end of all calls |
| C67 | `IsSplit` (Spec/Request.lean), `Yields`, `FinalPath`, `Plain`, `Loads`, `NotCovered` | the shape of the marks of a result by C43, then the split by C02; the second call by C10, as for C59 |
| C68 | a transcription of the Node.js algorithm, `nodeExports` and `nodeImports`, and the class of maps and requests that both treat alike, `CommonExports`, `CommonMap`, `CommonRequest` (Spec/Node.lean) | the sorted list of patterns finds the key that `Selected` (C19) describes; induction over values for the conditions (Proofs/NodeMaps.lean); whole calls by C25 and C65 |
| C69 | equality of values; `IsField`, `buildTree` for what is cached | the first character tells the kind of a value, strings are read back character by character, numbers end where no number character follows (Proofs/Lawful.lean); an invariant of the caches over all histories (Props/Trees.lean), which also gives C38 for changing files |
| C70 | `Opts.appended`, `NewFile`, `NewAnswer` (Spec/Appended.lean) | the resolvers without caches side by side, function by function: equal results, or the second has already found a new file (`Prog.Grows`, Proofs/Appended.lean); lifted to histories by C33 |
| C71 | `Sys.look`, `DescriptionOf`, `TsconfigOf`, `SawFile`, `LookOk` (Spec/Reads.lean) | by structural induction over the trees of looks and operations: every look that can be reached with answers given so far is allowed (`Looks`, Proofs/Reads.lean) |
| C72 | `StoredBy`, `Later`, `Settled` (Spec/Reads.lean) | entries of the caches stay; who stores a package has stored the time of its file; stored times are those of files; so the loader finds no reason to read (Proofs/Reread.lean). `C72_default_rereads` and `C72_malformed_rereads` show the limits: a duration of zero, as `Resolver::default()` has it, and files that are no JSON |
| C73 | Live model. `SameFiles`: two file systems say the same of all absolute paths; `SameEvents`: histories that differ in relative paths only. `C73_absolute`: every look of a call with absolute paths is absolute, in any history; `C73_directory`: every call ends alike; `C73_links`: instance for trees with symbolic links. `C73_relative_base` and `C73_relative_tsconfig` show that the hypotheses are needed. | `Asks`/`Looks.then` (Proofs/Absolute.lean): every function looks only at paths of a set closed under what it does, along with the invariant `abs_inv`; then a lockstep argument over events (`core_after`). |
| C74 | `Itself` (Spec/SelfRef.lean): the directory of a package with a name, a `node_modules`, and nothing on the way to the target with a description file; `SelfYields` in terms of the directory. `C74_self_partial` for whole calls after any history. `Entered` (Spec/Packages.lean) makes C25 and C26 cover self-references too. | `closest_between`, `loads_between` (Proofs/SelfRef.lean): the description file found from below `node_modules` is the package's own, up to spelling; then `C25_order_partial`. |
| C75 | Live model. `SameText`/`SameFields`/`FieldEvents`: texts, file systems and histories that agree on the fields named. `C75_fields`: every call ends alike; `C75_stripped`: instance in which all other fields are removed; `C75_needed`: for each of the fields a tree and a request whose result changes when it is removed; `C75_needed_tsconfig`: the same for the fields of a tsconfig. | Lockstep (`Same`, Proofs/SameFields.lean): both runs make the same looks and operations with answers that agree on the fields; every function preserves this; `tsOnly_jmerge`: leaving out fields commutes with merging a tsconfig into its base. Invariant `SysSame` over events. |
| C76 | Live model. `depth`, `stepsOf` (steps of one call in a history), `Layout` (directories and places of description files, contents left open). `C76_linear`: ended after `5 * depth + 18` own steps, with neither hang nor fuel run out; `C76_stored`: after 18 if there is an entry. The unit is one look at the files or one cache operation. Examples count the steps for three depths, with and without entry. | `Bound` (Proofs/Cost.lean): potential argument over programs with the answers allowed; climbing uses up the depth (`depth_pparent`); entries are never dropped (`pkg_store`); `bound_after`: induction over the history, other calls' steps leave the bound as it is. |
| C77 | Sequential calls of one resolver. `Steady`: the description file has a plain name, its files are well-formed (`SoundFiles`), the spelling of directories does not matter (`Spelled`, proved for trees), entries do not expire at once; `NoneLost`: directories with a stored package still have their file (true for a new resolver, kept by calls). `C77_again_partial`: same answer and same state after any `afterCalls`; `C77_new_partial`: from a new resolver with any calls before. Needs none of the conditions of C33 on equal exports and imports. With a tsconfig the seeds are constant. Example: the tree in which the first answer depends on earlier calls, and then stays. | `Again` (Proofs/Again.lean): after a load the entries it used are `Current`, kept by every other load, and a load from current entries changes nothing; lifted to `resolve` with `Prog.Paired`. |
| C78 | Spec/TypeScript.lean: chains of tsconfig files (`TsChain`), the options in force (`tsPathsOf`), the entry chosen (`tsChosen`), the paths tried (`tsWanted`), written after TypeScript's documentation and compiler without use of the model. `C78_paths_partial`: with `TsCommon` (a name that is not relative, one file with `paths`, a `baseUrl` from the directory of the tsconfig, one pattern that fits, a text for the star that is not empty) the code tries exactly `tsWanted`. Eight witnesses of what is outside. | `mergedAs_cons` (merging one file gives the options of the chain), `starMatch_iff`, `tried_targets`, on top of C41. |
| C79 | Spec/Messages.lean: `ErrorTrue` says for every kind of error what makes it true, of the call, of the files at some moment of the call (`D`), or of exports and imports as they are or were (`V`). `C79_true` for `resolve`, on the model in which files change at any moment; `C79_sideEffects_partial` for `load_side_effects`, where the marker can get out. Of `importsRequestShort` and `onlyFile` it is only said that some exports or imports exist; the request these errors speak of may come from an alias. | `Live.Inv` with errors that depend on what was seen (`MapErrs`, `TsErrs`), `loadAux_errs`, `fieldProcess_true` (targets and conditions inside of the JSON value, `MadeIn`), `buildTree_key`, `got_stamp` (times in the caches are times of files). |
| C80 | Spec/Stored.lean: `EntryWas`, `TimeWas`, Spec/Trees.lean: `TreeText`, `OwnTrees`. `C80_packages`, `C80_maps`, `C80_times` on the model in which files change at any moment; `C80_kept`: entries stay. Different facts about one entry may hold at different moments. | `live_shared` (invariant of the shared state), `loadAux_puts` (what the loader stores, with `findUp_none` and `cacheNone_up` for the chain of parents), `stored_step`, `serJson_inj`. |
| C81 | `C81_links` on trees with links (`linkFs`), `C81_tree_partial` on trees without links: equal lookups give equal texts. | C60 (the path is the location of the file), `tree_path` with `Tree.lookup_normalizeLex`. |
| C82 | Spec/NewFiles.lean: `Adds` (a file system with new files), `AnswerIn`, `FileAdded` (a tree with a new file), `PackagePlace`. `C82_new_partial` for file systems, `C82_tree_partial` for trees, where the assumptions are about the place of the file. | `Prog.Grows` (C70) stage by stage: `fresh_file`, `fresh_exports`, `fresh_dir`, `fresh_modules`, `fresh_resolve`; `FileAdded.adds`, `Tree.lookup_packagePlace`. |
| C83 | Spec/Require.lean: a transcription of the documented algorithm of `require` (`LOAD_AS_FILE`, `LOAD_INDEX`, `LOAD_AS_DIRECTORY`, `LOAD_NODE_MODULES`, `NODE_MODULES_PATHS`, `LOAD_PACKAGE_SELF`, `LOAD_PACKAGE_EXPORTS`, `LOAD_PACKAGE_IMPORTS`, `LOOKUP_PACKAGE_SCOPE`, `PACKAGE_RESOLVE`) on file systems and JSON values; paths are joined as text, where Node.js also removes `..`. `NodeOpts`, `CommonDir`, `CommonModule`, `CommonBare`, `CommonHash`, `CommonSelf` say what both read alike. `C83_path_partial`, `C83_bare_partial`, `C83_hash_partial` (`#` requests), `C83_self_partial` (a package that asks for itself) for whole calls. | Stage by stage against the outcome relations of C13 to C31: `find_sim`, `files_node`, `dirOut_node`, `atPath_node`, `step_node` (with C68 for exports), `search_node`, `search_at`, `self_node`; C68 for imports. |
| C84 | Spec/Moved.lean: places as lists of names, `Placed a b p q` (the same text behind the two places, never climbing out), `MovedTo` for file systems, and what a project on its own is: `OnItsOwn` (no description file and no `node_modules` above, no file next to it with its name), `SelfContained`, `PlacelessOpts`, `AsksInside`. `C84_moved_partial` for whole calls of `resolve` and `load_side_effects` after any histories; `C84_tree_partial` for a tree mounted at two places, with a condition on the texts in the description files (`EasyDoc`), patterns in exports included. | `Prog.Moves`, a relation of two programs; every function of the resolution keeps it (Proofs/Moved.lean), from lemmas on texts below a place (Proofs/MovedPath.lean: join, parent, extensions, normalization, package names). Trees: `movedTo_tree`, `alone_mountAt`; description files: `selfContained_of_easy`. |
| C85 | Spec/Enclosed.lean: `InProject`, `SameProject` (two file systems that agree on the paths into a directory; links stay in it), `Enclosed` (a project on its own, see C84). `C85_elsewhere_partial`: calls end alike on both; `C85_inside_partial`: every path in an answer is in the project; `C85_tree_partial`: the same directory in two trees. | The theorems of C84 with both places the same; the relation of answers then says that paths are equal and in the project. |
| C86 | Live model, as C76. `C86_file`: with `IsPath`, `Plain`, `browser_field` off and no directory of that name, a call of `resolve` has ended after `5 * depth + extensions + 21` own steps, with neither hang nor fuel run out, while files come and go. `C86_directory`: for directories too if there are no main fields, which can lead round in circles (`C45_main_violated`). `C86_main`: with main fields, if they lead on only `R` times in a row (`Modest`, see C92). Bare requests (C92) and aliases that apply are not part of the claim. Examples count the steps of four requests. | `Bound` composed over the stages of `resolve` (Proofs/CostPath.lean): description file as in C76, one step per extension, one for the directory, one for the link. |
| C87 | Two tables of resolvers side by side. `C87_order`: if for every target the same aliases apply in the same order (`SameOptions`), the condition names are the same set, and `enforce_extension` is on in both or in neither, the states of the system are equal in every history, and `C87_live` says so while files change at any moment. `C87_swap`: exchanging neighbours of which neither key begins the other is such a case. `C87_aliases`: aliases repeated after their first place (`RepeatedAliases`), on an unchanging file system, with `TsClear`. `C87_extensions`: repeated extensions, in every history. Witnesses: `C87_fields_violated`, `C87_files_violated`. | Literal equality of programs from the congruence of all plugins in the options (Proofs/Congr.lean, Proofs/LiveSame.lean); a repeated alias that failed once fails again because pure programs have no operations; extensions from C62. |
| C88 | Two systems on two file systems, side by side. `Watched o fs p` is the set of paths in Spec/Watched.lean, `SameAt W fs fs'` says that the two agree there (kind, contents, real path; times may differ). `C88_watched`: with `SameAt (Watched …)`, the request has the same answer after any two histories. `C88_side_effects`: the same for side effects. Not covered: browser maps, aliases, tsconfig and requests for packages, which look at further paths; for packages there is C97, and for all C85. | Both calls end as the pure ones do (`static_ends`); the pure stages are literally equal on both (`resolveCtx_watched`), by induction on the loops over extensions, main files, main fields and the depth. |
| C89 | `Fs.Solid` (Spec/EndSep.lean): what is in front of a separator in the path of a file is a directory; every tree has it (`treeFs_solid`). `C89_directory_partial`: for any answers of the caches; `C89_system_partial`: for systems. `C89_same_partial`: the requests with and without the separator (`SameDirectory`), after any two histories. Witness: `C89_hidden_violated`. Missing: options that send the request elsewhere. | No file candidate exists in what is no directory, so the stages end in an error. The comparison: the stages for a directory are related if the paths agree but for the end (Proofs/EndSep.lean), since main fields and main files are joined to it with a separator either way. |
| C90 | The model with single looks (Model/Live, Model/LiveMachine). `Looked` (Spec/Live.lean): call `i` has looked and got this answer. `C90_unseen`: any history, with changes at any moment. `C90_goes_on`: the last change, and calls in progress and after it. `C90_recorded`: another process, `ReplyLike` lets times differ. `C90_own_fails`: the caches know what other calls have looked at. | The history might have been on the new files from the start (`replay`, Proofs/Looks.lean); then C53 and C33. Beyond `isSome`, times do not come into the answer of a fresh resolver (`pure_times`). |
| C91 | The model with single looks. `CallRemarked`, `HistoryRemarked`, `AnswerRemarked` (Spec/Remarked.lean) relate calls, histories and answers. `C91_marks_partial`, `C91_looks_partial`: all requests if no JSON file ever has exports (tsconfig, imports, alias and browser maps included), or all requests by path that no option redirects (exports anywhere). `C91_exports_violated`: the lookup in exports sees query and fragment. | `Live.Alike` (Proofs/Remarked.lean): both calls make the same looks and operations. One lemma for each function of the resolver, with infos that differ in query and fragment (`MI`); then both histories step by step (`SysAlike`). |
| C92 | Live model, as C86, with the caches in any state that a history can leave (also entries of older versions). `Modest` (Spec/CostBare.lean) bounds the targets of exports and imports and the way that main fields go from directory to directory, in all versions. `C92_bare`: with `N = depth path + 1 + depth name + R * d`, a request by name has ended after `5 * N + 18 + depth path * (5 * N + 18 + E + extensions + 4 + dirSteps …) + 1` own steps, with neither hang nor fuel run out. `dirSteps` counts the steps in a package directory, recursively for `R`. `C86_main` is the same for requests by path. Without `Modest` the claim is false (`C45_main_violated`). Aliases that apply, `browser_field` and tsconfig are not part of the claim. Examples: a tree with `R = 0` and the steps of three requests, and a tree with a main field that leads to a directory, `R = 1`. | `Bound` under the invariants of C45 (`Among`, `HaltR`), composed over exports, main fields, the chain in a package and the way up (Proofs/CostBare.lean); the number of targets that exports yield is at most the number of strings (`fieldProcess_count`). |
| C93 | Live model, any number of resolvers and durations. `Covered V fs desc` (Spec/Current.lean): each description file of `fs` has one above it, or is one, that is there in all versions; `InPlace`: moreover description files of all versions are still there in `fs`, unless their directories are gone, and none has had a later time; `NeverMix`: as in C35 for the exports and imports values of all versions. `C93_current`: a call whose looks gave the answers of `fs1`, of a resolver with duration 0, ends as in a fresh resolver on `fs1` (with the seeds as in C33). `C93_after`: in particular, a call that starts after the last change. C35 and C55 show that the same fails with the delay of `Resolver::new` (`C35_race_violated`, `C55_torn_violated`, `C35_malformed_violated`, `C35_overtaken_violated`); one nanosecond is enough for that (`C93_delay_sharp`). Deleted files, times that go back, and new files with none above them are excluded, and must be (`C93_deleted_sharp`, `C93_backwards_sharp`, `C36_above_violated`). The example history has a torn read of another resolver and a malformed file. | The loader with caches that may be out of date is compared with the search without caches (`loadPkgAux_now`): with duration 0 every entry whose file is there is parsed again, and an entry `none` is still right. What the caches can hold comes from `stored_after` (C80); `live_looked` turns the history of the call into answers (Proofs/Current.lean). |
| C94 | Live model. `Touched V fs desc dur` (Spec/Heal.lean): description files of the earlier versions `V` are still there in `fs`, with times at least `dur` later, and `Covered` as in C93; `NotMixed`: as in C35 for the exports and imports values of all versions. `C94_heal`: after any history `l1` whose calls are all over, `change fs1`, and then `Turns` as in C35, every call of the second part ends as in a fresh resolver on the files of its time. The example history has a torn read, a malformed file and two overlapping calls. `C94_touch_sharp`: it gives wrong answers before the touch, right ones after it, and the wrong ones for ever if the touch is a nanosecond less than the delay. That no call may be in progress during the touch is needed by `C55_torn_violated`; that none of the files has been deleted, by `C93_deleted_sharp`. | What the caches hold after `l1` comes from `stored_after` (C61). All of it is too old after the touch, so that it satisfies the invariant of C35 (`freshS_touched`), for a larger set of file systems: for each exports or imports value of an earlier version one that has a file with it (`noteFs`, `changing_noted`), so that the cached trees are accounted for. Calls that are over can be left out of the state (`after_without`), and then the proof is that of C35 in the Live model (`turns_freeze`, `turns_after`). |
| C95 | Live model. `Yields`/`Panics` (Spec/Static.lean) say what a call comes to on unchanging files; the theorems that end in them (C23 to C31, C57 to C59, C65, C67, C68, C74, C83 and others) say when. `YieldsAmid`/`PanicsAmid` (Spec/Amid.lean) say the same for a call that began with these files in any history of calls and updates taking turns (`Turns`, as in C35). `C95_answers`, `C95_panics`: the former imply the latter, under the hypotheses `Changing` of C35. `C95_calls`: so for any statement about the ends of a call, of `resolve` or `load_side_effects`. `C95_require`: so for the answers of Node.js (C83). `C95_healed`: so after any history and a touch of all description files as in C94. The example: `main` of a directory is edited, and afterwards the file that Node.js finds is the answer, in every history; one such history is carried out. That calls may not overlap with each other or with changes is needed by `C35_overtaken_violated`, `C55_torn_violated`. | By `C55_turns_partial` (`C94_heal`) the call ends like one in a fresh resolver, for some hash seeds. That run is itself a history without changes (`fresh_calm`, from `steps_run`), to which the hypothesis applies. |
| C96 | Live model, any number of resolvers and durations. `Kept V fs desc` (Spec/Current.lean): whenever a description file of `fs` was well-formed JSON in the versions `V`, it had the contents it has in `fs`; `InPlace` and `NeverMix` as in C93. `C96_kept`: a call whose looks gave the answers of `fs1` ends as in a fresh resolver on `fs1` (with some hash seeds; with all, if `TsClear`); `fs1` need not be one of the versions. `C96_after`: so for a call that starts after all changes. `C96_answers`: so the call comes to the answer that is known for unchanging files (`Yields`, from C62 to C85). The example deletes and restores the `main` of a directory in the middle of two overlapping calls, and replaces a package by another one, whose description file is malformed at first and is asked for at each stage. `C93_delay_sharp` shows that contents must be kept, `C93_deleted_sharp`, `C93_backwards_sharp` and `C36_above_violated` that `InPlace` is needed. | The proof of C93 for both cases (`current_of`): a stored package that is still used was made from the contents that the file has now, because all contents it ever had are these (`PkgWas` from C80, with the new field `order`: the order of the alias fields is one that a hash seed gives), so it is the package that the file gives now (`pkgWas_same`). |
| C97 | As C88, two systems on two file systems side by side. `WatchedBare o fs path target name` is the set of paths in Spec/WatchedBare.lean: what is `Watched` (C88) by the paths that are `Sought`, and the directory of the package in each `node_modules`. `Sought` over-approximates what exports lead to: every string in them counts as a target, whatever the conditions are, and `FilledWith` allows any end of the request for `*` and after a final `/`. `C97_watched`: with `SameAt (WatchedBare …)`, and `exists` alike at the path that is named (a device is neither file nor directory but exists, so that `SameAt` does not tell), the request has the same answer after any two histories. `DottedExports` is about all description files of the first file system; `C97_hash_fails` shows that it is needed, as a target that begins with `#` leads on to imports. `C97_amid`: the same amid changes, where `SeesFiles` (Spec/SeesFiles.lean) says for each call which files it has seen. Not covered: browser maps, aliases, tsconfig and imports; for those there is C85. | As C88. `resolveCtx_watchedBare`: the pure stages are literally equal on both, by induction on the directories above; the targets that `field_process` gives are strings of the exports (by induction on the tree), filled in with an end of the request (`fieldProcess_req`, `exportsRequestOf_text`). |
| C98 | As C97, two systems on two file systems side by side. `Outside d w` (Spec/OtherPackages.lean): `w` is absolute, is not `d` or below, and does not come through there by `..` (`stand` is where components lead to). `C98_others`: the file systems agree at the paths that are `Outside` of the directories of the packages `pkgs`; each of them is `Unrelated` to the request, `KeepToThemselves` is about main fields and exports, `NoneBeside` about description files in `node_modules`. `C98_install`: in a tree, anything can be put at a location without a change outside of it, which meets the hypothesis. Links are not excluded, but what a link makes visible outside of the directory must then be the same on both. `C98_main_fails` and `C98_beside_fails` show that `KeepToThemselves` and `NoneBeside` are needed. Patterns in exports are covered: the targets must stay out of `node_modules` with every end of the request filled in. `C98_amid`: two calls in histories in which files come and go, such as one before and one after an installation, with what the first has stored; the example in Props/OtherAmid.lean is that case. Not covered: what C97 does not cover. | No path that is `WatchedBare` is in the other package (`watchedBare_out`), so that C97 applies. The invariant `Away` is kept by going on to a path without `..` and `node_modules`; directories with description files have it by `NoneBeside`. |
| C99 | As C98, for requests by path: `C99_by_path` (the path that is named is `Outside` of the directories of the packages, with and without extensions), `C99_side_effects`, and `C99_amid` for histories in which files come and go. `NotOwn` is what remains of `Unrelated`, `MainsStayOut` what remains of `KeepToThemselves`, as exports have no say. `C99_main_fails` and `C99_beside_fails` show that `MainsStayOut` and `NoneBeside` are needed. Not covered: what C88 does not cover. | No path that is `Watched` is in a package (`watched_out`), so that C88 applies. |
| C100 | `NoModulesBelow fs k p q` (Spec/Below.lean): `q` is `k` directories above `p`, without `node_modules` in `p` and the directories on the way. `C100_below`: two calls for the same request, one from `p` and one from `q`, end alike, in any two histories; the bound on nested calls (`fuel`) is larger by `k` for the call from below. `C100_amid` is the same for histories in which files come and go. `C100_load_fails` shows that it matters that the first description can be loaded: the code looks for one at `node_modules/<target>` of the directory that is asked, even if there is no such directory. Not covered: tsconfig, aliases and browser entries that apply. | Induction on `k` (`modules_below`): the search of a directory without `node_modules` is the search of its parent. |

## 6. Where the code disagrees with the properties
All proved in `Verif/Props`, by evaluating the model on a concrete case in the kernel and,
where it says "every history", by a theorem that transfers it.

| id | what happens | theorem |
|---|---|---|
| C04 | `assert/strict` is missing, `assert/,strict` is accepted (src/kind.rs:32) | `C04_builtin_violated` |
| C13, C14 | a package directory without main file makes the search go on with an empty target: a file that is no candidate is returned, or a candidate is missed; the name of a package is cut at a byte offset counted in characters, so a name that is not ASCII is looked up cut off | `C13_nearest_violated`, `C14_exhaustive_violated`, `C13_name_violated` |
| C15 | tsconfig `paths` win over an ignored alias; a missing tsconfig is an error first | `C15_tsconfig_violated` |
| C16, C17 | with prefer_relative, aliases apply to `./` + request | `C16_unrelated_violated`, `C17_in_order_violated` |
| C18 | an alias for the request comes before the relative reading | `C18_prefer_violated` |
| C18 | a `#` request with `./` in front is a request for the directory; `prefer_relative` looks for a file of the name `#…` instead | `C18_hash_violated` |
| C19 | byte and character positions are mixed in the trie: a shorter `*` key can win | `C19_selection_violated` |
| C22 | `$` in the matched text is doubled; `*` in the target of an exact key is replaced in nested directories | `C22_star_violated`, `C22_exact_violated` |
| C23 | empty segments count as a step down, so targets escape the package | `C23_escape_violated` |
| C23 | what a `*` at the beginning of a target stands for may be an absolute path, so a request leads to any file on the disk; a `browser` map leads from a target of exports out of the package | `C23_absolute_violated`, `C23_browser_violated` |
| C24 | `#x` in a package without imports is looked up in node_modules | `C24_hash_violated` |
| C26 | enforced extensions apply to exports targets; if there is no file with an extension, a package of the same name further up is taken; targets starting with `#` go through imports | `C26_extension_violated`, `C26_outer_violated`, `C26_hash_violated` |
| C27 | `"browser": {"x": true}` panics, `browser` may be a main field, with browser_field off | `C27_panic_violated`, `C27_main_violated` |
| C28 | for bare requests the browser map of the requested package is asked, not that of the requesting one | `C28_bare_violated` |
| C29, C49 | two browser keys that cover the same path: hash order decides | `C29_order_violated`, `C49_order_violated` |
| C49 | two matching `paths` entries: hash order decides | `C49_tsconfig_violated` |
| C30, C31 | after a main field that names a directory which does not resolve, later fields and main files are seen from that directory | `C30_order_violated`, `C31_order_violated` |
| C31 | after a main file that the `browser` map of another directory's package replaces by something that is not there, the next main files are looked for in that directory | `C31_browser_violated` |
| C32-C34, C38 | imports trees are stored in the cache of exports trees, under their text (src/description.rs:93): an equal exports value of another package gets the imports tree | `C38_mixed_violated`, `C32_mixed_violated`, `C33_mixed_violated`, `C34_mixed_violated` |
| C33 | debug builds panic when a malformed file is read again | `C33_debug_violated` |
| C63 | debug builds panic when two calls parse the same file at the same time, or when the name of the description file is absolute | `C63_race_violated`, `C63_absolute_violated` |
| C64 | `prefer_relative`, aliases and tsconfig look at the text of the request; a separator at the end decides whether an extension may be added | `C64_options_violated`, `C64_end_violated` |
| C65 | a bare target of imports must be a file or in a package with exports: `#m` with target `m` fails although the request `m` resolves | `C65_main_violated` |
| C65 | aliases, `prefer_relative`, tsconfig paths and `browser` maps come before or after imports | `C65_options_violated` |
| C25 | keys beyond ASCII: another key than the longest is taken | `C25_key_violated` |
| C46 | a deleted description file is still reported | `C46_deleted_violated` |
| C35 | malformed contents are reported once, then the old contents are used; races with calls in progress | `C35_malformed_violated`, `C35_race_violated`, `C35_overtaken_violated` |
| C36 | deleted description files are still used; created ones above a visited directory are not noticed | `C36_deleted_violated`, `C36_above_violated` |
| C37, C46 | resolvers with different description-file names and one cache see each other's packages | `C37_description_violated`, `C46_shared_violated` |
| C40 | a star does not match the empty text; requests beyond ASCII panic | `C40_star_violated` |
| C43 | imports, exports patterns and tsconfig paths lose or change the query | `C43_query_violated` |
| C44 | panics: directory without main file, unreadable exports / imports, `@scope` without name, module names beyond ASCII, empty or ill-shaped tsconfig | `C44_*_violated` |
| C45 | infinite recursion through aliases, imports, browser entries, main fields, tsconfig `extends`; endless loop on relative base paths; a stale cache entry and a new file that lead to each other, though no version of the files goes round in circles | `C45_*_violated`, `Live.C45_stale_violated` |
| C54 | the loop that records "no description file" for parent directories (src/description.rs:206-217) does not move when its first directory has been removed since the check before it, and spins for ever | `Live.C54_spin_violated` |
| C55 | contents are read before the modification time (src/fs.rs:56-67): a write in between stores old contents with the new time, so the write is never noticed | `Live.C55_torn_violated` |
| C56 | a call during which a package is replaced may answer with a file that is the answer neither before nor after | `Live.C56_mixed_violated` |
| C57 | with the request `.` the base path `/p` gives `/p.js`, and `/p/` gives `/p/index.js` | `C57_end_violated` |
| C58 | with prefer_relative an absolute request is first looked up below the base directory; an alias can make a relative request of it | `C58_prefer_violated`, `C58_alias_violated` |
| C59 | a returned path with `?` in it is read as path and query; a broken description file between file and package is read only when the path is resolved itself; with enforced extensions, a `browser` map that covers it, an alias, prefer_relative or a tsconfig the path names another file or none | `C59_mark_violated`, `C59_broken_violated`, `C59_enforced_violated`, `C59_browser_violated`, `C59_options_violated` |
| C67 | the joined form of the result for a file with `?` in its name is that of another file with a query | `C67_mark_violated`, `C67_same_violated` |
| C68 | text after the `*` of a key, an empty match, keys that end in `/` or are `/`, `default` that is not last, `null` and conditions in arrays, targets without `./` or into `node_modules`, `..` or `$` in the matched text, and arrays whose first target is no file are treated in another way than by Node.js | `C68_trailer_violated`, `C68_empty_violated`, `C68_folder_violated`, `C68_slash_violated`, `C68_values_violated`, `C68_targets_violated`, `C68_text_violated`, `C68_array_violated` |
| C60 | with symlinks off, `..` after a symbolic link is removed with the link's name: the returned path need not exist (C59 fails with it) | `C60_link_violated` |
| C70 | a `browser` entry for a path with the new extension takes effect though there is no such file; a tsconfig may extend another file | `C70_browser_violated`, `C70_tsconfig_violated` |
| C74 | without a `node_modules` directory in the package a self-reference is not found; the name is compared as a plain prefix, so that `lib-extra/y` asked for in the package `lib` comes to the export `./y` of `lib` | `C74_modules_violated`, `C74_prefix_violated` |
| C77 | After a description file is deleted, calls for its directory answer from the old entry until a call for a directory below overwrites that entry. With a shared cache, calls of another resolver change the answer. | `C77_deleted_violated`, `C77_shared_violated` |
| C78 | Relative requests are mapped; an inherited `baseUrl` is relative to the inheriting file; `paths` without `baseUrl` do nothing; `paths` of extended files stay in force; with several fitting patterns the order is that of a hash map; names are not looked up below `baseUrl`; an `extends` that is not found or is a list is passed over; a `*` in the directory's name is replaced. | `C78_relative_violated`, `C78_inherited_violated`, `C78_alone_violated`, `C78_merged_violated`, `C78_longest_violated`, `C78_base_violated`, `C78_lost_violated`, `C78_star_violated` |
| C79 | `load_side_effects` of a relative path that does not exist returns the internal marker `T0` as its message. | `C79_marker_violated` |
| C80 | A directory gets an entry for each spelling with `..`, so the cache can grow without bound on a fixed set of files. | `C80_spelling_violated` |
| C81 | With symlinks off one file is answered under several paths. | `C81_off_violated` |
| C82 | A new file can make an answer move to an old file: by a `browser` map, by an enforced extension, by imports after exports, as `node_modules/mm` next to a package named `m`, as a description file, as what a tsconfig extends. | `C82_browser_violated`, `C82_enforced_violated`, `C82_imports_violated`, `C82_place_violated`, `C82_description_violated`, `C82_tsconfig_violated` |
| C83 | Other than Node.js, the code panics on a directory in which nothing is found, takes a file `index` without extension, follows the `main` of a directory that a `main` names, reads `?` in a file name as a query, looks for `node_modules` in `node_modules`, does not find a package from itself without a `node_modules` directory, takes the exports of the package above if its name is the beginning of the one asked for or if the package has no description file, misses the exports of a package with a description file further down, and finds packages with the name of a core module. It takes an installed package before the package that asks for itself. For `#` requests that lead to a package without exports it does not look at the `main`, it looks for packages only in the `node_modules` of the package the request comes from, and it reads a `#` target through imports again. | `C83_dead_violated`, `C83_index_violated`, `C83_main_violated`, `C83_query_violated`, `C83_nested_violated`, `C83_self_violated`, `C83_name_violated`, `C83_bare_violated`, `C83_inner_violated`, `C83_core_violated`, `C83_self_installed_violated`, `C83_hash_main_violated`, `C83_hash_hoisted_violated`, `C83_hash_again_violated` |
| C84 | The text `node_modules` anywhere in the path of a project changes how the exports of its package are applied; requests, mains and aliases can name the place; files next to the project and directories above it count. | `C84_modules_violated`, `C84_out_violated`, `C84_main_violated`, `C84_alias_violated`, `C84_next_violated`, `C84_above_violated` |
| C85 | A file next to a project with its name and an extension is taken for the project; description files above it count; targets of exports with empty segments lead out of it. | `C85_next_violated`, `C85_above_violated`, `C85_escape_violated` |
| C87 | A repeated main field, or a repeated main file under a `browser` map, changes the answer: the loop goes on from the directory that the failed look left behind (src/plugin/main_field.rs:26-54, src/plugin/main_file.rs:22-34). | `C87_fields_violated`, `C87_files_violated` |
| C89 | A file whose whole name is an extension is found by a request that ends in a separator: the extension is appended to the text of the path (src/resolve.rs:13-15). | `C89_hidden_violated` |
| C91 | Query and fragment take part in the lookup in exports (src/plugin/exports_field.rs:47-78): with `{".": "./b.js"}` the request `m` leads to a file and `m?x` fails; a key `./?x` is found by `m?x`. | `C91_exports_violated` |

For C44 the list of causes is complete: `C44_history_partial` says that every panic of the
model, in every history, is blamed on one of the items of `Blame` (Spec/Panics.lean), or is the
check of debug builds that no file is parsed twice (`C33_debug_violated`).
